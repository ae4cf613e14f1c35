import Verif.Lemmas.Dialog

/-!
# C205: a client and a server talking to each other
-/

namespace Verif.Props
open Verif.Dialog Verif.Reader Verif.Writer
open Verif.ServerRpc (Srv Sent Body Text)
open Verif.ClientMsg (Kind ReplyRes Parsed buffered)

theorem dialog_step {v : Version} {x : Xml} {srv : Srv} {ops : List ServerRpc.Op} {ntfs : List Notif} (hx : Faithful v x srv ops ntfs)
    (hcb : ∀ c op, (srv.run c op .running Poll.tNone).status = .running) {s : St} (hi : Inv v x srv ops s) (a : Act) (hu : Uses ops ntfs a)
    (hn : s.asked.length + [a].countP (fun a => (opOf a).isSome) < 2 ^ 64) :
    step v x srv s a = .lost ∨ ∃ s', step v x srv s a = .ok s' ∧ Inv v x srv ops s' ∧ s'.asked.length = s.asked.length + [a].countP (fun a => (opOf a).isSome) ∧
      s'.asked.map (·.2) = s.asked.map (·.2) ++ (opOf a).toList ∧
      s'.notified = (if s.srv.status = .running then s.notified ++ (ntfOf a).toList else s.notified) ∧ (s.srv.status ≠ .running → s'.srv = s.srv) := by
  cases a with
  | rpc op w =>
    obtain ⟨s', h1, h2, h3, h4, h5⟩ := rpc_inv hx hi op w hu.1 hu.2 (by simpa [opOf] using hn)
    exact Or.inr ⟨s', h1, h2, by simp [h3, opOf], by simp [h3, opOf], by simp [h4, ntfOf], fun _ => h5⟩
  | poll r w =>
    rcases poll_inv hx hcb hi r w hu with h | ⟨s', h1, h2, h3, h4, h5, -⟩
    · exact Or.inl h.1
    · exact Or.inr ⟨s', h1, h2, by simp [h3, opOf], by simp [h3, opOf], by simp [h4, ntfOf], h5⟩
  | notify n w =>
    obtain ⟨s', h1, h2, h3, h4, h5⟩ := notify_inv hx hi n w hu.1 hu.2
    exact Or.inr ⟨s', h1, h2, by simp [h3, opOf], by simp [h3, opOf], by simp [h4, ntfOf], fun _ => h5⟩
  | recvReply id lock r =>
    rcases recvReply_inv hx hi id lock r with h | ⟨s', h1, h2, h3, h4, h5, -⟩
    · exact Or.inl h.1
    · exact Or.inr ⟨s', h1, h2, by simp [h3, opOf], by simp [h3, opOf], by simp [h4, ntfOf], fun _ => h5⟩
  | recvNotif lock r =>
    rcases recvNotif_inv hi lock r with h | ⟨s', h1, h2, h3, h4, h5, -⟩
    · exact Or.inl h.1
    · exact Or.inr ⟨s', h1, h2, by simp [h3, opOf], by simp [h3, opOf], by simp [h4, ntfOf], fun _ => h5⟩

theorem dialog_run {v : Version} {x : Xml} {srv : Srv} {ops : List ServerRpc.Op} {ntfs : List Notif} (hx : Faithful v x srv ops ntfs)
    (hcb : ∀ c op, (srv.run c op .running Poll.tNone).status = .running) (acts : List Act) : ∀ s : St, Inv v x srv ops s → (∀ a ∈ acts, Uses ops ntfs a) →
    s.asked.length + acts.countP (fun a => (opOf a).isSome) < 2 ^ 64 →
    run v x srv s acts = .lost ∨ ∃ s', run v x srv s acts = .ok s' ∧ Inv v x srv ops s' ∧ s'.asked.map (·.2) = s.asked.map (·.2) ++ acts.filterMap opOf ∧
      (∃ p, s'.notified = s.notified ++ p ∧ p <+: acts.filterMap ntfOf ∧ (s'.srv.status = .running → p = acts.filterMap ntfOf)) ∧
      (s.srv.status ≠ .running → s'.srv = s.srv ∧ s'.notified = s.notified) := by
  induction acts with
  | nil => intro s hi _ _; exact Or.inr ⟨s, rfl, hi, by simp, ⟨[], by simp, by simp, fun _ => rfl⟩, fun _ => ⟨rfl, rfl⟩⟩
  | cons a acts ih =>
    intro s hi hu hn
    rw [show a :: acts = [a] ++ acts from rfl, List.countP_append] at hn
    unfold run
    rcases dialog_step hx hcb hi a (hu a List.mem_cons_self) (by omega) with h | ⟨s1, h1, h2, h3, h4, h5, h6⟩
    · rw [h]; exact Or.inl rfl
    · rw [h1]
      dsimp only
      rcases ih s1 h2 (fun b hb => hu b (List.mem_cons_of_mem _ hb)) (by omega) with h | ⟨s', g1, g2, g3, ⟨p, g4, g5, g6⟩, g7⟩
      · exact Or.inl h
      · refine Or.inr ⟨s', g1, g2, ?_, ?_, ?_⟩
        · rw [g3, h4, List.append_assoc]
          congr 1
          cases h : opOf a <;> simp [h]
        · have hfm : (a :: acts).filterMap ntfOf = (ntfOf a).toList ++ acts.filterMap ntfOf := by
            cases h : ntfOf a <;> simp [h]
          rw [hfm]
          by_cases hs : s.srv.status = .running
          · rw [if_pos hs] at h5
            refine ⟨(ntfOf a).toList ++ p, by rw [g4, h5, List.append_assoc], (List.prefix_append_right_inj _).2 g5, fun hr => by rw [g6 hr]⟩
          · rw [if_neg hs] at h5
            have hs1 : s1.srv.status ≠ .running := by rw [h6 hs]; exact hs
            obtain ⟨e1, e2⟩ := g7 hs1
            refine ⟨[], by rw [e2, h5]; simp, by simp, fun hr => absurd hr ?_⟩
            rw [e1]; exact hs1
        · intro hs
          have hs1 : s1.srv.status ≠ .running := by rw [h6 hs]; exact hs
          obtain ⟨e1, e2⟩ := g7 hs1
          exact ⟨by rw [e1, h6 hs], by rw [e2, h5, if_neg hs]⟩

/-- **C205.** A client and a server, whatever they do in whatever order, over a connection that splits and delays what is written and read as it likes
or breaks while reading: as long as libyang reads what it printed and messages can be framed, nothing is misunderstood (no malformed message, unknown
message, NULL pointer or access outside of memory), and until the connection breaks:

* the RPCs are those of the application, with ids 1, 2, …;
* the server answers the first of them, in order, each exactly once with its id and the result of its callback;
* exactly the callbacks of the answered RPCs were called, once each and in order;
* the session of the server ends only by a callback that wants so; it goes on answering as long as there is something to read;
* the client gets these replies in order; the reply is said to match exactly if the id asked for is the one told when sending the RPC it answers;
* the notifications of a running session are received in order, each once, whole;
* nothing gets lost: when nothing is on the way or kept, everything was received; reading byte by byte what is on the way never breaks,
  and each call for replies or notifications then gives one or takes a message of the other kind from the connection, until there is none. -/
theorem dialog (v : Version) (x : Xml) (srv : Srv) (ops : List ServerRpc.Op) (ntfs : List Notif) (acts : List Act) (hx : Faithful v x srv ops ntfs)
    (hcb : ∀ c op, (srv.run c op .running Spec.whyNone).status = .running) (hu : ∀ a ∈ acts, Uses ops ntfs a) (hn : (acts.filterMap opOf).length < 2 ^ 64) :
    run v x srv (start (v == .v11)) acts = .lost ∨ ∃ s, run v x srv (start (v == .v11)) acts = .ok s ∧
      s.asked = (acts.filterMap opOf).mapIdx (fun k op => (k + 1, op)) ∧
      (s.srv.sent.length ≤ s.asked.length ∧
        ∀ k (h : k < s.srv.sent.length), ∃ id op b, s.asked[k]? = some (id, op) ∧ s.srv.sent[k] = replyTo id b ∧ Answers srv op b) ∧
      CallsOf srv ((s.asked.take s.srv.sent.length).map (·.2)) s.srv.calls ∧
      (s.srv.status = .running ∨ ∃ c op l, s.srv.calls = l ++ [(c, op)] ∧ (srv.run c op .running Spec.whyNone).reason ≠ Spec.whyNone) ∧
      (∀ r w, NoFail w → s.srv.status = .running → s.up ≠ [] → (step v x srv s (.poll r w) = .lost ∧ r ≠ byteWise s.up) ∨
        ∃ s', step v x srv s (.poll r w) = .ok s' ∧ s'.srv.sent.length = s.srv.sent.length + 1) ∧
      (s.replies.length ≤ s.srv.sent.length ∧
        ∀ k (h : k < s.replies.length), ∃ asked id op b res, s.replies[k] = (asked, res, some b) ∧ s.asked[k]? = some (id, op) ∧ s.srv.sent[k]? = some (replyTo id b) ∧
          (res = .reply ↔ asked = id) ∧ res ≠ .error) ∧
      (s.notified <+: acts.filterMap ntfOf ∧ (s.srv.status = .running → s.notified = acts.filterMap ntfOf)) ∧
      s.notifs <+: s.notified.map (fun n => chars (ntfText x n)) ∧
      (s.srv.status = .running → s.up = [] → s.srv.sent.length = s.asked.length) ∧
      (s.down = [] → s.kept = [] → s.replies.length = s.srv.sent.length ∧ s.notifs = s.notified.map (fun n => chars (ntfText x n))) ∧
      (∀ id, ∃ s', step v x srv s (.recvReply id .got (byteWise s.down)) = .ok s' ∧ (s'.replies.length = s.replies.length + 1 ∨ s'.down.length < s.down.length ∨
        (s.down = [] ∧ ∀ m ∈ s.kept, m.1 ≠ .reply))) ∧
      (∃ s', step v x srv s (.recvNotif .got (byteWise s.down)) = .ok s' ∧ (s'.notifs.length = s.notifs.length + 1 ∨ s'.down.length < s.down.length ∨
        (s.down = [] ∧ ∀ m ∈ s.kept, m.1 ≠ .notif))) ∧
      (∀ op w, op ∈ ops → NoFail w → s.asked.length + 1 < 2 ^ 64 →
        ∃ s', step v x srv s (.rpc op w) = .ok s' ∧ s'.asked = s.asked ++ [(s.asked.length + 1, op)]) ∧
      (∀ n w, n ∈ ntfs → NoFail w → s.srv.status = .running → ∃ s', step v x srv s (.notify n w) = .ok s' ∧ s'.notified = s.notified ++ [n]) := by
  simp only [Poll.whyNone_eq] at *
  have hcount : acts.countP (fun a => (opOf a).isSome) = (acts.filterMap opOf).length := by
    rw [List.length_filterMap_eq_countP]
  rcases dialog_run hx hcb acts _ (start_inv v x srv ops (v == .v11)) hu (by rw [hcount]; simpa [start] using hn) with h | ⟨s, h1, hi, h3, ⟨p, h4, h5, h6⟩, -⟩
  · exact Or.inl h
  · right
    have hops : s.asked.map (·.2) = acts.filterMap opOf := by simpa [start] using h3
    have hntf : s.notified = p := by simpa [start] using h4
    obtain ⟨l, g1, g2, g3⟩ := hi.down
    refine ⟨s, h1, ?_, ⟨hi.le, ?_⟩, hi.calls, hi.ended, ?_, ⟨hi.rle, ?_⟩, ⟨by rw [hntf]; exact h5, fun hr => by rw [hntf]; exact h6 hr⟩, ⟨_, g3⟩, ?_, ?_, ?_, ?_, ?_, ?_⟩
    · apply List.ext_getElem?
      intro k
      rw [← hops, List.getElem?_mapIdx, List.getElem?_map]
      cases hk : s.asked[k]? with
      | none => rfl
      | some q =>
        obtain ⟨id, op⟩ := q
        have := (hi.ids k _ hk).1
        simp only [Option.map_some]
        rw [← this]
    · intro k hk
      obtain ⟨q, b, e1, e2, e3⟩ := hi.sent k _ (List.getElem?_eq_getElem hk)
      exact ⟨q.1, q.2, b, e1, e2, e3⟩
    · intro r w hw hs hup
      rcases poll_inv hx hcb hi r w hw with h | ⟨s', e1, -, -, -, -, e2⟩
      · exact Or.inl h
      · exact Or.inr ⟨s', e1, by rw [e2, if_pos ⟨hs, hup⟩]⟩
    · intro k hk
      obtain ⟨⟨asked, res, b⟩, hrk⟩ : ∃ z, s.replies[k] = z := ⟨_, rfl⟩
      rw [hrk]
      obtain ⟨q, y, e1, e2, e3, e4, e5⟩ := hi.handed k asked res b (by rw [List.getElem?_eq_getElem hk, hrk])
      obtain ⟨q', b', f1, f2, -⟩ := hi.sent k y e2
      rw [e1] at f1
      cases f1
      refine ⟨asked, q.1, q.2, b', res, by rw [e3, f2]; rfl, e1, by rw [e2, f2], e4, e5⟩
    · intro hr hup
      have hf := hi.up
      rw [hup] at hf
      generalize hl : (s.asked.drop s.srv.sent.length).map (fun p => rpcText x p.1 p.2) = ll at hf
      have hll : ll = [] := by
        cases hll : ll with
        | nil => rfl
        | cons t l => rw [hll] at hf; exact absurd rfl hf.head.1
      rw [hll] at hl
      have := congrArg List.length hl
      simp at this
      have := hi.le
      omega
    · intro hd hk
      have hl : l = [] := by
        cases hl : l with
        | nil => rfl
        | cons m l => rw [hl, hd] at g1; exact absurd rfl (Frames.head g1.1).1
      rw [hk, hl] at g2 g3
      refine ⟨?_, by simpa [pend, buffered] using g3⟩
      have := congrArg List.length g2
      simp [pend, buffered] at this
      have := hi.rle
      omega
    · intro id
      rcases recvReply_inv hx hi id .got (byteWise s.down) with ⟨-, h | h⟩ | ⟨s1, e1, -, -, -, -, e2⟩
      · cases h
      · exact absurd rfl h
      · refine ⟨s1, e1, ?_⟩
        rcases e2 rfl with h | h | ⟨h, h'⟩
        · exact Or.inl h
        · exact Or.inr (Or.inl h)
        · exact Or.inr (Or.inr ⟨h, fun m hm hk => by
            have : m.2 ∈ buffered .reply s.kept := List.mem_map.2 ⟨m, List.mem_filter.2 ⟨hm, by simpa using hk⟩, rfl⟩
            rw [h'] at this; cases this⟩)
    · rcases recvNotif_inv hi .got (byteWise s.down) with ⟨-, h | h⟩ | ⟨s1, e1, -, -, -, -, e2⟩
      · cases h
      · exact absurd rfl h
      · refine ⟨s1, e1, ?_⟩
        rcases e2 rfl with h | h | ⟨h, h'⟩
        · exact Or.inl h
        · exact Or.inr (Or.inl h)
        · exact Or.inr (Or.inr ⟨h, fun m hm hk => by
            have : m.2 ∈ buffered .notif s.kept := List.mem_map.2 ⟨m, List.mem_filter.2 ⟨hm, by simpa using hk⟩, rfl⟩
            rw [h'] at this; cases this⟩)
    · intro op w hop hw hlt
      obtain ⟨s', e1, -, e2, -⟩ := rpc_inv hx hi op w hop hw hlt
      exact ⟨s', e1, e2⟩
    · intro n w hm hw hr
      obtain ⟨s', e1, -, -, e2, -⟩ := notify_inv hx hi n w hm hw
      rw [if_pos hr] at e2
      exact ⟨s', e1, e2⟩

theorem dialog_snoc (v : Version) (x : Xml) (srv : Srv) (a : Act) : ∀ (acts : List Act) (s0 s : St), run v x srv s0 acts = .ok s →
    run v x srv s0 (acts ++ [a]) = step v x srv s a
  | [], s0, s, h => by
    cases h
    show run v x srv s0 [a] = _
    unfold run
    cases step v x srv s0 a <;> rfl
  | b :: acts, s0, s, h => by
    rw [List.cons_append]
    unfold run at h ⊢
    cases hb : step v x srv s0 b with
    | ok s1 => rw [hb] at h; exact dialog_snoc v x srv a acts s1 s h
    | lost => rw [hb] at h; cases h
    | broken => rw [hb] at h; cases h

theorem recvReply_notifs {v : Version} {x : Xml} {s s' : St} {id : Nat} {lock : ClientMsg.Lock} {r : Reading} (h : Dialog.recvReply v x s id lock r = .ok s') :
    s'.notifs = s.notifs ∧ s.replies.length ≤ s'.replies.length ∧ s'.up = s.up := by
  unfold Dialog.recvReply at h
  generalize hr : Dialog.recv v s .reply lock r = q at h
  have hs : q.2.notifs = s.notifs ∧ q.2.replies = s.replies ∧ q.2.up = s.up := by rw [← hr]; exact ⟨rfl, rfl, rfl⟩
  obtain ⟨o, q⟩ := q
  obtain ⟨h1, h2, h3⟩ := hs
  dsimp only at h1 h2 h3
  split at h
  all_goals first
    | (simp only [Prod.mk.injEq] at *; cases h; rename_i e; obtain ⟨-, rfl⟩ := e; exact ⟨h1, by simp [h2], h3⟩)
    | (split at h <;> cases h)
    | cases h

theorem recvNotif_replies {v : Version} {s s' : St} {lock : ClientMsg.Lock} {r : Reading} (h : Dialog.recvNotif v s lock r = .ok s') :
    s'.replies = s.replies ∧ s.notifs.length ≤ s'.notifs.length ∧ s'.up = s.up := by
  unfold Dialog.recvNotif at h
  generalize hr : Dialog.recv v s .notif lock r = q at h
  have hs : q.2.notifs = s.notifs ∧ q.2.replies = s.replies ∧ q.2.up = s.up := by rw [← hr]; exact ⟨rfl, rfl, rfl⟩
  obtain ⟨o, q⟩ := q
  obtain ⟨h1, h2, h3⟩ := hs
  dsimp only at h1 h2 h3
  split at h
  all_goals first
    | (simp only [Prod.mk.injEq] at *; cases h; rename_i e; obtain ⟨-, rfl⟩ := e; exact ⟨h2, by simp [h1], h3⟩)
    | (split at h <;> cases h)
    | cases h

/-- **C205.** Nothing has to stay unanswered or unread: whatever was done before, as long as callbacks do not end the session the server and the client
can go on with polls and calls for receiving alone until every RPC was answered and every reply and every notification was received. -/
theorem dialog_completes (v : Version) (x : Xml) (srv : Srv) (ops : List ServerRpc.Op) (ntfs : List Notif) (acts : List Act) (hx : Faithful v x srv ops ntfs)
    (hcb : ∀ c op, (srv.run c op .running Spec.whyNone).status = .running ∧ (srv.run c op .running Spec.whyNone).reason = Spec.whyNone)
    (hu : ∀ a ∈ acts, Uses ops ntfs a) (hn : (acts.filterMap opOf).length < 2 ^ 64) (s : St) (h : run v x srv (start (v == .v11)) acts = .ok s) :
    ∃ more s', (∀ a ∈ more, opOf a = none ∧ ntfOf a = none) ∧ run v x srv (start (v == .v11)) (acts ++ more) = .ok s' ∧ s'.asked = s.asked ∧
      s'.replies.length = s.asked.length ∧ s'.notifs = (acts.filterMap ntfOf).map (fun n => chars (ntfText x n)) := by
  have key : ∀ (more : List Act) (s' : St), (∀ a ∈ more, opOf a = none ∧ ntfOf a = none ∧ Uses ops ntfs a) →
      run v x srv (start (v == .v11)) (acts ++ more) = .ok s' →
      s'.asked = s.asked ∧ s'.notified = acts.filterMap ntfOf ∧ s'.srv.status = .running ∧ s'.srv.sent.length ≤ s.asked.length ∧ s'.replies.length ≤ s'.srv.sent.length ∧
      s'.notifs.length ≤ (acts.filterMap ntfOf).length ∧ (s'.up = [] → s'.srv.sent.length = s.asked.length) ∧
      (s'.down = [] → s'.kept = [] → s'.replies.length = s'.srv.sent.length ∧ s'.notifs = (acts.filterMap ntfOf).map (fun n => chars (ntfText x n))) ∧
      (∀ r w, NoFail w → s'.up ≠ [] → (step v x srv s' (.poll r w) = .lost ∧ r ≠ byteWise s'.up) ∨
        ∃ s'', step v x srv s' (.poll r w) = .ok s'' ∧ s''.srv.sent.length = s'.srv.sent.length + 1) ∧
      (∀ id, ∃ s'', step v x srv s' (.recvReply id .got (byteWise s'.down)) = .ok s'' ∧ (s''.replies.length = s'.replies.length + 1 ∨ s''.down.length < s'.down.length ∨
        (s'.down = [] ∧ ∀ m ∈ s'.kept, m.1 ≠ .reply))) ∧
      (∃ s'', step v x srv s' (.recvNotif .got (byteWise s'.down)) = .ok s'' ∧ (s''.notifs.length = s'.notifs.length + 1 ∨ s''.down.length < s'.down.length ∨
        (s'.down = [] ∧ ∀ m ∈ s'.kept, m.1 ≠ .notif))) := by
    intro more s' hm hr
    have f1 : (acts ++ more).filterMap opOf = acts.filterMap opOf := by
      rw [List.filterMap_append, List.filterMap_eq_nil_iff.2 fun a ha => (hm a ha).1, List.append_nil]
    have f2 : (acts ++ more).filterMap ntfOf = acts.filterMap ntfOf := by
      rw [List.filterMap_append, List.filterMap_eq_nil_iff.2 fun a ha => (hm a ha).2.1, List.append_nil]
    have d0 := dialog v x srv ops ntfs acts hx (fun c op => (hcb c op).1) hu hn
    have d1 := dialog v x srv ops ntfs (acts ++ more) hx (fun c op => (hcb c op).1)
      (fun a ha => (List.mem_append.1 ha).elim (hu a) fun h => (hm a h).2.2) (by rw [f1]; exact hn)
    rw [h] at d0
    rw [hr, f1, f2] at d1
    obtain ⟨_, e0, a0, -⟩ := d0.resolve_left (by simp)
    cases e0
    obtain ⟨_, e1, a1, ⟨a2, -⟩, -, a4, a5, ⟨a6, -⟩, ⟨-, a8⟩, a9, a10, a11, a12, a13, -⟩ := d1.resolve_left (by simp)
    cases e1
    have hrun : s'.srv.status = .running := a4.resolve_right fun ⟨c, op, _, _, h⟩ => h (hcb c op).2
    have hasked : s'.asked = s.asked := by rw [a1, a0]
    refine ⟨hasked, a8 hrun, hrun, by rw [← hasked]; exact a2, a6, ?_, fun hup => by rw [← hasked]; exact a10 hrun hup, fun h1 h2 => ?_,
      fun r w hw hup => a5 r w hw hrun hup, a12, a13⟩
    · have := a9.length_le
      rwa [List.length_map, a8 hrun] at this
    · rw [a11 h1 h2 |>.1, a11 h1 h2 |>.2, a8 hrun]
      exact ⟨rfl, rfl⟩
  -- the server answers everything
  have polls : ∀ n more s', (∀ a ∈ more, opOf a = none ∧ ntfOf a = none ∧ Uses ops ntfs a) → run v x srv (start (v == .v11)) (acts ++ more) = .ok s' →
      s.asked.length - s'.srv.sent.length = n →
      ∃ more' s'', (∀ a ∈ more', opOf a = none ∧ ntfOf a = none ∧ Uses ops ntfs a) ∧ run v x srv (start (v == .v11)) (acts ++ more') = .ok s'' ∧ s''.up = [] := by
    intro n
    induction n with
    | zero =>
      intro more s' hm hr hn
      obtain ⟨-, -, -, h1, -, -, h2, -, h3, -⟩ := key more s' hm hr
      by_cases hup : s'.up = []
      · exact ⟨more, s', hm, hr, hup⟩
      · rcases h3 (byteWise s'.up) [] (by simp [NoFail]) hup with ⟨-, h⟩ | ⟨s1, g1, g2⟩
        · exact absurd rfl h
        · have hr1 := dialog_snoc v x srv (.poll (byteWise s'.up) []) (acts ++ more) _ _ hr
          rw [g1, List.append_assoc] at hr1
          have := (key (more ++ [.poll (byteWise s'.up) []]) s1 (by
            intro a ha
            rcases List.mem_append.1 ha with ha | ha
            · exact hm a ha
            · cases List.mem_singleton.1 ha; exact ⟨rfl, rfl, by simp [Uses, NoFail]⟩) hr1).2.2.2.1
          omega
    | succ n ih =>
      intro more s' hm hr hn
      obtain ⟨-, -, -, h1, -, -, h2, -, h3, -⟩ := key more s' hm hr
      by_cases hup : s'.up = []
      · exact ⟨more, s', hm, hr, hup⟩
      · rcases h3 (byteWise s'.up) [] (by simp [NoFail]) hup with ⟨-, h⟩ | ⟨s1, g1, g2⟩
        · exact absurd rfl h
        · have hr1 := dialog_snoc v x srv (.poll (byteWise s'.up) []) (acts ++ more) _ _ hr
          rw [g1, List.append_assoc] at hr1
          refine ih (more ++ [.poll (byteWise s'.up) []]) s1 (fun a ha => ?_) hr1 (by omega)
          rcases List.mem_append.1 ha with ha | ha
          · exact hm a ha
          · cases List.mem_singleton.1 ha; exact ⟨rfl, rfl, by simp [Uses, NoFail]⟩
  -- the client receives everything
  have recvs : ∀ n d more s', (∀ a ∈ more, opOf a = none ∧ ntfOf a = none ∧ Uses ops ntfs a) → run v x srv (start (v == .v11)) (acts ++ more) = .ok s' →
      s'.up = [] → (s.asked.length - s'.replies.length) + ((acts.filterMap ntfOf).length - s'.notifs.length) = n → s'.down.length = d →
      ∃ more' s'', (∀ a ∈ more', opOf a = none ∧ ntfOf a = none ∧ Uses ops ntfs a) ∧ run v x srv (start (v == .v11)) (acts ++ more') = .ok s'' ∧
        s''.up = [] ∧ s''.down = [] ∧ s''.kept = [] := by
    intro n
    induction n using Nat.strongRecOn with
    | _ n ihn =>
    intro d
    induction d using Nat.strongRecOn with
    | _ d ihd =>
    intro more s' hm hr hup hn hd
    obtain ⟨-, -, -, h1, h2, h3, -, -, -, h4, h5⟩ := key more s' hm hr
    have addA : ∀ a, opOf a = none ∧ ntfOf a = none ∧ Uses ops ntfs a → ∀ b ∈ more ++ [a], opOf b = none ∧ ntfOf b = none ∧ Uses ops ntfs b := by
      intro a ha b hb
      rcases List.mem_append.1 hb with hb | hb
      · exact hm b hb
      · cases List.mem_singleton.1 hb; exact ha
    obtain ⟨s1, g1, g2⟩ := h4 0
    have hr1 := dialog_snoc v x srv (.recvReply 0 .got (byteWise s'.down)) (acts ++ more) _ _ hr
    rw [g1, List.append_assoc] at hr1
    obtain ⟨n1, n2, n3⟩ := recvReply_notifs g1
    have hm1 := addA (.recvReply 0 .got (byteWise s'.down)) ⟨rfl, rfl, trivial⟩
    obtain ⟨-, -, -, k1, k2, k3, -⟩ := key _ s1 hm1 hr1
    rcases g2 with g2 | g2 | ⟨g2, g3⟩
    · exact ihn _ (by rw [← hn, n1]; omega) _ _ s1 hm1 hr1 (by rw [n3, hup]) rfl rfl
    · by_cases he : s1.replies.length = s'.replies.length
      · exact ihd _ (by omega) _ s1 hm1 hr1 (by rw [n3, hup]) (by rw [n1, he]; exact hn) rfl
      · exact ihn _ (by rw [← hn, n1]; omega) _ _ s1 hm1 hr1 (by rw [n3, hup]) rfl rfl
    · obtain ⟨s2, q1, q2⟩ := h5
      have hr2 := dialog_snoc v x srv (.recvNotif .got (byteWise s'.down)) (acts ++ more) _ _ hr
      rw [q1, List.append_assoc] at hr2
      obtain ⟨m1, m2, m3⟩ := recvNotif_replies q1
      have hm2 := addA (.recvNotif .got (byteWise s'.down)) ⟨rfl, rfl, trivial⟩
      obtain ⟨-, -, -, l1, l2, l3, -⟩ := key _ s2 hm2 hr2
      rcases q2 with q2 | q2 | ⟨q2, q3⟩
      · exact ihn _ (by rw [← hn, m1]; omega) _ _ s2 hm2 hr2 (by rw [m3, hup]) rfl rfl
      · rw [g2] at q2; simp at q2
      · refine ⟨more, s', hm, hr, hup, g2, ?_⟩
        cases hk : s'.kept with
        | nil => rfl
        | cons m l =>
          have hmem : m ∈ s'.kept := by rw [hk]; exact List.mem_cons_self
          have e1 := g3 m hmem
          have e2 := q3 m hmem
          cases hmk : m.1 with
          | reply => exact absurd hmk e1
          | notif => exact absurd hmk e2
  obtain ⟨more, s1, hm, hr, hup⟩ := polls _ [] s (by simp) (by simpa using h) rfl
  obtain ⟨more', s2, hm2, hr2, hup2, hd2, hk2⟩ := recvs _ _ more s1 hm hr hup rfl rfl
  obtain ⟨e1, -, -, -, -, -, e2, e3, -⟩ := key more' s2 hm2 hr2
  obtain ⟨e4, e5⟩ := e3 hd2 hk2
  exact ⟨more', s2, fun a ha => ⟨(hm2 a ha).1, (hm2 a ha).2.1⟩, hr2, e1, by rw [e4, e2 hup2], e5⟩

/-! An instance: one operation, answered with ok, and simple documents. -/

/-- A server with one callback. -/
def dlgSrv : Srv := ⟨fun _ => none, none, fun _ _ _ re => ⟨some .ok, .running, re⟩⟩

/-- Its operation. -/
def dlgOp : ServerRpc.Op := ⟨⟨true, false, some 7⟩, [], c!"get"⟩

/-- Printing and parsing of it. -/
def dlgXml : Xml where
  opWrites _ := [⟨bytes c!"<get/>", false, true⟩]
  replyWrites y := [⟨bytes c!"<rpc-reply message-id=\"" ++ (y.attrs.flatMap fun a => bytes a.value) ++ bytes c!"\"><ok/></rpc-reply>", false, true⟩]
  ntfWrites _ := [⟨bytes c!"<event/>", false, true⟩]
  parseRpc t := .parsed ⟨none, nsBase, [⟨c!"message-id", chars ((t.drop 65).takeWhile isDigit)⟩]⟩ dlgOp
  parseReply t := (⟨true, some [(c!"message-id", chars ((t.drop 23).takeWhile isDigit))]⟩, some .ok)

theorem dlg_answers {b : Body} (h : Answers dlgSrv dlgOp b) : b = .ok := by
  rcases h with ⟨c, hc, ⟨r, hr, hs⟩ | ⟨hr, -⟩⟩ | ⟨hc, -⟩
  · cases hr; cases hs; rfl
  · cases hr
  · exact absurd (ServerRpc.Serves.rpc 7 rfl rfl) (hc 7)

theorem dlg_digits (pre : List Byte) (n : Nat) (c : Byte) (r : List Byte) (hc : isDigit c = false) :
    ((pre ++ (dec n ++ c :: r)).drop pre.length).takeWhile isDigit = dec n := by
  rw [List.drop_left, List.takeWhile_append_of_pos (dec_isDigit n), List.takeWhile_cons, if_neg (by simp [hc]), List.append_nil]

theorem dlg_ok (pre post : List Byte) (n : Nat) (h1 : ∀ b ∈ pre ++ post, 0 < b ∧ b < 256) : ∀ b ∈ pre ++ (dec n ++ post), 0 < b ∧ b < 256 := by
  intro b hb
  simp only [List.mem_append] at hb h1
  rcases hb with hb | hb | hb
  · exact h1 b (Or.inl hb)
  · have := dec_isDigit n b hb
    simp [isDigit] at this
    omega
  · exact h1 b (Or.inr hb)

theorem dlg_decLen (k n : Nat) (h : n < 10 ^ (k + 1)) : (dec n).length ≤ k + 1 := by
  induction k generalizing n with
  | zero => rw [dec, if_pos (by simpa using h)]; simp
  | succ k ih =>
    rw [dec]
    split
    · simp
    · have := ih (n / 10) (by rw [Nat.pow_succ] at h; omega)
      simp; omega

theorem dlg_len {n : Nat} (h : n < 2 ^ 64) : (dec n).length ≤ 20 := dlg_decLen 19 n (Nat.lt_trans h (by decide))

theorem dlg_fits {ops : List Op} (h1 : ∀ o ∈ ops, o.bs.length < 4294966272) (h2 : text ops ≠ []) (h3 : ∀ b ∈ text ops, 0 < b ∧ b < 256) : Fits .v11 ops :=
  ⟨h1, ⟨h2, fun h => absurd (h3 0 h).1 (by decide)⟩, fun b hb => (h3 b hb).2⟩

theorem dlg_rpcText (id : Nat) : rpcText dlgXml id dlgOp =
    bytes c!"<rpc xmlns=\"urn:ietf:params:xml:ns:netconf:base:1.0\" message-id=\"" ++ (dec id ++ 34 :: bytes c!"><get/></rpc>") := by
  unfold rpcText
  rw [bytes_append, bytes_append, bytes_digits]
  simp only [dlgXml, text, List.append_assoc]
  congr 2

theorem dlg_replyText (id : Nat) (b : Body) : text (dlgXml.replyWrites (replyTo id b)) =
    bytes c!"<rpc-reply message-id=\"" ++ (dec id ++ 34 :: bytes c!"><ok/></rpc-reply>") := by
  simp only [dlgXml, replyTo, text, List.flatMap_cons, List.flatMap_nil, bytes_digits, List.append_assoc, List.append_nil]
  rfl

/-- The assumptions of C205 can be met. -/
theorem dlg_faithful : Faithful .v11 dlgXml dlgSrv [dlgOp] [⟨c!"2026-01-01T00:00:00Z", 1⟩] where
  isOp op h := by simp at h; subst h; exact Or.inl rfl
  rpcFits op h id hid := by
    simp at h; subst h
    refine dlg_fits ?_ ?_ ?_
    · intro o ho
      have hl := dlg_len hid
      simp only [rpcWrites, dlgXml, List.mem_append, List.mem_cons, List.not_mem_nil, or_false] at ho
      rcases ho with (rfl | rfl) | rfl
      · simp only [List.length_append]
        have h1 : (bytes c!"<rpc xmlns=\"urn:ietf:params:xml:ns:netconf:base:1.0\" message-id=\"").length = 65 := by decide
        have h2 : (bytes c!"\">").length = 2 := by decide
        exact Nat.lt_of_le_of_lt (Nat.add_le_add (Nat.add_le_add (Nat.le_of_eq h1) hl) (Nat.le_of_eq h2)) (by decide)
      · decide
      · decide
    · rw [text_rpcWrites, dlg_rpcText]; simp
    · rw [text_rpcWrites, dlg_rpcText]
      exact dlg_ok _ _ id (by decide)
  rpcRead op h id hid := by
    simp at h; subst h
    rw [dlg_rpcText]
    have := dlg_digits (bytes c!"<rpc xmlns=\"urn:ietf:params:xml:ns:netconf:base:1.0\" message-id=\"") id 34 (bytes c!"><get/></rpc>") (by decide)
    have h1 : (bytes c!"<rpc xmlns=\"urn:ietf:params:xml:ns:netconf:base:1.0\" message-id=\"").length = 65 := by decide
    rw [h1] at this
    simp only [dlgXml]
    rw [this]
    rfl
  replyFits op h id hid b hb := by
    refine ⟨dlg_fits ?_ ?_ ?_, ?_⟩
    · intro o ho
      have hl := dlg_len hid
      have ht := dlg_replyText id b
      simp only [dlgXml, List.mem_cons, List.not_mem_nil, or_false] at ho
      subst ho
      simp only [replyTo, List.flatMap_cons, List.flatMap_nil, bytes_digits, List.append_nil, List.length_append]
      have h1 : (bytes c!"<rpc-reply message-id=\"").length = 23 := by decide
      have h2 : (bytes c!"\"><ok/></rpc-reply>").length = 19 := by decide
      omega
    · rw [dlg_replyText]; simp
    · rw [dlg_replyText]
      exact dlg_ok _ _ id (by decide)
    · rw [dlg_replyText]
      exact ⟨_, rfl⟩
  replyRead op h id hid b hb := by
    simp at h; subst h
    rw [dlg_answers hb, dlg_replyText]
    have := dlg_digits (bytes c!"<rpc-reply message-id=\"") id 34 (bytes c!"><ok/></rpc-reply>") (by decide)
    have h1 : (bytes c!"<rpc-reply message-id=\"").length = 23 := by decide
    rw [h1] at this
    simp only [dlgXml]
    rw [this]
    rfl
  ntfFits n h := by
    simp at h; subst h
    exact dlg_fits (by decide +kernel) (by decide +kernel) (by decide +kernel)

/-- Two RPCs and a notification between their replies; the client asks for the second reply with the wrong id. -/
example : run .v11 dlgXml dlgSrv (start true)
      [.rpc dlgOp [.acc 0, .again], .rpc dlgOp [], .poll ⟨List.replicate 200 (.data 5), fun _ => true, 200⟩ [], .notify ⟨c!"2026-01-01T00:00:00Z", 1⟩ [.acc 3],
        .poll ⟨List.replicate 200 (.data 0), fun _ => true, 200⟩ [], .recvReply 1 .got ⟨List.replicate 300 (.data 0), fun _ => true, 300⟩,
        .recvReply 1 .got ⟨List.replicate 300 (.data 0), fun _ => true, 300⟩, .recvReply 1 .got ⟨List.replicate 300 (.data 0), fun _ => true, 300⟩,
        .recvNotif .got ⟨[], fun _ => true, 0⟩] =
    .ok ⟨2, [], ⟨true, .running, Spec.whyNone, [replyTo 1 .ok, replyTo 2 .ok], [(7, dlgOp), (7, dlgOp)]⟩, [], [], [(1, dlgOp), (2, dlgOp)],
      [⟨c!"2026-01-01T00:00:00Z", 1⟩], [(1, .reply, some .ok), (1, .badMsgid, some .ok)],
      [c!"<notification xmlns=\"urn:ietf:params:xml:ns:netconf:notification:1.0\"><eventTime>2026-01-01T00:00:00Z</eventTime><event/></notification>"]⟩ := by
  decide +kernel

/-- Two RPCs and a notification were sent and nothing was received yet: everything will be received. -/
example : ∃ more s', run .v11 dlgXml dlgSrv (start true) ([.rpc dlgOp [], .notify ⟨c!"2026-01-01T00:00:00Z", 1⟩ [], .rpc dlgOp [.acc 3, .again]] ++ more) = .ok s' ∧
    s'.replies.length = 2 ∧ s'.notifs = [c!"<notification xmlns=\"urn:ietf:params:xml:ns:netconf:notification:1.0\"><eventTime>2026-01-01T00:00:00Z</eventTime><event/></notification>"] := by
  have h : ∃ s, run .v11 dlgXml dlgSrv (start true) [.rpc dlgOp [], .notify ⟨c!"2026-01-01T00:00:00Z", 1⟩ [], .rpc dlgOp [.acc 3, .again]] = .ok s ∧
      s.asked = [(1, dlgOp), (2, dlgOp)] := by
    have : (match run .v11 dlgXml dlgSrv (start true) [.rpc dlgOp [], .notify ⟨c!"2026-01-01T00:00:00Z", 1⟩ [], .rpc dlgOp [.acc 3, .again]] with
      | .ok s => s.asked
      | _ => []) = [(1, dlgOp), (2, dlgOp)] := by decide +kernel
    split at this
    · exact ⟨_, ‹_›, this⟩
    · cases this
  obtain ⟨s, h, ha⟩ := h
  obtain ⟨more, s', _, h1, _, h3, h4⟩ := dialog_completes .v11 dlgXml dlgSrv _ _ _ dlg_faithful (fun _ _ => ⟨rfl, rfl⟩)
    (by intro a ha; simp at ha; rcases ha with rfl | rfl | rfl <;> simp [Uses, NoFail]) (by decide) s h
  exact ⟨more, s', h1, by rw [h3, ha]; rfl, h4.trans (by decide +kernel)⟩

end Verif.Props
