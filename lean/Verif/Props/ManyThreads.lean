import Verif.Lemmas.ManyThreads2
import Verif.Lemmas.Dialog

/-! # Properties of a session used by many threads of a server (C222, C223, C224) -/

namespace Verif.Props
open Verif.NcErr Verif.ServerRpc Verif.ManyThreads
open Verif.Writer (Version)

/-! ## C222: one request at a time, in order -/

/-- C222. Whatever the threads of a server do with a session, in every order: at most one of them is busy with a message of the client (reading it, in
its callback, or sending the reply), so no message is read before the one before has been dealt with; messages are read in the order they arrive; callbacks are called in the order of the messages,
once for each valid request that has one; replies come in the order of the messages, at most one for each, with its attributes and what its own
callback gave.  When no thread is in the library every message read has been dealt with. -/
theorem one_request_at_a_time (cf : Conf) (v11 : Bool) (inp : List Read) (acts : List (Nat × Act)) (s : St) (hops : AllOps inp)
    (h : ManyThreads.run cf (start v11 inp) acts = some s) :
    (∀ t u, Working (s.pc t) → Working (s.pc u) → t = u) ∧
    s.got ++ s.inp = inp ∧
    ∃ done now, s.got = done ++ now ∧ now.length ≤ 1 ∧ ((∀ t, s.pc t = .idle) → now = []) ∧
      Replies cf.srv v11 false done (repliesIn s.out) ∧ (CallsFor cf.srv done s.calls ∨ CallsFor cf.srv s.got s.calls) := by
  have inv := inv_run (v11 := v11) (all := false) (loud := false) hops acts (by simp) (by simp) _ s (inv_start cf v11 inp false false) h
  refine ⟨fun t u h1 h2 => ?_, inv.inp, ?_⟩
  · have a := (inv.locks t).1.1 (working_holds h1 (inv.kinds t))
    have b := (inv.locks u).1.1 (working_holds h2 (inv.kinds u))
    rw [a] at b
    exact Option.some.inj b
  · obtain ⟨done, cs, h1, h2, h3⟩ := inv.hist
    rw [inv.v] at h1
    unfold NowSt at h3
    cases hr : s.rpc with
    | none =>
      rw [hr] at h3
      obtain ⟨e1, e2⟩ := h3
      exact ⟨done, [], by simpa using e1, by simp, fun _ => rfl, h1, .inl (by rw [e2]; exact h2)⟩
    | some t =>
      rw [hr] at h3
      dsimp only at h3
      have hbusy : ¬ ∀ t, s.pc t = .idle := fun hh => by
        have := (inv.locks t).1.2 hr
        rw [hh t] at this
        cases this
      cases hp : s.pc t <;> rw [hp] at h3
      case parse r => exact ⟨done, [r], h3.1, by simp, fun hh => absurd hh hbusy, h1, .inl (by rw [h3.2]; exact h2)⟩
      case call e op => exact ⟨done, _, h3.1, by simp, fun hh => absurd hh hbusy, h1, .inl (by rw [h3.2.2]; exact h2)⟩
      case inCb e op c =>
        obtain ⟨g1, g2, g3, g4⟩ := h3
        exact ⟨done, _, g1, by simp, fun hh => absurd hh hbusy, h1, .inr (by rw [g1, g4]; exact .call _ _ _ _ _ h2 g2 g3)⟩
      case write a m =>
        obtain ⟨r, x, -, g1, -, g2⟩ := h3
        exact ⟨done, [r], g1, by simp, fun hh => absurd hh hbusy, h1, .inr (by rw [g1]; exact g2)⟩
      case writeLock a m =>
        obtain ⟨r, x, -, g1, -, g2⟩ := h3
        exact ⟨done, [r], g1, by simp, fun hh => absurd hh hbusy, h1, .inr (by rw [g1]; exact g2)⟩
      case writing a m cur rest ok =>
        obtain ⟨-, r, x, -, g1, -, g2⟩ := h3
        exact ⟨done, [r], g1, by simp, fun hh => absurd hh hbusy, h1, .inr (by rw [g1]; exact g2)⟩
      case ub =>
        obtain ⟨r, g1, g2⟩ := h3
        exact ⟨done, [r], g1, by simp, fun hh => absurd hh hbusy, h1, .inr (by rw [g1]; exact g2)⟩
      all_goals exact ⟨done, [], by simpa using h3.1, by simp, fun _ => rfl, h1, .inl (by rw [h3.2]; exact h2)⟩

/-- A server with one callback that answers `ok`, and the buffers of messages: replies in two, notifications in one. -/
def mtConf : Conf where
  srv := ⟨fun _ => none, none, fun _ _ st re => ⟨some .ok, st, re⟩⟩
  pieces := fun m => match m with
    | .reply _ => [[1, 2], [3]]
    | .notif n => [[n, n]]

/-- A request. -/
def mtReq (id : String) : Read :=
  .parsed ⟨none, c!"urn:ietf:params:xml:ns:netconf:base:1.0", [⟨c!"message-id", id.toList⟩]⟩ ⟨⟨true, false, some 7⟩, [], c!"<get/>"⟩

/-- A thread gets a request and is in its callback. -/
def mtCall (t : Nat) : List (Nat × Act) :=
  [(t, .poll), (t, .go), (t, .lock), (t, .data), (t, .go), (t, .go), (t, .lock), (t, .go), (t, .go), (t, .go)]

/-- The reply is written up to the end of `nc_ps_poll`. -/
def mtReply (t : Nat) : List (Nat × Act) :=
  [(t, .go), (t, .go), (t, .lock), (t, .go), (t, .accept 1), (t, .accept 1), (t, .go), (t, .accept 1), (t, .go), (t, .go), (t, .go)]

/-- Two requests: while thread 1 is in the callback of the first one thread 2 cannot have the second; a notification of thread 3 comes between. -/
example : ∃ s, ManyThreads.run mtConf (start true [mtReq "1", mtReq "2"])
      (mtCall 1 ++ [(2, .poll), (3, .notify 9), (3, .go), (3, .lock), (3, .go), (3, .accept 5), (3, .go), (3, .go)] ++ mtReply 1 ++ mtCall 2) = some s ∧
    s.calls.length = 2 ∧ s.got.length = 2 ∧ s.wire = [9, 9, 1, 2, 3] ∧ (∃ e op, s.pc 2 = .inCb e op 7) ∧ s.pc 1 = .idle := by
  refine ⟨_, rfl, rfl, rfl, rfl, ⟨_, _, rfl⟩, rfl⟩

/-! ## C223: messages of different threads are not mixed -/

/-- The reader of a version. -/
def recvOf : Version → List Byte → Reader.Res (List Byte)
  | .v11 => Reader.recv11
  | .v10 => Reader.recv10

theorem frame_received (v : Version) (ops : List Writer.Op) (hf : Dialog.Fits v ops) :
    ∀ rest, recvOf v ((Writer.sendMsg v (Writer.goodSink []) ops).2.wire ++ rest) = .msg (Writer.text ops) rest := by
  obtain ⟨hl, hs, -⟩ := hf
  intro rest
  cases v with
  | v11 =>
    obtain ⟨k', sent, h1, h2, h3, -⟩ := framing11_roundtrip (Writer.goodSink []) ops rfl (by simp [Writer.NoFail, Writer.goodSink]) hl hs.1 hs.2
    rw [h1]
    show Reader.recv11 (k'.wire ++ rest) = _
    rw [h2]
    exact h3 rest
  | v10 =>
    obtain ⟨k', cs, h1, h2, h3, h4, -, -⟩ := Writer.sendMsg_good .v10 (Writer.goodSink []) [] ops ⟨rfl, rfl, by simp [Writer.NoFail, Writer.goodSink]⟩ hl
    rw [flatMap_encV_v10, h3] at h4
    obtain ⟨hn, hsz, hin, he1, he2⟩ := hs
    rw [h1]
    show Reader.recv10 (k'.wire ++ rest) = _
    rw [h4]
    have := (framing10_first_eom_partial _ _ rest (Dialog.firstEom_text hin he1 he2 rest) hn hsz he1 he2).1
    simpa [Writer.endTag, Spec.eom] using this

/-- C223. Full statement: however many threads send replies and notifications on a session, the client receives whole messages, one after the
other, and behind them at most the beginning of one more.  It is false if the transport reports a write error that does not end the session
(`messages_not_mixed_false`).  Proved: it holds otherwise, whatever the order of the steps of the threads and however the data are accepted, and
what was sent is a sequence of whole messages whenever no thread is in the library and the session runs. -/
theorem messages_not_mixed_partial (cf : Conf) (v : Version) (ops : Msg → List Writer.Op) (v11 : Bool) (inp : List Read) (acts : List (Nat × Act)) (s : St)
    (hpr : Prints cf v ops) (hfit : ∀ m, Dialog.Fits v (ops m)) (hops : AllOps inp) (he : NoticedErrors acts) (hn : NoRevival cf.srv acts)
    (h : ManyThreads.run cf (start v11 inp) acts = some s) :
    ∃ part, recvAll (recvOf v) s.out.length s.wire = some (s.out.map fun m => Writer.text (ops m), part) ∧
      (part = [] ∨ ∃ m, part <+: (Writer.sendMsg v (Writer.goodSink []) (ops m)).2.wire) ∧
      ((∀ t, s.pc t = .idle) → s.status = .running → part = []) := by
  have inv := inv_run (v11 := v11) (all := false) (loud := true) hops acts (by simp) (fun _ => ⟨he, hn⟩) _ s (inv_start cf v11 inp false true) h
  obtain ⟨part, hw, hc⟩ := inv.wire rfl
  have hrecv : ∀ (l : List Msg) (rest : List Byte), recvAll (recvOf v) l.length (bytesOf cf l ++ rest) = some (l.map fun m => Writer.text (ops m), rest) := by
    intro l
    induction l with
    | nil => intro rest; rfl
    | cons m l ih =>
      intro rest
      have e : bytesOf cf (m :: l) ++ rest = (Writer.sendMsg v (Writer.goodSink []) (ops m)).2.wire ++ (bytesOf cf l ++ rest) := by
        rw [← hpr m]; simp [bytesOf]
      rw [e, List.length_cons, recvAll, frame_received v (ops m) (hfit m)]
      simp only [ih rest, List.map_cons]
  refine ⟨part, by rw [hw]; exact hrecv _ _, ?_, fun hidle hrun => ?_⟩
  · rcases hc with hc | ⟨-, ⟨m, hm⟩, -⟩
    · unfold Clean at hc
      split at hc
      · exact .inl hc
      · split at hc
        · rename_i m cur rest _
          right
          refine ⟨m, cur ++ rest.flatten, ?_⟩
          rw [← hpr m, ← hc, List.append_assoc]
        · exact hc.elim
        · exact .inl hc
    · exact .inr ⟨m, by rw [← hpr m]; exact hm⟩
  · rcases hc with hc | ⟨hc, -⟩
    · unfold Clean at hc
      split at hc
      · exact hc
      · rw [hidle] at hc; exact hc
    · rw [(open_eq s).2 (.inl hrun)] at hc; cases hc

/-- Notifications with the text of three bytes, each sent with one call. -/
def mtOps : Msg → List Writer.Op := fun m => match m with
  | .reply _ => [⟨[60, 111, 107], false, true⟩]
  | .notif n => [⟨[60, 110, 65 + n % 10], false, true⟩]

/-- The server sending them. -/
def mtPrint : Conf := ⟨mtConf.srv, fun m => [(Writer.sendMsg .v11 (Writer.goodSink []) (mtOps m)).2.wire]⟩

theorem mt_prints : Prints mtPrint .v11 mtOps := fun m => by simp [mtPrint]

theorem mt_fits (m : Msg) : Dialog.Fits .v11 (mtOps m) := by
  cases m with
  | reply x => refine ⟨by simp [mtOps], ⟨by simp [mtOps, Writer.text], by simp [mtOps, Writer.text]⟩, by simp [mtOps, Writer.text]⟩
  | notif n =>
    refine ⟨by simp [mtOps], ⟨by simp [mtOps, Writer.text], by simp [mtOps, Writer.text]; omega⟩, ?_⟩
    intro b hb
    simp [mtOps, Writer.text] at hb
    omega

/-- Thread 1 fails to send a notification, thread 2 sends one. -/
def mtTorn : List (Nat × Act) :=
  [(1, .notify 1), (1, .go), (1, .lock), (1, .go), (1, .accept 5), (1, .fail false false), (1, .go),
    (2, .notify 2), (2, .go), (2, .lock), (2, .go), (2, .accept 100), (2, .go), (2, .go)]

/-- C223 is false: writing the notification of thread 1 fails after five bytes, for which the session is not ended; then thread 2 sends one, which
is reported as sent.  The client reads a message that nobody sent, and nothing more. -/
theorem messages_not_mixed_false : ∃ acts s, NoRevival mtPrint.srv acts ∧ ManyThreads.run mtPrint (start true []) acts = some s ∧
    s.status = .running ∧ (∀ t, s.pc t = .idle) ∧ s.out = [.notif 2] ∧
    ∃ m, Reader.recv11 s.wire = .msg m [] ∧ ∀ x, Writer.text (mtOps x) ≠ m := by
  have h : (ManyThreads.run mtPrint (start true []) mtTorn).map (fun s => (s.status, s.out, s.wire, s.pc 1, s.pc 2)) = some (.running, [.notif 2],
      [10, 35, 51, 10, 60, 10, 35, 51, 10, 60, 110, 67, 10, 35, 35, 10], .idle, .idle) := by decide +kernel
  obtain ⟨s, h1, h⟩ := Option.map_eq_some_iff.1 h
  simp only [Prod.mk.injEq] at h
  obtain ⟨h2, h3, h4, h5, h6⟩ := h
  have h7 : ∀ t, t ≠ 1 → t ≠ 2 → s.pc t = .idle := fun t e1 e2 => run_pc mtTorn _ s h1 (fun x hx => by
    simp [mtTorn] at hx
    rcases hx with rfl | rfl | rfl | rfl | rfl | rfl | rfl | rfl | rfl | rfl | rfl | rfl | rfl | rfl <;> first | exact e1.symm | exact e2.symm)
  refine ⟨mtTorn, s, ⟨fun t st hm => by simp [mtTorn] at hm, fun c op st re h => h⟩, h1, h2, fun t => ?_, h3, [60, 10, 35], ?_, fun x hx => ?_⟩
  · by_cases e1 : t = 1
    · rw [e1]; exact h5
    · by_cases e2 : t = 2
      · rw [e2]; exact h6
      · exact h7 t e1 e2
  · rw [h4]; decide +kernel
  · cases x <;> simp [mtOps, Writer.text] at hx

/-- Notifications of two threads at the same time: the second one waits. -/
example : ((ManyThreads.run mtPrint (start true []) [(1, .notify 1), (2, .notify 2), (1, .go), (2, .go), (1, .lock), (1, .go), (1, .accept 5),
      (1, .accept 100), (1, .go), (2, .lock), (2, .go), (2, .accept 100), (2, .go), (2, .go), (1, .go)]).bind fun s => recvAll Reader.recv11 2 s.wire) =
    some ([[60, 110, 66], [60, 110, 67]], []) := by decide +kernel

/-! ## C224: every request is answered -/

/-- C224. Full statement: whichever threads of a server poll a session, a session that runs and that no thread is working on has answered every
message read, in order, each with the attributes of the request and what its own callback gave.  It is false if a thread writes longer than
another one waits for the lock (`threads_answer_all_false`), or if a write error does not end the session.  Proved: it holds otherwise. -/
theorem threads_answer_all_partial (cf : Conf) (v11 : Bool) (inp : List Read) (acts : List (Nat × Act)) (s : St) (hops : AllOps inp) (hi : InTime acts)
    (he : NoticedErrors acts) (hn : NoRevival cf.srv acts) (h : ManyThreads.run cf (start v11 inp) acts = some s) (hr : s.status = .running)
    (hidle : ∀ t, s.pc t = .idle) :
    Replies cf.srv v11 true s.got (repliesIn s.out) ∧ CallsFor cf.srv s.got s.calls := by
  have inv := inv_run (v11 := v11) (all := true) (loud := false) hops acts (fun _ => ⟨hi, he, hn⟩) (by simp) _ s (inv_start cf v11 inp true false) h
  rcases inv.strict rfl with ⟨done, cs, h1, h2, h3⟩ | hc
  · rw [inv.v] at h1
    have hnone : s.rpc = none := by
      cases e : s.rpc with
      | none => rfl
      | some t =>
        have := (inv.locks t).1.2 e
        rw [hidle t] at this
        cases this
    unfold NowSt at h3
    rw [hnone] at h3
    obtain ⟨e1, e2⟩ := h3
    rw [e1, e2]
    exact ⟨h1, h2⟩
  · rw [(open_eq s).2 (.inl hr)] at hc; cases hc

/-- C222. No thread is stuck for ever: whatever the threads did, they can all finish without anything going wrong (locks in time, data accepted), and
if the session still runs then every message of the client has been read. -/
theorem threads_go_on (cf : Conf) (v11 : Bool) (inp : List Read) (acts : List (Nat × Act)) (s : St) (hl : ∀ r ∈ inp, Logs r)
    (h : ManyThreads.run cf (start v11 inp) acts = some s) :
    ∃ more s', (∀ x ∈ more, Smooth x.2) ∧ ManyThreads.run cf (start v11 inp) (acts ++ more) = some s' ∧ (∀ t, s'.pc t = .idle) ∧
      (s'.status = .running → s'.inp = []) := by
  have hk0 : Locks (start v11 inp) := (inv_start cf v11 inp false false).locks
  have hf0 : Fine (start v11 inp) := ⟨hl, fun t => fineAt_other (by simp [start]) rfl (by simp [start])⟩
  obtain ⟨hk, hf⟩ := locks_fine_run acts _ s hk0 hf0 h
  obtain ⟨m1, s1, g1, g2, g3, _⟩ := all_end (cf := cf) (acts.map (·.1)) s hk hf (fun t ht => by
    rw [run_pc acts _ s h (fun x hx e => ht (by rw [← e]; exact List.mem_map_of_mem hx))]; rfl)
  obtain ⟨hk1, hf1⟩ := locks_fine_run m1 s s1 hk hf g2
  obtain ⟨m2, s2, k1, k2, k3, k4⟩ := serve_all (cf := cf) 0 s1.inp.length s1 (Nat.le_refl _) hk1 hf1 g3
  refine ⟨m1 ++ m2, s2, fun x hx => ?_, ?_, k3, k4⟩
  · rcases List.mem_append.1 hx with hx | hx
    · exact g1 x hx
    · exact k1 x hx
  · rw [run_append, h]
    show ManyThreads.run cf s (m1 ++ m2) = _
    rw [run_append, g2]
    exact k2

/-- C224. As long as locks are taken in time and write errors end the session, every message can be answered: the threads can go on to a state in which
the session has ended or the client has the right reply to every one of its messages. -/
theorem threads_serve (cf : Conf) (v11 : Bool) (inp : List Read) (acts : List (Nat × Act)) (s : St) (hl : ∀ r ∈ inp, Logs r) (hops : AllOps inp)
    (hi : InTime acts) (hn : NoticedErrors acts) (hv : NoRevival cf.srv acts) (h : ManyThreads.run cf (start v11 inp) acts = some s) :
    ∃ more s', (∀ x ∈ more, Smooth x.2) ∧ ManyThreads.run cf (start v11 inp) (acts ++ more) = some s' ∧ (∀ t, s'.pc t = .idle) ∧
      (s'.status = .running → Replies cf.srv v11 true inp (repliesIn s'.out) ∧ CallsFor cf.srv inp s'.calls) := by
  obtain ⟨more, s', h1, h2, h3, h4⟩ := threads_go_on cf v11 inp acts s hl h
  refine ⟨more, s', h1, h2, h3, fun hr => ?_⟩
  have hno : ∀ a : Act, ¬ Smooth a → ∀ t, (t, a) ∈ acts ++ more → (t, a) ∈ acts := by
    intro a ha t hm
    rcases List.mem_append.1 hm with hm | hm
    · exact hm
    · exact absurd (h1 _ hm) ha
  have := threads_answer_all_partial cf v11 inp (acts ++ more) s' hops (fun t hm => hi t (hno _ (by simp [Smooth]) t hm))
    (fun t i hm => hn t i (hno _ (by simp [Smooth]) t hm)) ⟨fun t st hm => hv.1 t st (hno _ (by simp [Smooth]) t hm), hv.2⟩ h2 hr h3
  have inv := inv_run (v11 := v11) (all := false) (loud := false) hops (acts ++ more) (by simp) (by simp) _ s' (inv_start cf v11 inp false false) h2
  have e := inv.inp
  rw [h4 hr, List.append_nil] at e
  rw [e] at this
  exact this

/-- C224. The session does not end by itself: as long as nothing goes wrong, the application does not end it and callbacks do not end it, it runs,
whatever the threads do and whatever well-framed messages the client sends. -/
theorem session_goes_on (cf : Conf) (v11 : Bool) (inp : List Read) (acts : List (Nat × Act)) (s : St) (hcb : KeepRunning cf.srv)
    (hinp : ∀ r ∈ inp, ∀ re, r ≠ .failed .invalid re) (ha : ∀ x ∈ acts, Harmless x.2) (h : ManyThreads.run cf (start v11 inp) acts = some s) :
    s.status = .running ∧ s.reason = Spec.whyNone :=
  have g := going_run hcb acts _ s ha ⟨rfl, rfl, by simp [start], hinp⟩ h
  ⟨g.status, g.reason⟩

/-- Two requests, and one thread that has read the first one: the threads can go on until both are answered. -/
example : ∃ more s', ManyThreads.run mtConf (start true [mtReq "1", mtReq "2"]) (mtCall 1 ++ more) = some s' ∧ (∀ t, s'.pc t = .idle) ∧ s'.status = .running ∧
    Replies mtConf.srv true true [mtReq "1", mtReq "2"] (repliesIn s'.out) := by
  have h : (ManyThreads.run mtConf (start true [mtReq "1", mtReq "2"]) (mtCall 1)).map (fun s => s.status) = some .running := by decide +kernel
  obtain ⟨s, h1, _⟩ := Option.map_eq_some_iff.1 h
  obtain ⟨more, s', g1, g2, g3, g4⟩ := threads_serve mtConf true [mtReq "1", mtReq "2"] (mtCall 1) s (by simp [mtReq, Logs])
    (fun e op hm => by
      simp [mtReq] at hm
      rcases hm with ⟨_, rfl⟩ | ⟨_, rfl⟩ <;> exact .inl rfl)
    (fun t hm => by simp [mtCall] at hm) (fun t i hm => by simp [mtCall] at hm) ⟨fun t st hm => by simp [mtCall] at hm, fun c op st re h => h⟩ h1
  have hr := session_goes_on mtConf true [mtReq "1", mtReq "2"] (mtCall 1 ++ more) s' (fun c op => ⟨rfl, rfl⟩) (by simp [mtReq]) (fun x hx => by
    rcases List.mem_append.1 hx with hx | hx
    · simp only [mtCall, List.mem_cons, List.not_mem_nil, or_false] at hx
      rcases hx with rfl | rfl | rfl | rfl | rfl | rfl | rfl | rfl | rfl | rfl <;> exact .inl trivial
    · exact .inl (g1 x hx)) g2
  exact ⟨more, s', g2, g3, hr.1, (g4 hr.1).1⟩

/-- Thread 2 writes a notification while thread 1 waits for the lock to send its reply. -/
def mtLate : List (Nat × Act) :=
  mtCall 1 ++ [(2, .notify 9), (2, .go), (2, .lock), (2, .go), (1, .go), (1, .go), (1, .lateWrite), (1, .go), (1, .go), (2, .accept 2), (2, .go), (2, .go)]

/-- C224 is false: the callback was called for the request, but its reply is dropped because thread 2 was writing a notification for too long;
the session runs on. -/
theorem threads_answer_all_false : ∃ acts s, NoticedErrors acts ∧ NoRevival mtConf.srv acts ∧ AllOps [mtReq "1"] ∧
    ManyThreads.run mtConf (start true [mtReq "1"]) acts = some s ∧ s.status = .running ∧ (∀ t, s.pc t = .idle) ∧
    s.got = [mtReq "1"] ∧ s.calls.length = 1 ∧ s.out = [.notif 9] ∧ ¬ Replies mtConf.srv true true s.got (repliesIn s.out) := by
  have h : (ManyThreads.run mtConf (start true [mtReq "1"]) mtLate).map (fun s => (s.status, s.out, s.got, s.calls.length, [s.pc 1, s.pc 2])) =
      some (.running, [.notif 9], [mtReq "1"], 1, [.idle, .idle]) := by decide +kernel
  obtain ⟨s, h1, h⟩ := Option.map_eq_some_iff.1 h
  simp only [Prod.mk.injEq, List.cons.injEq, and_true] at h
  obtain ⟨h2, h3, h4, h5, h6, h7⟩ := h
  have h8 : ∀ t, t ≠ 1 → t ≠ 2 → s.pc t = .idle := fun t e1 e2 => run_pc mtLate _ s h1 (fun x hx => by
    have : x.1 = 1 ∨ x.1 = 2 := by
      have : ∀ x ∈ mtLate, x.1 = 1 ∨ x.1 = 2 := by decide +kernel
      exact this x hx
    rcases this with e | e <;> rw [e]
    · exact e1.symm
    · exact e2.symm)
  refine ⟨mtLate, s, fun t i hm => by simp [mtLate, mtCall] at hm, ⟨fun t st hm => by simp [mtLate, mtCall] at hm, fun c op st re h => h⟩,
    fun e op hm => ?_, h1, h2, fun t => ?_, h4, h5, h3, ?_⟩
  · simp [mtReq] at hm
    rw [hm.2]; exact .inl rfl
  · by_cases e1 : t = 1
    · rw [e1]; exact h6
    · by_cases e2 : t = 2
      · rw [e2]; exact h7
      · exact h8 t e1 e2
  · rw [h3, h4]
    intro hh
    have key : ∀ (l : List Read) (xs : List Sent), Replies mtConf.srv true true l xs → l = [mtReq "1"] → xs ≠ [] := by
      intro l xs hr
      cases hr with
      | nil => intro h; cases h
      | answer l xs r x _ _ => intro _ h; simp at h
      | none l xs r _ hw =>
        intro h
        have : r = mtReq "1" := by
          have := congrArg List.getLast? h
          simpa using this
        rw [this] at hw
        exact absurd (hw rfl) (by simp [mtReq, wanted])
    exact key _ _ hh rfl rfl

/-- Two requests served by two threads one after the other. -/
example : (ManyThreads.run mtConf (start true [mtReq "1", mtReq "2"]) (mtCall 1 ++ mtReply 1 ++ mtCall 2 ++ mtReply 2)).map (fun s =>
    (s.status, (repliesIn s.out).map (fun x => x.attrs.map (·.value)))) = some (.running, [[c!"1"], [c!"2"]]) := by decide +kernel

end Verif.Props
