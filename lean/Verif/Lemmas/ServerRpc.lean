import Verif.Spec.ServerRpc

/-! Lemmas about the requests received by the server and their replies. -/

namespace Verif.ServerRpc
open NcErr
open Poll (Status rError rBadRpc rReplyError rTerm rSessError rRpc rTimeout tNone tClosed tKilled tDropped tOther)

/-- The attributes of the reply to an envelope. -/
def attrsOf : Option Envp → List Attr
  | some e => e.attrs
  | none => []

theorem replyElem_attrs (envp : Option Envp) (r : Reply) (x : Sent) (h : replyElem envp r = some x) :
    x.attrs = attrsOf envp := by
  cases r <;> cases envp <;> simp [replyElem] at h <;> simp [← h, attrsOf]

theorem replyElem_shows (e : Envp) (r : Reply) (x : Sent) (h : replyElem (some e) r = some x) :
    Shows r x.body ∧ x.pref = e.pref ∧ x.ns = e.ns := by
  cases r with
  | ok => simp [replyElem] at h; subst h; exact ⟨.ok, rfl, rfl⟩
  | errors l => simp [replyElem] at h; subst h; exact ⟨.errors l, rfl, rfl⟩
  | data cs wd =>
    simp [replyElem] at h; subst h
    cases wd
    · exact ⟨.unknown cs, rfl, rfl⟩
    · exact ⟨.all cs, rfl, rfl⟩
    · exact ⟨.allTag cs, rfl, rfl⟩
    · exact ⟨.trim cs, rfl, rfl⟩
    · exact ⟨.explicit cs, rfl, rfl⟩

/-- What writing a reply does to the session. -/
theorem writeReply_cases (s : Sess) (lock : Lock) (peer : Peer) (envp : Option Envp) (r : Reply) (ok : Bool) (s' : Sess)
    (h : writeReply s lock peer envp r = some (ok, s')) :
    (∃ x, replyElem envp r = some x ∧ lock = .got ∧ peer = .takes ∧ ok = true ∧ s' = { s with sent := s.sent ++ [x] }) ∨
    (s' = s ∧ (s.status = .running → (lock ≠ .got ∨ peer = .fails ∨ peer = .silent))) ∨
    (s' = { s with status := .invalid, reason := tDropped } ∧ ok = false ∧ peer = .dropped) := by
  unfold writeReply at h
  split at h
  · rename_i hc
    cases h
    right; left
    exact ⟨rfl, fun hr => absurd hr hc.1⟩
  · cases lock with
    | broken => cases h; right; left; exact ⟨rfl, fun _ => Or.inl (by simp)⟩
    | busy => cases h; right; left; exact ⟨rfl, fun _ => Or.inl (by simp)⟩
    | got =>
      dsimp only at h
      split at h
      · cases h
      · rename_i x hx
        cases peer with
        | takes => cases h; left; exact ⟨x, hx, rfl, rfl, rfl, rfl⟩
        | dropped => cases h; right; right; exact ⟨rfl, rfl, rfl⟩
        | fails => cases h; right; left; exact ⟨rfl, fun _ => Or.inr (Or.inl rfl)⟩
        | silent => cases h; right; left; exact ⟨rfl, fun _ => Or.inr (Or.inr rfl)⟩

theorem writeReply_takes (s : Sess) (envp : Option Envp) (r : Reply) (x : Sent) (hs : s.status = .running) (hx : replyElem envp r = some x) :
    writeReply s .got .takes envp r = some (true, { s with sent := s.sent ++ [x] }) := by
  simp [writeReply, hs, hx]

/-- How one message changes the session: replies with the attributes `a` and callbacks. -/
structure Step (s s' : Sess) (a : Option (List Attr)) (ev : Ev) : Prop where
  v : s'.v11 = s.v11
  sent : s'.sent = s.sent ∨ ∃ x, s'.sent = s.sent ++ [x] ∧ a = some x.attrs
  all : Ready ev → s'.status = .running → ∃ l, s'.sent = s.sent ++ l ∧ l.map (·.attrs) = a.toList
  early : Ready ev → ∃ l, s'.sent = s.sent ++ l ∧ (l.map (·.attrs) = a.toList ∨ (l = [] ∧ s'.status ≠ .running))

theorem Step.refl (s : Sess) (ev : Ev) : Step s s none ev :=
  ⟨rfl, Or.inl rfl, fun _ _ => ⟨[], by simp⟩, fun _ => ⟨[], by simp⟩⟩

theorem finishRecv_step (s : Sess) (ev : Ev) (envp : Option Envp) (r : Reply) (ret ret' : Nat) (s' : Sess) (hs : s.status = .running)
    (h : finishRecv s ev.lock ev.peer envp (some r) ret = some (ret', s')) :
    Step s s' (some (attrsOf envp)) ev ∧ s'.calls = s.calls ∧ ret' = ret ||| rReplyError := by
  unfold finishRecv at h
  dsimp only at h
  split at h
  · cases h
  · rename_i ok s1 hw
    rcases writeReply_cases _ _ _ _ _ _ _ hw with ⟨x, hx, hl, hp, rfl, rfl⟩ | ⟨rfl, hn⟩ | ⟨rfl, rfl, hp⟩
    · simp at h
      obtain ⟨rfl, rfl⟩ := h
      have := replyElem_attrs _ _ _ hx
      refine ⟨⟨rfl, Or.inr ⟨x, rfl, by rw [this]⟩, fun _ _ => ⟨[x], rfl, by simp [this]⟩, fun _ => ⟨[x], rfl, Or.inl (by simp [this])⟩⟩, rfl, rfl⟩
    · obtain ⟨rfl, h2⟩ := Prod.mk.inj (Option.some.inj h)
      have hready : ¬ Ready ev := by
        rintro ⟨h1, h2⟩
        rcases hn hs with h | h | h
        · exact h h1
        · rcases h2 with h2 | h2 <;> simp [h2] at h
        · rcases h2 with h2 | h2 <;> simp [h2] at h
      subst h2
      refine ⟨⟨?_, Or.inl ?_, fun hr => absurd hr hready, fun hr => absurd hr hready⟩, ?_, rfl⟩ <;> split <;> rfl
    · simp at h
      obtain ⟨rfl, rfl⟩ := h
      refine ⟨⟨rfl, Or.inl rfl, fun _ h => by simp at h, fun _ => ⟨[], by simp⟩⟩, rfl, rfl⟩

theorem chooseErr_some (cn : Option Node) (e : LyErr) (r : Option Err) (h : chooseErr cn e = some r) : ∃ x, r = some x := by
  unfold chooseErr at h
  cases cn with
  | none =>
    dsimp only at h
    split at h
    · cases h; exact ⟨_, rfl⟩
    · split at h
      · cases h; exact ⟨_, rfl⟩
      · cases h; exact ⟨_, rfl⟩
  | some n =>
    dsimp only at h
    split at h
    · split at h
      · cases h
        cases n.isRpc <;> exact ⟨_, rfl⟩
      · cases h; exact ⟨_, rfl⟩
    · split at h
      · split at h
        · cases h
        · split at h
          · cases h
          · cases h
            cases n.isRpc <;> exact ⟨_, rfl⟩
      · split at h
        · cases h; exact ⟨_, rfl⟩
        · split at h
          · cases h
            cases n.isRpc <;> exact ⟨_, rfl⟩
          · cases h; exact ⟨_, rfl⟩

/-- An error is prepared unless an old client sent something without envelope. -/
theorem prepareErr_some (v11 envp : Bool) (find : Text → Option Node) (e : Option LyErr) (r : Option Err)
    (h : prepareErr v11 envp find e = some r) : (∃ x, r = some x) ∨ (r = none ∧ envp = false ∧ v11 = false) := by
  unfold prepareErr at h
  split at h
  · rename_i hc
    cases h
    right
    cases envp <;> cases v11 <;> simp_all
  · left
    cases e with
    | none => cases h
    | some e =>
      dsimp only at h
      split at h
      · split at h
        · cases h; exact ⟨_, rfl⟩
        · cases h; exact ⟨_, rfl⟩
      · split at h
        · cases h
        · split at h
          · cases h
          · rename_i r' hr
            obtain ⟨x, rfl⟩ := chooseErr_some _ _ _ hr
            cases h
            exact ⟨_, rfl⟩

theorem hasMsgid_iff (e : Envp) : hasMsgid e = true ↔ HasId e := by
  simp [hasMsgid, HasId]

theorem find_first (p : SNode → Bool) (l : List SNode) (n : SNode) (h : l.find? p = some n) :
    ∃ pre post, l = pre ++ n :: post ∧ (∀ x ∈ pre, p x = false) ∧ p n = true := by
  induction l with
  | nil => cases h
  | cons a l ih =>
    rw [List.find?_cons] at h
    split at h
    · cases h; exact ⟨[], l, rfl, by simp, by assumption⟩
    · obtain ⟨pre, post, rfl, h1, h2⟩ := ih h
      refine ⟨a :: pre, post, rfl, ?_, h2⟩
      intro x hx
      rcases List.mem_cons.1 hx with rfl | hx
      · simpa using ‹_›
      · exact h1 x hx

/-- The callback chosen by the program. -/
def cbOf (srv : Srv) (n : SNode) : Option Nat :=
  match n.priv with
  | some c => some c
  | none => srv.glob

theorem serves_iff (srv : Srv) (op : Op) (n : SNode) (hn : rpcNode op = some n) (c : Nat) : Serves srv op c ↔ cbOf srv n = some c := by
  unfold rpcNode at hn
  split at hn
  · rename_i hr
    cases hn
    constructor
    · intro h
      cases h with
      | rpc h hc => simp [cbOf, hc]
      | rpcGlobal h hp hc => simp [cbOf, hp, hc]
      | action pre post n h => rw [hr] at h; cases h
      | actionGlobal pre post n h => rw [hr] at h; cases h
    · intro h
      unfold cbOf at h
      split at h
      · cases h; exact .rpc _ hr (by assumption)
      · exact .rpcGlobal _ hr (by assumption) h
  · rename_i hr
    have hr : op.root.isRpc = false := by simpa using hr
    have key : ∀ pre post m, op.root :: op.rest = pre ++ m :: post → (∀ x ∈ pre, x.isAction = false) → m.isAction = true → m = n := by
      intro pre post m hs hf hm
      rw [hs, List.find?_append] at hn
      have : pre.find? (·.isAction) = none := by
        rw [List.find?_eq_none]
        intro x hx
        simp [hf x hx]
      rw [this, List.find?_cons] at hn
      simp [hm] at hn
      exact hn
    constructor
    · intro h
      cases h with
      | rpc h => rw [hr] at h; cases h
      | rpcGlobal h => rw [hr] at h; cases h
      | action pre post m h hs hf hm hc =>
        have := key pre post m hs hf hm
        subst this
        simp [cbOf, hc]
      | actionGlobal pre post m h hs hf hm hp hc =>
        have := key pre post m hs hf hm
        subst this
        simp [cbOf, hp, hc]
    · intro h
      obtain ⟨pre, post, hs, hf, hm⟩ := find_first _ _ _ hn
      unfold cbOf at h
      split at h
      · cases h; exact .action _ pre post n hr hs hf hm (by assumption)
      · exact .actionGlobal _ pre post n hr hs hf hm (by assumption) h

theorem rpcNode_some (op : Op) (h : IsOp op) : ∃ n, rpcNode op = some n := by
  unfold rpcNode
  split
  · exact ⟨_, rfl⟩
  · rcases h with h | ⟨n, hn, ha⟩
    · simp_all
    · cases hf : (op.root :: op.rest).find? (·.isAction) with
      | some m => exact ⟨m, rfl⟩
      | none =>
        rw [List.find?_eq_none] at hf
        exact absurd ha (hf n hn)

/-- The reply given by the callback, or the one made up for it. -/
def replyOf (srv : Srv) (s : Sess) (op : Op) (n : SNode) : Reply :=
  match cbOf srv n with
  | none => .errors ((mkErr .opNotSupported .prot none none).toList)
  | some c => ((srv.run c op s.status s.reason).reply).getD (.errors ((mkErr .opFailed .app none none).toList))

/-- The session after the callback. -/
def sessOf (srv : Srv) (s : Sess) (op : Op) (n : SNode) : Sess :=
  match cbOf srv n with
  | none => s
  | some c =>
    { s with status := (srv.run c op s.status s.reason).status, reason := (srv.run c op s.status s.reason).reason, calls := s.calls ++ [(c, op)] }

theorem finishSend_some (s : Sess) (lock : Lock) (peer : Peer) (envp : Envp) (r : Reply) (ret : Nat) (s' : Sess)
    (h : finishSend s lock peer envp (some r) = some (ret, s')) :
    ∃ ok s1, writeReply s lock peer (some envp) r = some (ok, s1) ∧ ret = (if isErr r then rReplyError else 0) ||| (if ok then 0 else rError) ∧ s' = closeIf s1 := by
  unfold finishSend at h
  dsimp only at h
  split at h
  · cases h
  · rename_i ok s1 hw
    obtain ⟨rfl, rfl⟩ := Prod.mk.inj (Option.some.inj h)
    exact ⟨ok, s1, hw, rfl, rfl⟩

theorem finishSend_none (s : Sess) (lock : Lock) (peer : Peer) (envp : Envp) :
    finishSend s lock peer envp none = finishSend s lock peer envp (some (.errors ((mkErr .opFailed .app none none).toList))) := rfl

theorem sendReply_eq (srv : Srv) (s : Sess) (ev : Ev) (envp : Envp) (op : Op) (n : SNode) (hn : rpcNode op = some n) :
    sendReply srv s ev (some (envp, op)) = finishSend (sessOf srv s op n) ev.lock ev.peer envp (some (replyOf srv s op n)) := by
  unfold sendReply
  simp only [hn]
  clear hn
  unfold callOp replyOf sessOf cbOf
  cases hp : n.priv with
  | some c =>
    dsimp only
    generalize srv.run c op s.status s.reason = cr
    obtain ⟨rep, st, re⟩ := cr
    cases rep <;> rfl
  | none =>
    cases hg : srv.glob with
    | none => rfl
    | some c =>
      dsimp only
      generalize srv.run c op s.status s.reason = cr
      obtain ⟨rep, st, re⟩ := cr
      cases rep <;> rfl

theorem closeIf_sent (s : Sess) : (closeIf s).sent = s.sent ∧ (closeIf s).calls = s.calls ∧ (closeIf s).v11 = s.v11 := by
  unfold closeIf; split <;> exact ⟨rfl, rfl, rfl⟩

theorem closeIf_running (s : Sess) (h : (closeIf s).status = .running) : s.status = .running := by
  unfold closeIf at h
  split at h
  · cases h
  · exact h

theorem sendReply_step (srv : Srv) (s : Sess) (ev : Ev) (envp : Envp) (op : Op) (hop : IsOp op) (ret : Nat) (s' : Sess)
    (h : sendReply srv s ev (some (envp, op)) = some (ret, s')) : Step s s' (some envp.attrs) ev := by
  obtain ⟨n, hn⟩ := rpcNode_some op hop
  rw [sendReply_eq srv s ev envp op n hn] at h
  have hs1 : (sessOf srv s op n).sent = s.sent ∧ (sessOf srv s op n).v11 = s.v11 := by
    unfold sessOf; split <;> exact ⟨rfl, rfl⟩
  · obtain ⟨ok, s1, hw, rfl, rfl⟩ := finishSend_some _ _ _ _ _ _ _ h
    obtain ⟨c1, c2, c3⟩ := closeIf_sent s1
    rcases writeReply_cases _ _ _ _ _ _ _ hw with ⟨x, hx, hl, hp, rfl, rfl⟩ | ⟨rfl, hn⟩ | ⟨rfl, rfl, hp⟩
    · have hx := replyElem_attrs _ _ _ hx
      have hx : x.attrs = envp.attrs := hx
      have e1 : ∀ l, (closeIf { sessOf srv s op n with sent := (sessOf srv s op n).sent ++ l }).sent = s.sent ++ l := by
        intro l; rw [(closeIf_sent _).1, hs1.1]
      exact ⟨by rw [c3]; exact hs1.2, Or.inr ⟨x, e1 _, by rw [hx]⟩, fun _ _ => ⟨[x], e1 _, by simp [hx]⟩, fun _ => ⟨[x], e1 _, Or.inl (by simp [hx])⟩⟩
    · have hready : Ready ev → (sessOf srv s op n).status = .running → False := by
        rintro ⟨h1, h2⟩ hs
        rcases hn hs with h | h | h
        · exact h h1
        · rcases h2 with h2 | h2 <;> simp [h2] at h
        · rcases h2 with h2 | h2 <;> simp [h2] at h
      refine ⟨by rw [c3, hs1.2], Or.inl (by rw [c1, hs1.1]), fun hr hs => absurd (closeIf_running _ hs) (fun hs => hready hr hs),
        fun hr => ⟨[], by rw [c1, hs1.1]; simp, Or.inr ⟨rfl, fun hs => hready hr (closeIf_running _ hs)⟩⟩⟩
    · refine ⟨by rw [c3]; exact hs1.2, Or.inl (by rw [c1]; exact hs1.1), fun hr hs => absurd (closeIf_running _ hs) (by simp),
        fun hr => ⟨[], by rw [c1]; simp [hs1.1], Or.inr ⟨rfl, fun hs => absurd (closeIf_running _ hs) (by simp)⟩⟩⟩

/-- The callbacks of one request. -/
def cbList (srv : Srv) (op : Op) (n : SNode) : List (Nat × Op) := (cbOf srv n).toList.map (fun c => (c, op))

theorem sendReply_calls (srv : Srv) (s : Sess) (ev : Ev) (envp : Envp) (op : Op) (n : SNode) (hn : rpcNode op = some n) (ret : Nat) (s' : Sess)
    (h : sendReply srv s ev (some (envp, op)) = some (ret, s')) : s'.calls = s.calls ++ cbList srv op n := by
  rw [sendReply_eq srv s ev envp op n hn] at h
  have hs1 : (sessOf srv s op n).calls = s.calls ++ cbList srv op n := by
    unfold sessOf cbList
    cases cbOf srv n <;> simp
  · obtain ⟨ok, s1, hw, rfl, rfl⟩ := finishSend_some _ _ _ _ _ _ _ h
    rw [(closeIf_sent s1).2.1]
    rcases writeReply_cases _ _ _ _ _ _ _ hw with ⟨x, hx, hl, hp, rfl, rfl⟩ | ⟨rfl, hn⟩ | ⟨rfl, rfl, hp⟩ <;> exact hs1

/-- The result of receiving, case by case. -/
theorem recvRpc_step (srv : Srv) (s : Sess) (ev : Ev) (hs : s.status = .running) (ret : Nat) (rpc : Option (Envp × Op)) (s' : Sess)
    (h : recvRpc srv s ev = some (ret, rpc, s')) :
    (∃ e op, ev.read = .parsed e op ∧ hasMsgid e = true ∧ ret = rRpc ∧ rpc = some (e, op) ∧ s' = s) ∨
    ((∀ e op, ev.read = .parsed e op → hasMsgid e = false) ∧ rpc = none ∧ ret ∈ [rReplyError, rError, rTimeout, rBadRpc, rBadRpc ||| rReplyError] ∧
      Step s s' (wanted s.v11 ev.read) ev ∧ s'.calls = s.calls ∧ (ev.read = .frame → ret = rReplyError)) := by
  unfold recvRpc at h
  rw [if_neg (by simp [hs])] at h
  split at h
  · rename_i hr
    right
    split at h
    · cases h
    · rename_i ret1 s1 hf
      cases h
      have hm : replyErr (mkErr .malformedMsg .rpc none none) = some (.errors [((mkErr .malformedMsg .rpc none none).getD [])]) := rfl
      rw [hm] at hf
      obtain ⟨h1, h2, h3⟩ := finishRecv_step s ev none _ _ _ _ hs hf
      refine ⟨by simp [hr], rfl, ?_, ?_, h2, ?_⟩
      · rw [h3]; decide
      · rw [hr]; exact h1
      · intro _; rw [h3]; rfl
  · rename_i st re hr
    cases h
    right
    refine ⟨by simp [hr], rfl, by decide, ?_, rfl, by simp [hr]⟩
    rw [hr]
    exact ⟨rfl, Or.inl rfl, fun _ _ => ⟨[], by simp [wanted]⟩, fun _ => ⟨[], by simp [wanted]⟩⟩
  · rename_i hr
    cases h
    right
    refine ⟨by simp [hr], rfl, by decide, ?_, rfl, by simp [hr]⟩
    rw [hr]
    exact Step.refl s ev
  · rename_i e op hr
    split at h
    · rename_i hid
      cases h
      exact Or.inl ⟨e, op, hr, hid, rfl, rfl, rfl⟩
    · rename_i hid
      right
      split at h
      · cases h
      · rename_i ret1 s1 hf
        cases h
        have hm : replyErr (mkErr .missingAttr .rpc (some c!"message-id") (some c!"rpc")) =
          some (.errors [((mkErr .missingAttr .rpc (some c!"message-id") (some c!"rpc")).getD [])]) := rfl
        rw [hm] at hf
        obtain ⟨h1, h2, h3⟩ := finishRecv_step s ev (some e) _ _ _ _ hs hf
        refine ⟨?_, rfl, ?_, ?_, h2, by simp [hr]⟩
        · rintro e' op' h'; rw [hr] at h'; cases h'; simpa using hid
        · rw [h3]; simp
        · rw [hr]; exact h1
  · rename_i envp e hr
    right
    split at h
    · cases h
    · rename_i err hp
      split at h
      · cases h
      · rename_i ret1 s1 hf
        cases h
        refine ⟨by simp [hr], rfl, ?_, ?_, ?_, by simp [hr]⟩
        all_goals rcases prepareErr_some _ _ _ _ _ hp with ⟨x, rfl⟩ | ⟨rfl, he, hv⟩
        · obtain ⟨h1, h2, h3⟩ := finishRecv_step s ev envp (.errors [x]) _ _ _ hs hf
          rw [h3]; simp
        · cases hf; simp
        · obtain ⟨h1, h2, h3⟩ := finishRecv_step s ev envp (.errors [x]) _ _ _ hs hf
          rw [hr]
          cases envp with
          | some e => exact h1
          | none =>
            cases hv : s.v11 with
            | true => simpa [wanted, hv, attrsOf] using h1
            | false =>
              exfalso
              rw [hv] at hp
              simp [prepareErr] at hp
        · cases hf
          rw [hr]
          cases envp with
          | some e => simp at he
          | none => simpa [wanted, hv] using Step.refl _ ev
        · exact (finishRecv_step s ev envp (.errors [x]) _ _ _ hs hf).2.1
        · cases hf; rfl

/-- One message. -/
theorem serve_step (srv : Srv) (s : Sess) (ev : Ev) (hs : s.status = .running) (hop : ∀ e op, ev.read = .parsed e op → IsOp op)
    (ret : Nat) (s' : Sess) (h : serve srv s ev = some (ret, s')) : Step s s' (wanted s.v11 ev.read) ev := by
  unfold serve at h
  split at h
  · cases h
  · rename_i ret1 rpc s1 hr
    rcases recvRpc_step srv s ev hs _ _ _ hr with ⟨e, op, hp, hid, rfl, rfl, rfl⟩ | ⟨hp, rfl, hm, hst, hc, _⟩
    · rw [if_neg (by decide)] at h
      split at h
      · cases h
      · rename_i r s2 hsr
        obtain ⟨_, rfl⟩ := Prod.mk.inj (Option.some.inj h)
        rw [hp]
        exact sendReply_step srv s1 ev e op (hop e op hp) _ _ hsr
    · split at h
      · obtain ⟨_, rfl⟩ := Prod.mk.inj (Option.some.inj h)
        exact hst
      · simp only [sendReply] at h
        obtain ⟨_, rfl⟩ := Prod.mk.inj (Option.some.inj h)
        exact hst

theorem serve_calls (srv : Srv) (s : Sess) (ev : Ev) (hs : s.status = .running) (hop : ∀ e op, ev.read = .parsed e op → IsOp op)
    (ret : Nat) (s' : Sess) (h : serve srv s ev = some (ret, s')) :
    ∃ l, s'.calls = s.calls ++ l ∧ ∀ evs l', Called srv evs l' → Called srv (ev :: evs) (l ++ l') := by
  unfold serve at h
  split at h
  · cases h
  · rename_i ret1 rpc s1 hr
    rcases recvRpc_step srv s ev hs _ _ _ hr with ⟨e, op, hp, hid, rfl, rfl, rfl⟩ | ⟨hp, rfl, hm, hst, hc, _⟩
    · rw [if_neg (by decide)] at h
      split at h
      · cases h
      · rename_i r s2 hsr
        obtain ⟨_, rfl⟩ := Prod.mk.inj (Option.some.inj h)
        obtain ⟨n, hn⟩ := rpcNode_some op (hop e op hp)
        refine ⟨_, sendReply_calls srv s1 ev e op n hn _ _ hsr, ?_⟩
        intro evs l' hl
        unfold cbList
        cases hcb : cbOf srv n with
        | none =>
          refine .skip ev evs l' ?_ hl
          intro e' op' hp' _ c hsv
          rw [hp] at hp'
          cases hp'
          rw [serves_iff srv op n hn c, hcb] at hsv
          cases hsv
        | some c => exact .call ev evs l' e op c hp ((hasMsgid_iff e).1 hid) ((serves_iff srv op n hn c).2 hcb) hl
    · have hskip : ∀ evs l', Called srv evs l' → Called srv (ev :: evs) ([] ++ l') := by
        intro evs l' hl
        refine .skip ev evs l' ?_ hl
        intro e op hp' hid
        have := hp e op hp'
        rw [← hasMsgid_iff, this] at hid
        cases hid
      refine ⟨[], ?_, hskip⟩
      split at h
      · obtain ⟨_, rfl⟩ := Prod.mk.inj (Option.some.inj h)
        simpa using hc
      · simp only [sendReply] at h
        obtain ⟨_, rfl⟩ := Prod.mk.inj (Option.some.inj h)
        simpa using hc

/-! ## Runs -/

theorem run_cons (srv : Srv) (s : Sess) (ev : Ev) (evs : List Ev) (s' : Sess) (hs : s.status = .running) (h : run srv s (ev :: evs) = some s') :
    ∃ ret s1, serve srv s ev = some (ret, s1) ∧ run srv s1 evs = some s' := by
  unfold run at h
  rw [if_neg (by simp [hs])] at h
  split at h
  · cases h
  · exact ⟨_, _, by assumption, h⟩

theorem run_stopped (srv : Srv) (s : Sess) (evs : List Ev) (s' : Sess) (hs : s.status ≠ .running) (h : run srv s evs = some s') : s' = s := by
  cases evs with
  | nil => cases h; rfl
  | cons ev evs => unfold run at h; rw [if_pos hs] at h; cases h; rfl

/-! ## Quoted parts of messages -/

theorem quoteLoop_pre (last : Nat) (pre t : Text) (i cnt : Nat) (s e : Option Nat) (h : cnt + pre.count '"' < last) :
    ∃ s' e', quoteLoop last (pre ++ t) i cnt s e = quoteLoop last t (i + pre.length) (cnt + pre.count '"') s' e' := by
  induction pre generalizing i cnt s e with
  | nil => exact ⟨s, e, by simp⟩
  | cons c pre ih =>
    by_cases hc : c = '"'
    · subst hc
      rw [List.count_cons_self] at h
      obtain ⟨s', e', hh⟩ := ih (i + 1) (cnt + 1) e (some i) (by omega)
      refine ⟨s', e', ?_⟩
      rw [List.cons_append, quoteLoop, if_neg (by simp), if_neg (by omega), hh, List.count_cons_self, List.length_cons]
      congr 1 <;> omega
    · rw [List.count_cons_of_ne hc] at h
      obtain ⟨s', e', hh⟩ := ih (i + 1) cnt s e h
      refine ⟨s', e', ?_⟩
      rw [List.cons_append, quoteLoop, if_pos hc, hh, List.count_cons_of_ne hc, List.length_cons]
      congr 1; omega

theorem quoteLoop_plain (last : Nat) (q t : Text) (i cnt : Nat) (s e : Option Nat) (h : '"' ∉ q) :
    quoteLoop last (q ++ t) i cnt s e = quoteLoop last t (i + q.length) cnt s e := by
  induction q generalizing i with
  | nil => simp
  | cons c q ih =>
    have hc : c ≠ '"' := by rintro rfl; exact h (by simp)
    have hq : '"' ∉ q := fun h' => h (by simp [h'])
    rw [List.cons_append, quoteLoop, if_pos hc, ih _ hq, List.length_cons]
    congr 1; omega

theorem cut_quoted (pre q post : Text) :
    ((pre ++ '"' :: q ++ '"' :: post).drop (pre.length + 1)).take (pre.length + 1 + q.length - (pre.length + 1)) = q := by
  have : pre ++ '"' :: q ++ '"' :: post = (pre ++ ['"']) ++ (q ++ '"' :: post) := by simp
  rw [this, show pre.length + 1 = (pre ++ ['"']).length by simp, List.drop_left, Nat.add_sub_cancel_left, List.take_left]

theorem quoted_eq (pre q post : Text) (n : Nat) (hn : (n + 1) * 2 < 4294967296) (hq : '"' ∉ q)
    (h : pre.count '"' + 2 = (n + 1) * 2 ∨ (pre.count '"' + 2 < (n + 1) * 2 ∧ '"' ∉ post)) :
    quoted (pre ++ '"' :: q ++ '"' :: post) n = some q := by
  unfold quoted
  rw [Nat.mod_eq_of_lt hn]
  have hl : pre.count '"' < (n + 1) * 2 := by omega
  have key : ∃ e, quoteLoop ((n + 1) * 2) (pre ++ '"' :: q ++ '"' :: post) 0 0 none none = (some pre.length, some e) ∧ e = pre.length + 1 + q.length := by
    obtain ⟨s', e', hh⟩ := quoteLoop_pre ((n + 1) * 2) pre ('"' :: q ++ '"' :: post) 0 0 none none (by omega)
    rw [List.append_assoc, hh, List.cons_append, quoteLoop, if_neg (by simp), if_neg (by omega), quoteLoop_plain _ _ _ _ _ _ _ hq, quoteLoop,
      if_neg (by simp)]
    split
    · exact ⟨pre.length + 1 + q.length, by simp, rfl⟩
    · rename_i hne
      have hp : '"' ∉ post := by
        rcases h with h | h
        · omega
        · exact h.2
      have := quoteLoop_plain ((n + 1) * 2) post [] (0 + pre.length + 1 + q.length + 1) (0 + pre.count '"' + 1 + 1) (some (0 + pre.length)) (some (0 + pre.length + 1 + q.length)) hp
      rw [List.append_nil] at this
      rw [this, quoteLoop]
      exact ⟨pre.length + 1 + q.length, by simp, rfl⟩
  obtain ⟨e, he, rfl⟩ := key
  rw [he]
  dsimp only
  rw [cut_quoted]

theorem takeWhile_append_stop (c : Char) (a b : Text) (h : c ∉ a) : (a ++ c :: b).takeWhile (· ≠ c) = a := by
  induction a with
  | nil => simp
  | cons x a ih =>
    have hx : x ≠ c := by rintro rfl; exact h (by simp)
    rw [List.cons_append, List.takeWhile_cons]
    simp [hx]
    simpa using ih (fun h' => h (by simp [h']))

theorem afterLast_eq (c : Char) (p q : Text) (h : c ∉ q) : afterLast c (p ++ c :: q) = some q := by
  unfold afterLast
  rw [if_pos (by simp)]
  have : (p ++ c :: q).reverse = q.reverse ++ c :: p.reverse := by simp
  rw [this, takeWhile_append_stop c q.reverse p.reverse (by simpa using h), List.reverse_reverse]

theorem strstarts_iff (p s : Text) : strstarts p s = true ↔ ∃ r, s = p ++ r := by
  unfold strstarts
  rw [List.isPrefixOf_iff_prefix]
  constructor
  · rintro ⟨r, h⟩; exact ⟨r, h.symm⟩
  · rintro ⟨r, h⟩; exact ⟨r, h.symm⟩

/-- Freeing a list of distinct trees removes exactly them. -/
theorem freeAll_eq (m : Mem) (l : List Nat) (hd : l.Nodup) (hm : ∀ n ∈ l, (m.get n).isSome) :
    m.freeAll l = some { m with trees := m.trees.filter (fun t => !l.contains t.1) } := by
  induction l generalizing m with
  | nil => obtain ⟨tr, nx⟩ := m; simp [Mem.freeAll, List.filter_eq_self.2]
  | cons n l ih =>
    obtain ⟨hn, hl⟩ := List.nodup_cons.1 hd
    unfold Mem.freeAll Mem.free
    obtain ⟨x, hx⟩ := Option.isSome_iff_exists.1 (hm n (by simp))
    rw [hx]
    dsimp only
    rw [ih _ hl]
    · simp only [List.filter_filter, Option.some.injEq, Mem.mk.injEq, and_true]
      congr 1
      funext t
      by_cases h : t.1 = n <;> simp [h]
    · intro k hk
      have hkn : k ≠ n := by rintro rfl; exact hn hk
      have := hm k (by simp [hk])
      unfold Mem.get at this ⊢
      simp only [Option.isSome_map, List.find?_isSome] at this ⊢
      obtain ⟨t, ht, he⟩ := this
      refine ⟨t, ?_, he⟩
      simp only [List.mem_filter, ht, true_and]
      simp at he
      simp [he, hkn]

theorem addErrs_eq (l l' : List Nat) : addErrs (.errors l) l' = .errors (l ++ l') := by
  induction l' generalizing l with
  | nil => simp [addErrs]
  | cons t l' ih => simp [addErrs, addErr, ih]

theorem reply_bit (n : Nat) : n &&& rReplyError = rReplyError ↔ n.testBit 4 = true := by
  constructor
  · intro h
    have := congrArg (fun x => x.testBit 4) h
    rw [show rReplyError.testBit 4 = true from rfl] at this
    simpa [Nat.testBit_and, show rReplyError.testBit 4 = true from rfl] using this
  · intro h
    apply Nat.eq_of_testBit_eq
    intro i
    rw [Nat.testBit_and]
    by_cases hi : i = 4
    · subst hi; rw [h]; rfl
    · have : rReplyError.testBit i = false := by
        have e : rReplyError = 2 ^ 4 := rfl
        rw [e]; exact Nat.testBit_two_pow_of_ne (Ne.symm hi)
      rw [this, Bool.and_false]

theorem finishRecv_errors (s : Sess) (lock : Lock) (peer : Peer) (envp : Option Envp) (e : Option Err) (ret0 ret : Nat) (s' : Sess)
    (h : finishRecv s lock peer envp (replyErr e) ret0 = some (ret, s')) :
    s'.sent = s.sent ∨ ∃ x l, s'.sent = s.sent ++ [x] ∧ x.body = .errors l ∧ ret.testBit 4 = true := by
  unfold finishRecv at h
  cases e with
  | none => cases h; exact Or.inl rfl
  | some e =>
    simp only [replyErr, Option.map_some] at h
    split at h
    · cases h
    · rename_i ok s1 hw
      obtain ⟨rfl, rfl⟩ := Prod.mk.inj (Option.some.inj h)
      have hsent : ∀ c : Prop, [Decidable c] → (if c then { s1 with status := .invalid, reason := tOther } else s1).sent = s1.sent := by
        intro c _; split <;> rfl
      rw [hsent]
      rcases writeReply_cases _ _ _ _ _ _ _ hw with ⟨x, hx, -, -, -, rfl⟩ | ⟨rfl, -⟩ | ⟨rfl, -, -⟩
      · refine Or.inr ⟨x, [e], rfl, ?_, by rw [Nat.testBit_or, show rReplyError.testBit 4 = true from rfl, Bool.or_true]⟩
        cases envp <;> cases hx <;> rfl
      · exact Or.inl rfl
      · exact Or.inl rfl

end Verif.ServerRpc
