import Verif.Lemmas.ServerRpc
import Verif.Lemmas.PollBits

/-!
# Properties of requests and replies on the server (C118 to C124)
-/

namespace Verif.Props
open Verif.ServerRpc Verif.NcErr
open Verif.Spec (bitTimeout bitRpc bitBadRpc bitReplyError bitTerm bitSessError bitError whyNone whyClosed whyDropped whyOther)
open Verif.Poll (Status rError rBadRpc rReplyError rTerm rSessError rRpc rTimeout tNone tClosed tKilled tDropped tOther)

/-! ## C118: every request is answered once -/

/-- C118. Full statement: as long as the session runs, every message that needs a reply has got exactly one, in order, with the attributes
of its request. It is false if the lock of the session is taken by somebody else when the reply is to be written, or if writing fails in
certain ways (`answered_false`). Proved: it holds otherwise; a client that is gone ends the session. -/
theorem answered_partial (srv : Srv) (s : Sess) (evs : List Ev) (s' : Sess) (hs : s.status = .running) (hp : Parses evs)
    (hr : ∀ ev ∈ evs, Ready ev) (h : run srv s evs = some s') (hs' : s'.status = .running) :
    ∃ l, s'.sent = s.sent ++ l ∧ l.map (·.attrs) = evs.filterMap (fun ev => wanted s.v11 ev.read) := by
  induction evs generalizing s with
  | nil => cases h; exact ⟨[], by simp⟩
  | cons ev evs ih =>
    obtain ⟨ret, s1, h1, h2⟩ := run_cons srv s ev evs s' hs h
    have st := serve_step srv s ev hs (fun e op he => hp ev (by simp) e op he) ret s1 h1
    by_cases hs1 : s1.status = .running
    · obtain ⟨l1, e1, e2⟩ := st.all (hr ev (by simp)) hs1
      obtain ⟨l2, e3, e4⟩ := ih s1 hs1 (fun v hv => hp v (by simp [hv])) (fun v hv => hr v (by simp [hv])) h2
      refine ⟨l1 ++ l2, by rw [e3, e1, List.append_assoc], ?_⟩
      rw [List.map_append, e2, e4, st.v]
      cases hw : wanted s.v11 ev.read <;> simp [hw]
    · rw [run_stopped srv s1 evs s' hs1 h2] at hs'
      exact absurd hs' hs1

/-- C118. Under the same conditions the replies of a session that has ended are those to the first messages. -/
theorem answered_until_end (srv : Srv) (s : Sess) (evs : List Ev) (s' : Sess) (hs : s.status = .running) (hp : Parses evs)
    (hr : ∀ ev ∈ evs, Ready ev) (h : run srv s evs = some s') :
    ∃ l, s'.sent = s.sent ++ l ∧ l.map (·.attrs) <+: evs.filterMap (fun ev => wanted s.v11 ev.read) := by
  induction evs generalizing s with
  | nil => cases h; exact ⟨[], by simp⟩
  | cons ev evs ih =>
    obtain ⟨ret, s1, h1, h2⟩ := run_cons srv s ev evs s' hs h
    have st := serve_step srv s ev hs (fun e op he => hp ev (by simp) e op he) ret s1 h1
    by_cases hs1 : s1.status = .running
    · obtain ⟨l1, e1, e2⟩ := st.all (hr ev (by simp)) hs1
      obtain ⟨l2, e3, e4⟩ := ih s1 hs1 (fun v hv => hp v (by simp [hv])) (fun v hv => hr v (by simp [hv])) h2
      refine ⟨l1 ++ l2, by rw [e3, e1, List.append_assoc], ?_⟩
      rw [st.v] at e4
      rw [List.map_append, e2]
      cases hw : wanted s.v11 ev.read
      · simpa [hw] using e4
      · simpa [hw] using e4
    · rw [run_stopped srv s1 evs s' hs1 h2]
      obtain ⟨l, e1, e2⟩ := st.early (hr ev (by simp))
      refine ⟨l, e1, ?_⟩
      rcases e2 with e2 | ⟨rfl, _⟩
      · rw [e2]
        cases hw : wanted s.v11 ev.read <;> simp [hw]
      · simp

/-- C118. The end of the session is reported to the caller of `nc_ps_poll`, and only then. -/
theorem session_end_reported (srv : Srv) (s : Sess) (ev : Ev) (ret : Nat) (s' : Sess) (hs : s.status = .running) (h : serve srv s ev = some (ret, s')) :
    ret &&& bitTerm = bitTerm ↔ s'.status ≠ .running := by
  poll_bits
  unfold serve at h
  split at h
  · cases h
  · rename_i ret1 rpc s1 hr
    have hend : ∀ (ret2 : Nat) (s2 : Sess), ret2 ∈ [rReplyError, rError, rTimeout, rBadRpc, rBadRpc ||| rReplyError, rReplyError ||| rError, rTimeout ||| rError,
        rRpc, rRpc ||| rError, rRpc ||| rReplyError, rRpc ||| (rReplyError ||| rError)] →
        ((if s2.status ≠ .running then (if s2.reason &&& (tClosed ||| tKilled) = 0 then ret2 ||| rTerm ||| rSessError else ret2 ||| rTerm) else ret2) &&& rTerm = rTerm ↔ s2.status ≠ .running) ∧
        ((if s2.status ≠ .running then ret2 ||| rTerm ||| rSessError else ret2) &&& rTerm = rTerm ↔ s2.status ≠ .running) := by
      intro ret2 s2 hm
      by_cases hst : s2.status = .running
      · simp only [hst, ne_eq, not_true, if_false]
        revert hm
        revert ret2
        decide
      · simp only [ne_eq, hst, not_false_eq_true, if_true, iff_true]
        by_cases hre : s2.reason &&& (tClosed ||| tKilled) = 0
        · simp only [hre, if_true]
          revert hm
          revert ret2
          decide
        · simp only [hre, if_false]
          revert hm
          revert ret2
          decide
    rcases recvRpc_step srv s ev hs _ _ _ hr with ⟨e, op, hp, hid, rfl, rfl, rfl⟩ | ⟨hp, rfl, hm, hst, hc, _⟩
    · rw [if_neg (by decide)] at h
      split at h
      · cases h
      · rename_i r s2 hsr
        obtain ⟨rfl, rfl⟩ := Prod.mk.inj (Option.some.inj h)
        refine (hend _ _ ?_).1
        have hr4 : r ∈ [0, rError, rReplyError, rReplyError ||| rError] := by
          unfold sendReply at hsr
          dsimp only at hsr
          split at hsr
          · obtain ⟨rfl, _⟩ := Prod.mk.inj (Option.some.inj hsr); simp
          · unfold finishSend at hsr
            split at hsr
            · cases hsr
            · split at hsr
              · cases hsr
              · rename_i rr _ _ ok _ _
                obtain ⟨rfl, _⟩ := Prod.mk.inj (Option.some.inj hsr)
                cases isErr rr <;> cases ok <;> decide
        revert hr4
        revert r
        intro r _ _ hr4
        simp only [List.mem_cons, List.not_mem_nil, or_false] at hr4
        rcases hr4 with rfl | rfl | rfl | rfl <;> decide
    · split at h
      · obtain ⟨rfl, rfl⟩ := Prod.mk.inj (Option.some.inj h)
        refine (hend _ _ ?_).2
        simp only [List.mem_cons, List.not_mem_nil, or_false] at hm ⊢
        rcases hm with rfl | rfl | rfl | rfl | rfl <;> decide
      · simp only [sendReply] at h
        obtain ⟨rfl, rfl⟩ := Prod.mk.inj (Option.some.inj h)
        refine (hend _ _ ?_).1
        rename_i hnot
        simp only [List.mem_cons, List.not_mem_nil, or_false] at hm
        rcases hm with rfl | rfl | rfl | rfl | rfl
        · decide
        · exact absurd (by decide) hnot
        · decide
        · exact absurd (by decide) hnot
        · exact absurd (by decide) hnot

/-- C118. If another thread is reading from the session, the caller learns that this is why nothing was done, and the session stays as it was. -/
theorem busy_reported (srv : Srv) (s : Sess) (lock : Lock) (peer : Peer) (hs : s.status = .running) :
    serve srv s ⟨.busy, lock, peer⟩ = some (bitTimeout ||| bitError, s) := by
  poll_bits
  obtain ⟨v, st, re, sent, calls⟩ := s
  cases hs
  rfl

/-- C118. Whatever happens, no message is answered twice, no answer is made up, and they come in the order of the messages. -/
theorem answered_at_most_once (srv : Srv) (s : Sess) (evs : List Ev) (s' : Sess) (hs : s.status = .running) (hp : Parses evs)
    (h : run srv s evs = some s') :
    ∃ l, s'.sent = s.sent ++ l ∧ (l.map (·.attrs)).Sublist (evs.filterMap (fun ev => wanted s.v11 ev.read)) := by
  induction evs generalizing s with
  | nil => cases h; exact ⟨[], by simp⟩
  | cons ev evs ih =>
    obtain ⟨ret, s1, h1, h2⟩ := run_cons srv s ev evs s' hs h
    have st := serve_step srv s ev hs (fun e op he => hp ev (by simp) e op he) ret s1 h1
    have rest : ∃ l, s'.sent = s1.sent ++ l ∧ (l.map (·.attrs)).Sublist (evs.filterMap (fun ev => wanted s.v11 ev.read)) := by
      by_cases hs1 : s1.status = .running
      · rw [← st.v]
        exact ih s1 hs1 (fun v hv => hp v (by simp [hv])) h2
      · rw [run_stopped srv s1 evs s' hs1 h2]
        exact ⟨[], by simp⟩
    obtain ⟨l, e1, e2⟩ := rest
    rcases st.sent with e | ⟨x, e, ha⟩
    · refine ⟨l, by rw [e1, e], ?_⟩
      cases hw : wanted s.v11 ev.read
      · simpa [hw] using e2
      · simpa [hw] using e2.cons _
    · refine ⟨x :: l, by rw [e1, e]; simp, ?_⟩
      simpa [ha] using e2

/-- An envelope with message-id 101. -/
def rpcEnv : Envp := ⟨none, c!"urn:ietf:params:xml:ns:netconf:base:1.0", [⟨c!"message-id", c!"101"⟩, ⟨c!"user", c!"x"⟩]⟩
/-- An RPC with callback 7. -/
def rpcOp : Op := ⟨⟨true, false, some 7⟩, [], c!"<get/>"⟩
/-- A server whose callbacks answer with data. -/
def rpcSrv : Srv := ⟨fun _ => some ⟨c!"get", true⟩, none, fun _ _ st re => ⟨some (.data [c!"<data/>"] .trim), st, re⟩⟩
/-- A new session of version 1.1. -/
def rpcSess : Sess := ⟨true, .running, 0, [], []⟩

/-- C118 is false: another thread is sending a notification for longer than the timeout given to `nc_ps_poll`; the callback was run, but the
reply is dropped and the session goes on. The same happens after a write error that is not noticed. -/
theorem answered_false :
    (∃ s', run rpcSrv rpcSess [⟨.parsed rpcEnv rpcOp, .busy, .takes⟩] = some s' ∧ s'.status = .running ∧ s'.sent = [] ∧ s'.calls = [(7, rpcOp)]) ∧
    (∃ s', run rpcSrv rpcSess [⟨.parsed rpcEnv rpcOp, .got, .silent⟩] = some s' ∧ s'.status = .running ∧ s'.sent = []) :=
  ⟨⟨_, rfl, rfl, rfl, rfl⟩, ⟨_, rfl, rfl, rfl⟩⟩

example : ∃ s', run rpcSrv rpcSess [⟨.parsed rpcEnv rpcOp, .got, .takes⟩, ⟨.rejected none (some ⟨c!"x", none, false⟩), .got, .takes⟩,
      ⟨.busy, .got, .takes⟩, ⟨.parsed rpcEnv rpcOp, .got, .takes⟩] = some s' ∧ s'.status = .running ∧
    s'.sent.map (·.attrs) = [rpcEnv.attrs, [], rpcEnv.attrs] := ⟨_, rfl, rfl, rfl⟩

/-- C118. Serving a message never uses a NULL pointer, if libyang describes its errors as assumed and callbacks give no reply without
envelope (they cannot). -/
theorem serve_defined (srv : Srv) (s : Sess) (ev : Ev) (h : Logs ev.read) : ∃ r, serve srv s ev = some r := by
  have hw : ∀ (s : Sess) (e : Envp) (r : Reply), ∃ x, writeReply s ev.lock ev.peer (some e) r = some x := by
    intro s e r
    unfold writeReply
    split
    · exact ⟨_, rfl⟩
    · cases ev.lock with
      | broken => exact ⟨_, rfl⟩
      | busy => exact ⟨_, rfl⟩
      | got =>
        cases r <;> cases ev.peer <;> exact ⟨_, rfl⟩
  have hf : ∀ (e : Option Envp) (err : Option Err) (n : Nat), ∃ x, finishRecv s ev.lock ev.peer e (replyErr err) n = some x := by
    intro e err n
    cases err with
    | none => exact ⟨_, rfl⟩
    | some err =>
      unfold finishRecv replyErr
      dsimp only [Option.map]
      have : ∃ x, writeReply s ev.lock ev.peer e (.errors [err]) = some x := by
        cases e with
        | some e => exact hw s e _
        | none =>
          unfold writeReply
          split
          · exact ⟨_, rfl⟩
          · cases ev.lock with
            | broken => exact ⟨_, rfl⟩
            | busy => exact ⟨_, rfl⟩
            | got => cases ev.peer <;> exact ⟨_, rfl⟩
      obtain ⟨⟨ok, s1⟩, hx⟩ := this
      rw [hx]
      exact ⟨_, rfl⟩
  have hrecv : ∃ x, recvRpc srv s ev = some x := by
    unfold recvRpc
    split
    · exact ⟨_, rfl⟩
    · split
      · obtain ⟨⟨a, b⟩, hx⟩ := hf none (mkErr .malformedMsg .rpc none none) 0
        rw [hx]; exact ⟨_, rfl⟩
      · exact ⟨_, rfl⟩
      · exact ⟨_, rfl⟩
      · rename_i e op _
        split
        · exact ⟨_, rfl⟩
        · obtain ⟨⟨a, b⟩, hx⟩ := hf (some e) (mkErr .missingAttr .rpc (some c!"message-id") (some c!"rpc")) rBadRpc
          rw [hx]; exact ⟨_, rfl⟩
      · rename_i envp e hr
        rw [hr] at h
        obtain ⟨x, rfl, hslash, hcolon⟩ := h
        have : ∃ y, prepareErr s.v11 envp.isSome srv.find (some x) = some y := by
          unfold prepareErr
          split
          · exact ⟨_, rfl⟩
          · dsimp only
            split
            · split <;> exact ⟨_, rfl⟩
            · have hn : ∃ cn, findNode srv.find x.path = some cn := by
                cases hp : x.path with
                | none => exact ⟨_, rfl⟩
                | some p => unfold findNode afterLast; dsimp only; rw [if_pos (hslash p hp)]; exact ⟨_, rfl⟩
              obtain ⟨cn, hcn⟩ := hn
              rw [hcn]
              dsimp only
              have hc : ∃ r, chooseErr cn x = some r := by
                unfold chooseErr
                cases cn with
                | none =>
                  dsimp only
                  split
                  · exact ⟨_, rfl⟩
                  · split <;> exact ⟨_, rfl⟩
                | some n =>
                  dsimp only
                  split
                  · split <;> exact ⟨_, rfl⟩
                  · split
                    · rename_i hst
                      obtain ⟨p, hp, hmem⟩ := hcolon ((strstarts_iff _ _).1 hst)
                      rw [hp]
                      unfold afterLast
                      dsimp only
                      rw [if_pos hmem]
                      exact ⟨_, rfl⟩
                    · split
                      · exact ⟨_, rfl⟩
                      · split <;> exact ⟨_, rfl⟩
              obtain ⟨r, hr⟩ := hc
              rw [hr]
              exact ⟨_, rfl⟩
        obtain ⟨y, hy⟩ := this
        rw [hy]
        obtain ⟨⟨a, b⟩, hx⟩ := hf envp y rBadRpc
        dsimp only
        rw [hx]; exact ⟨_, rfl⟩
  obtain ⟨⟨ret, rpc, s1⟩, hx⟩ := hrecv
  unfold serve
  rw [hx]
  dsimp only
  split
  · exact ⟨_, rfl⟩
  · have : ∃ y, sendReply srv s1 ev rpc = some y := by
      unfold sendReply
      cases rpc with
      | none => exact ⟨_, rfl⟩
      | some er =>
        obtain ⟨e, op⟩ := er
        dsimp only
        cases rpcNode op with
        | none => exact ⟨_, rfl⟩
        | some n =>
          dsimp only
          unfold finishSend
          cases (callOp srv s1 op n).1 with
          | none =>
            obtain ⟨⟨a, b⟩, hy⟩ := hw (callOp srv s1 op n).2 e (.errors ((mkErr .opFailed .app none none).toList))
            have : replyErr (mkErr .opFailed .app none none) = some (.errors ((mkErr .opFailed .app none none).toList)) := rfl
            dsimp only
            rw [this]
            dsimp only
            rw [hy]; exact ⟨_, rfl⟩
          | some r =>
            obtain ⟨⟨a, b⟩, hy⟩ := hw (callOp srv s1 op n).2 e r
            dsimp only
            rw [hy]; exact ⟨_, rfl⟩
    obtain ⟨⟨a, b⟩, hy⟩ := this
    rw [hy]; exact ⟨_, rfl⟩

example : Logs (.rejected (some rpcEnv) (some ⟨c!"Annotation definition for attribute \"m:a\" not found.", some c!"/m:get/@m:a", false⟩)) :=
  ⟨_, rfl, by intro p hp; cases hp; decide, fun _ => ⟨_, rfl, by decide⟩⟩

/-! ## C119: bad messages get the errors of RFC 6241 -/

/-- C119. A request without message-id gets missing-attribute with the names of the attribute and element; no callback is called and the
session goes on. -/
theorem missing_id_error (srv : Srv) (s : Sess) (e : Envp) (op : Op) (hs : s.status = .running) (hid : ¬ HasId e) :
    ∃ x s', serve srv s ⟨.parsed e op, .got, .takes⟩ = some (bitBadRpc ||| bitReplyError, s') ∧ s' = { s with sent := s.sent ++ [x] } ∧
      x.attrs = e.attrs ∧ x.ns = e.ns ∧ x.pref = e.pref ∧ Says x.body .missingAttr .rpc [(.badAttribute, "message-id"), (.badElement, "rpc")] := by
  poll_bits
  have hm : hasMsgid e = false := by
    cases h : hasMsgid e
    · rfl
    · exact absurd ((hasMsgid_iff e).1 h) hid
  refine ⟨⟨e.pref, e.ns, e.attrs, .errors ((mkErr .missingAttr .rpc (some c!"message-id") (some c!"rpc")).toList)⟩, _, ?_, rfl, rfl, rfl, rfl, _, rfl, ?_, ?_, ?_⟩
  · obtain ⟨v, st, re, sent, calls⟩ := s
    cases hs
    unfold serve recvRpc
    simp only [hm]
    rfl
  · decide +kernel
  · decide +kernel
  · decide +kernel

/-- C119. A message without readable envelope gets malformed-message from a session of version 1.1 (a missing namespace: missing-attribute);
an old client gets nothing. -/
theorem malformed_error (srv : Srv) (s : Sess) (l : LyErr) (hs : s.status = .running) :
    (s.v11 = true → ∃ x s', serve srv s ⟨.rejected none (some l), .got, .takes⟩ = some (bitBadRpc ||| bitReplyError, s') ∧
      s' = { s with sent := s.sent ++ [x] } ∧ x.attrs = [] ∧ x.ns = c!"urn:ietf:params:xml:ns:netconf:base:1.0" ∧
      (l.msg ≠ c!"Missing XML namespace." → Says x.body .malformedMsg .rpc []) ∧
      (l.msg = c!"Missing XML namespace." → Says x.body .missingAttr .rpc [(.badAttribute, "xmlns"), (.badElement, "rpc")])) ∧
    (s.v11 = false → serve srv s ⟨.rejected none (some l), .got, .takes⟩ = some (bitBadRpc, s)) := by
  poll_bits
  obtain ⟨v, st, re, sent, calls⟩ := s
  cases hs
  constructor
  · intro hv
    cases hv
    by_cases hm : l.msg = c!"Missing XML namespace."
    · refine ⟨⟨none, _, [], .errors ((mkErr .missingAttr .rpc (some c!"xmlns") (some c!"rpc")).toList)⟩, _, ?_, rfl, rfl, rfl, fun h => absurd hm h,
        fun _ => ⟨_, rfl, ?_, ?_, ?_⟩⟩
      · unfold serve recvRpc prepareErr
        simp only [hm]
        rfl
      · decide +kernel
      · decide +kernel
      · decide +kernel
    · refine ⟨⟨none, _, [], .errors ((mkErr .malformedMsg .rpc none none).toList)⟩, _, ?_, rfl, rfl, rfl, fun _ => ⟨_, rfl, ?_, ?_, ?_⟩, fun h => absurd h hm⟩
      · unfold serve recvRpc prepareErr
        simp only [Option.isSome_none, Bool.not_false, Bool.not_true, Bool.and_false, Bool.false_eq_true, if_false, if_true, if_neg hm]
        rfl
      · decide +kernel
      · decide +kernel
      · decide +kernel
  · intro hv
    cases hv
    rfl

/-- C119. Messages that are not valid requests never reach a callback. -/
theorem bad_message_not_executed (srv : Srv) (s : Sess) (ev : Ev) (ret : Nat) (s' : Sess) (hs : s.status = .running)
    (hbad : ∀ e op, ev.read = .parsed e op → ¬ HasId e) (h : serve srv s ev = some (ret, s')) : s'.calls = s.calls := by
  unfold serve at h
  split at h
  · cases h
  · rename_i ret1 rpc s1 hr
    rcases recvRpc_step srv s ev hs _ _ _ hr with ⟨e, op, hp, hid, rfl, rfl, rfl⟩ | ⟨hp, rfl, hm, hst, hc, _⟩
    · exact absurd ((hasMsgid_iff e).1 hid) (hbad e op hp)
    · split at h
      · obtain ⟨_, rfl⟩ := Prod.mk.inj (Option.some.inj h)
        exact hc
      · simp only [sendReply] at h
        obtain ⟨_, rfl⟩ := Prod.mk.inj (Option.some.inj h)
        exact hc

/-- C119 is false for old clients: malformed-message, which RFC 6241 (appendix A) forbids to send to them, is sent if the XML is wrong behind the envelope. -/
theorem old_client_malformed_false : ∃ x s', serve rpcSrv ⟨false, .running, 0, [], []⟩
      ⟨.rejected (some rpcEnv) (some ⟨c!"Invalid character sequence \"/\", expected name.", none, false⟩), .got, .takes⟩ = some (bitBadRpc ||| bitReplyError, s') ∧
    s'.sent = [x] ∧ Says x.body .malformedMsg .rpc [] := by
  poll_bits
  refine ⟨⟨rpcEnv.pref, rpcEnv.ns, rpcEnv.attrs, .errors [[⟨.typ, some "rpc", none, []⟩, ⟨.tag, some "malformed-message", none, []⟩, ⟨.severity, some "error", none, []⟩,
    ⟨.message, some "Invalid character sequence \"/\", expected name.", some "en", []⟩]]⟩,
    ⟨false, .running, 0, [⟨rpcEnv.pref, rpcEnv.ns, rpcEnv.attrs, .errors [[⟨.typ, some "rpc", none, []⟩, ⟨.tag, some "malformed-message", none, []⟩, ⟨.severity, some "error", none, []⟩,
    ⟨.message, some "Invalid character sequence \"/\", expected name.", some "en", []⟩]]⟩], []⟩, ?_, rfl, _, rfl, ?_, ?_, ?_⟩
  · decide +kernel
  · decide +kernel
  · decide +kernel
  · decide +kernel

example : ¬ HasId ⟨none, [], [⟨c!"id", c!"1"⟩]⟩ := by
  rintro ⟨a, ha, hn⟩
  simp at ha
  subst ha
  exact absurd hn (by decide)

/-! ## C120: framing errors end the session -/

/-- C120 is false: after an invalid frame (RFC 6242, 4.2: the peer MUST terminate the session) the session is still running, and what is
read next is executed as a request. -/
theorem frame_error_false : ∃ s', run rpcSrv rpcSess [⟨.frame, .got, .takes⟩, ⟨.parsed rpcEnv rpcOp, .got, .takes⟩] = some s' ∧
    s'.status = .running ∧ s'.calls = [(7, rpcOp)] := ⟨_, rfl, rfl, rfl⟩

/-- C120. Full statement: an invalid frame ends the session. It is false (`frame_error_false`). Proved: nothing is executed for it, the client is told with
malformed-message, `nc_ps_poll` returns an error, and if the client cannot be told the session does end. -/
theorem frame_error_partial (srv : Srv) (s : Sess) (lock : Lock) (peer : Peer) (hs : s.status = .running) :
    ∃ ret s', serve srv s ⟨.frame, lock, peer⟩ = some (ret, s') ∧ s'.calls = s.calls ∧ ret &&& (bitReplyError ||| bitError) = bitReplyError ||| bitError ∧
      ((∃ x, s' = { s with sent := s.sent ++ [x] } ∧ x.attrs = [] ∧ Says x.body .malformedMsg .rpc [] ∧ ret &&& bitTerm = 0) ∨
       (s'.status = .invalid ∧ s'.reason = (if lock = .got ∧ peer = .dropped then whyDropped else whyOther) ∧ s'.sent = s.sent ∧ ret &&& bitTerm = bitTerm) ∨
       (s' = s ∧ peer = .silent)) := by
  poll_bits
  obtain ⟨v, st, re, sent, calls⟩ := s
  cases hs
  have hsay : Says (.errors ((mkErr .malformedMsg .rpc none none).toList)) .malformedMsg .rpc [] := ⟨_, rfl, by decide +kernel, by decide +kernel, by decide +kernel⟩
  have hre : replyErr (mkErr .malformedMsg .rpc none none) = some (.errors ((mkErr .malformedMsg .rpc none none).toList)) := by decide +kernel
  have hel : ∀ l, replyElem none (.errors l) = some ⟨none, c!"urn:ietf:params:xml:ns:netconf:base:1.0", [], .errors l⟩ := fun _ => rfl
  cases lock with
  | busy => exact ⟨rReplyError ||| rError ||| rTerm, ⟨v, .invalid, tOther, sent, calls⟩, by simp [serve, recvRpc, finishRecv, writeReply, hre, sendReply]; rw [if_pos (by decide), if_neg (by decide)], rfl, by decide, Or.inr (Or.inl ⟨rfl, rfl, rfl, by decide⟩)⟩
  | broken => exact ⟨rReplyError ||| rError ||| rTerm, ⟨v, .invalid, tOther, sent, calls⟩, by simp [serve, recvRpc, finishRecv, writeReply, hre, sendReply]; rw [if_pos (by decide), if_neg (by decide)], rfl, by decide, Or.inr (Or.inl ⟨rfl, rfl, rfl, by decide⟩)⟩
  | got =>
    cases peer with
    | takes =>
      exact ⟨rReplyError ||| rError, _, rfl, rfl, by decide,
        Or.inl ⟨⟨none, _, [], .errors ((mkErr .malformedMsg .rpc none none).toList)⟩, rfl, rfl, hsay, by decide⟩⟩
    | dropped => exact ⟨rReplyError ||| rError ||| rTerm, ⟨v, .invalid, tDropped, sent, calls⟩, by simp [serve, recvRpc, finishRecv, writeReply, hre, sendReply, hel]; rw [if_pos (by decide), if_neg (by decide)], rfl, by decide, Or.inr (Or.inl ⟨rfl, rfl, rfl, by decide⟩)⟩
    | fails => exact ⟨rReplyError ||| rError ||| rTerm, ⟨v, .invalid, tOther, sent, calls⟩, by simp [serve, recvRpc, finishRecv, writeReply, hre, sendReply, hel]; rw [if_pos (by decide), if_neg (by decide)], rfl, by decide, Or.inr (Or.inl ⟨rfl, rfl, rfl, by decide⟩)⟩
    | silent => exact ⟨rReplyError ||| rError, _, rfl, rfl, by decide, Or.inr (Or.inr ⟨rfl, rfl⟩)⟩

example : ∃ s', serve rpcSrv rpcSess ⟨.frame, .got, .dropped⟩ = some (bitReplyError ||| bitError ||| bitTerm, s') ∧ s'.status = .invalid := ⟨_, rfl, rfl⟩

/-- C118. The caller of `nc_ps_poll` is told about every reply with errors that was sent, and of no other reply. -/
theorem error_reply_reported (srv : Srv) (s : Sess) (ev : Ev) (ret : Nat) (s' : Sess) (x : Sent) (hs : s.status = .running)
    (h : serve srv s ev = some (ret, s')) (hx : s'.sent = s.sent ++ [x]) : ret &&& bitReplyError = bitReplyError ↔ ∃ l, x.body = .errors l := by
  poll_bits
  rw [reply_bit]
  have one : ∀ (a : List Sent) (y : Sent), a ++ [y] = a ++ [x] → y = x := fun a y e => by simpa using e
  have none' : s'.sent ≠ s.sent := by rw [hx]; simp
  unfold serve at h
  split at h
  · cases h
  · rename_i ret1 rpc s1 hr
    have hrecv : (∃ e op, rpc = some (e, op) ∧ s1 = s ∧ ret1 = rRpc) ∨
        (rpc = none ∧ (s1.sent = s.sent ∨ ∃ y l, s1.sent = s.sent ++ [y] ∧ y.body = .errors l ∧ ret1.testBit 4 = true)) := by
      unfold recvRpc at hr
      rw [if_neg (by simp [hs])] at hr
      split at hr
      · split at hr
        · cases hr
        · rename_i hf; cases hr; exact Or.inr ⟨rfl, finishRecv_errors _ _ _ _ _ _ _ _ hf⟩
      · cases hr; exact Or.inr ⟨rfl, Or.inl rfl⟩
      · cases hr; exact Or.inr ⟨rfl, Or.inl rfl⟩
      · split at hr
        · cases hr; exact Or.inl ⟨_, _, rfl, rfl, rfl⟩
        · split at hr
          · cases hr
          · rename_i hf; cases hr; exact Or.inr ⟨rfl, finishRecv_errors _ _ _ _ _ _ _ _ hf⟩
      · split at hr
        · cases hr
        · split at hr
          · cases hr
          · rename_i hf; cases hr; exact Or.inr ⟨rfl, finishRecv_errors _ _ _ _ _ _ _ _ hf⟩
    rcases hrecv with ⟨e, op, rfl, rfl, rfl⟩ | ⟨rfl, hse⟩
    · rw [if_neg (by decide)] at h
      split at h
      · cases h
      · rename_i r s2 hsr
        obtain ⟨rfl, rfl⟩ := Prod.mk.inj (Option.some.inj h)
        have hbit : ∀ c d : Prop, [Decidable c] → [Decidable d] →
            (if c then (if d then rRpc ||| r ||| rTerm ||| rSessError else rRpc ||| r ||| rTerm) else rRpc ||| r).testBit 4 = r.testBit 4 := by
          intro c d _ _
          repeat' split
          all_goals simp [Nat.testBit_or, show rRpc.testBit 4 = false from rfl, show rTerm.testBit 4 = false from rfl, show rSessError.testBit 4 = false from rfl]
        rw [hbit]
        unfold sendReply at hsr
        dsimp only at hsr
        split at hsr
        · cases hsr; exact absurd rfl none'
        · rename_i n hn
          have hcall : (callOp srv s1 op n).2.sent = s1.sent := by unfold callOp; repeat' split
                                                                   all_goals rfl
          unfold finishSend at hsr
          split at hsr
          · cases hsr
          · rename_i rr hrep
            split at hsr
            · cases hsr
            · rename_i ok s3 hw
              obtain ⟨rfl, rfl⟩ := Prod.mk.inj (Option.some.inj hsr)
              rw [(closeIf_sent _).1] at hx none'
              rcases writeReply_cases _ _ _ _ _ _ _ hw with ⟨y, hy, -, -, rfl, rfl⟩ | ⟨rfl, -⟩ | ⟨rfl, -, -⟩
              · have := one s1.sent y (by rw [← hx, hcall])
                subst this
                cases rr <;> cases hy <;> simp [isErr, show rReplyError.testBit 4 = true from rfl]
              · exact absurd hcall none'
              · exact absurd hcall none'
    · have hend : ∀ (ret2 : Nat), s'.sent = s1.sent → (ret1.testBit 4 = true → ret2.testBit 4 = true) →
          (ret2.testBit 4 = true ↔ ∃ l, x.body = .errors l) := by
        intro ret2 e hb
        rcases hse with hse | ⟨y, l, h1, h2, h3⟩
        · exact absurd (e.trans hse) none'
        · have := one s.sent y (by rw [← hx, e, h1])
          subst this
          exact ⟨fun _ => ⟨l, h2⟩, fun _ => hb h3⟩
      split at h
      · obtain ⟨rfl, rfl⟩ := Prod.mk.inj (Option.some.inj h)
        refine hend _ rfl (fun hb => ?_)
        split <;> simp [Nat.testBit_or, hb]
      · simp only [sendReply] at h
        obtain ⟨rfl, rfl⟩ := Prod.mk.inj (Option.some.inj h)
        refine hend _ rfl (fun hb => ?_)
        repeat' split
        all_goals simp [Nat.testBit_or, hb]

example : ∃ s', serve rpcSrv rpcSess ⟨.frame, .got, .takes⟩ = some (bitReplyError ||| bitError, s') ∧ s'.sent.length = 1 := ⟨_, rfl, rfl⟩

/-! ## C121: operations reach their callback -/

/-- C121. Over any sequence of messages that leaves the session running, the callbacks called are exactly those of the valid requests, each once and in order,
whatever happens to the replies. -/
theorem callbacks_called (srv : Srv) (s : Sess) (evs : List Ev) (s' : Sess) (hs : s.status = .running) (hp : Parses evs)
    (h : run srv s evs = some s') : ∃ l pre, s'.calls = s.calls ++ l ∧ pre <+: evs ∧ Called srv pre l ∧ (s'.status = .running → pre = evs) := by
  induction evs generalizing s with
  | nil => cases h; exact ⟨[], [], by simp, by simp, .nil, fun _ => rfl⟩
  | cons ev evs ih =>
    obtain ⟨ret, s1, h1, h2⟩ := run_cons srv s ev evs s' hs h
    obtain ⟨l1, e1, c1⟩ := serve_calls srv s ev hs (fun e op he => hp ev (by simp) e op he) ret s1 h1
    by_cases hs1 : s1.status = .running
    · obtain ⟨l2, pre, e2, hpre, hc, hall⟩ := ih s1 hs1 (fun v hv => hp v (by simp [hv])) h2
      refine ⟨l1 ++ l2, ev :: pre, by rw [e2, e1, List.append_assoc], ?_, c1 _ _ hc, fun hr => by rw [hall hr]⟩
      simpa using hpre
    · rw [run_stopped srv s1 evs s' hs1 h2]
      exact ⟨l1, [ev], e1, by simp, by simpa using c1 [] [] .nil, fun hr => absurd hr hs1⟩

/-- C121. The reply is what the callback gave (its default values are treated as the reply says); a callback that gives nothing means operation-failed, and no
callback means operation-not-supported; the session goes on unless a reason for its end was set. -/
theorem callback_reply (srv : Srv) (s : Sess) (e : Envp) (op : Op) (hs : s.status = .running) (hid : HasId e) (hop : IsOp op) :
    (∀ c, Serves srv op c → (srv.run c op .running s.reason).status = .running →
      ∃ x ret s', serve srv s ⟨.parsed e op, .got, .takes⟩ = some (ret, s') ∧ s'.sent = s.sent ++ [x] ∧ s'.calls = s.calls ++ [(c, op)] ∧
        x.attrs = e.attrs ∧ x.ns = e.ns ∧ x.pref = e.pref ∧ s'.reason = (srv.run c op .running s.reason).reason ∧ (s'.status = .running ↔ s'.reason = whyNone) ∧
        (∀ r, (srv.run c op .running s.reason).reply = some r → Shows r x.body) ∧
        ((srv.run c op .running s.reason).reply = none → Says x.body .opFailed .app [])) ∧
    ((∀ c, ¬ Serves srv op c) → ∃ x ret s', serve srv s ⟨.parsed e op, .got, .takes⟩ = some (ret, s') ∧ s'.sent = s.sent ++ [x] ∧ s'.calls = s.calls ∧
        x.attrs = e.attrs ∧ x.ns = e.ns ∧ x.pref = e.pref ∧ s'.reason = s.reason ∧ (s'.status = .running ↔ s'.reason = whyNone) ∧ Says x.body .opNotSupported .prot []) := by
  poll_bits
  have hclose : ∀ z : Sess, z.status = .running → (closeIf z).reason = z.reason ∧ ((closeIf z).status = .running ↔ (closeIf z).reason = tNone) := by
    intro z hz
    unfold closeIf
    by_cases h : z.reason = tNone <;> simp [hz, h]
  obtain ⟨n, hn⟩ := rpcNode_some op hop
  have hm := (hasMsgid_iff e).2 hid
  have hrecv : recvRpc srv s ⟨.parsed e op, .got, .takes⟩ = some (rRpc, some (e, op), s) := by
    unfold recvRpc
    simp [hs, hm]
  have hserve : ∀ r s2, sendReply srv s ⟨.parsed e op, .got, .takes⟩ (some (e, op)) = some (r, s2) → ∃ ret, serve srv s ⟨.parsed e op, .got, .takes⟩ = some (ret, s2) := by
    intro r s2 h
    unfold serve
    rw [hrecv]
    dsimp only
    rw [if_neg (by decide), h]
    exact ⟨_, rfl⟩
  have helem : ∀ r, ∃ x, replyElem (some e) r = some x := by
    intro r; cases r <;> exact ⟨_, rfl⟩
  have hsend : ∀ x, (sessOf srv s op n).status = .running → replyElem (some e) (replyOf srv s op n) = some x →
      ∃ r, sendReply srv s ⟨.parsed e op, .got, .takes⟩ (some (e, op)) = some (r, closeIf { sessOf srv s op n with sent := (sessOf srv s op n).sent ++ [x] }) := by
    intro x hr hx
    rw [sendReply_eq srv s _ e op n hn]
    unfold finishSend
    dsimp only
    rw [writeReply_takes _ _ _ x hr hx]
    exact ⟨_, rfl⟩
  constructor
  · intro c hc hrun
    have hcb := (serves_iff srv op n hn c).1 hc
    have hst : (sessOf srv s op n).status = .running := by
      unfold sessOf; rw [hcb]; dsimp only; rw [hs]; exact hrun
    obtain ⟨x, hx⟩ := helem (replyOf srv s op n)
    obtain ⟨r, hr⟩ := hsend x hst hx
    obtain ⟨ret, hret⟩ := hserve _ _ hr
    obtain ⟨k1, k2, k3⟩ := closeIf_sent { sessOf srv s op n with sent := (sessOf srv s op n).sent ++ [x] }
    obtain ⟨hsh, hpf, hns⟩ := replyElem_shows e _ x hx
    obtain ⟨q1, q2⟩ := hclose { sessOf srv s op n with sent := (sessOf srv s op n).sent ++ [x] } hst
    refine ⟨x, ret, _, hret, ?_, ?_, replyElem_attrs _ _ _ hx, hns, hpf, ?_, q2, ?_, ?_⟩
    · rw [k1]; unfold sessOf; rw [hcb]
    · rw [k2]; unfold sessOf; rw [hcb]
    · rw [q1]; unfold sessOf; rw [hcb]; dsimp only; rw [hs]
    · intro rep hrep
      unfold replyOf at hsh
      rw [hcb] at hsh
      dsimp only at hsh
      rw [hs, hrep] at hsh
      exact hsh
    · intro hrep
      unfold replyOf at hsh
      rw [hcb] at hsh
      dsimp only at hsh
      rw [hs, hrep] at hsh
      dsimp only [Option.getD] at hsh
      generalize hb : x.body = b at hsh
      cases hsh
      exact ⟨_, rfl, by decide +kernel, by decide +kernel, by decide +kernel⟩
  · intro hno
    have hcb : cbOf srv n = none := by
      cases h : cbOf srv n with
      | none => rfl
      | some c => exact absurd ((serves_iff srv op n hn c).2 h) (hno c)
    have hst : (sessOf srv s op n).status = .running := by
      unfold sessOf; rw [hcb]; exact hs
    obtain ⟨x, hx⟩ := helem (replyOf srv s op n)
    obtain ⟨r, hr⟩ := hsend x hst hx
    obtain ⟨ret, hret⟩ := hserve _ _ hr
    obtain ⟨k1, k2, k3⟩ := closeIf_sent { sessOf srv s op n with sent := (sessOf srv s op n).sent ++ [x] }
    obtain ⟨hsh, hpf, hns⟩ := replyElem_shows e _ x hx
    obtain ⟨q1, q2⟩ := hclose { sessOf srv s op n with sent := (sessOf srv s op n).sent ++ [x] } hst
    refine ⟨x, ret, _, hret, ?_, ?_, replyElem_attrs _ _ _ hx, hns, hpf, ?_, q2, ?_⟩
    · rw [k1]; unfold sessOf; rw [hcb]
    · rw [k2]; unfold sessOf; rw [hcb]
    · rw [q1]; unfold sessOf; rw [hcb]
    · unfold replyOf at hsh
      rw [hcb] at hsh
      dsimp only at hsh
      generalize hb : x.body = b at hsh
      cases hsh
      exact ⟨_, rfl, by decide +kernel, by decide +kernel, by decide +kernel⟩

/-- C121. With the default callback, `close-session` is answered with `ok`, the session ends as closed, and `nc_ps_poll` reports a terminated session without error. -/
theorem close_session_reply (srv : Srv) (s : Sess) (e : Envp) (op : Op) (c : Nat) (hs : s.status = .running) (hid : HasId e) (hop : op.root.isRpc = true)
    (hc : op.root.priv = some c) (hrun : srv.run c op = closeSession) :
    serve srv s ⟨.parsed e op, .got, .takes⟩ =
      some (bitRpc ||| bitTerm, { s with status := .invalid, reason := whyClosed, sent := s.sent ++ [⟨e.pref, e.ns, e.attrs, .ok⟩], calls := s.calls ++ [(c, op)] }) := by
  poll_bits
  have hm := (hasMsgid_iff e).2 hid
  obtain ⟨v, st, re, sent, calls⟩ := s
  cases hs
  unfold serve recvRpc
  simp only [hm]
  rw [if_neg (by simp)]
  rw [if_pos trivial]
  dsimp only
  rw [if_neg (by decide)]
  unfold sendReply rpcNode
  simp only [hop, if_true]
  unfold callOp
  rw [hc]
  dsimp only
  rw [hrun]
  have hsent : finishSend ⟨v, .running, tClosed, sent, calls ++ [(c, op)]⟩ .got .takes e (some .ok) =
      some (0, ⟨v, .invalid, tClosed, sent ++ [⟨e.pref, e.ns, e.attrs, .ok⟩], calls ++ [(c, op)]⟩) := by
    obtain ⟨pref, ns, attrs⟩ := e
    simp [finishSend, writeReply, replyElem, isErr, closeIf, tClosed, tNone]
  have hcl : closeSession .running re = ⟨some .ok, .running, tClosed⟩ := rfl
  rw [hcl]
  dsimp only
  rw [hsent]
  dsimp only
  rw [if_pos (by simp), if_neg (by decide)]
  have h0 : (rRpc ||| 0 ||| rTerm) = rRpc ||| rTerm := by decide
  rw [h0]

example : Serves ⟨fun _ => none, some 3, fun _ _ st re => ⟨none, st, re⟩⟩ ⟨⟨false, false, none⟩, [⟨false, true, none⟩], []⟩ 3 :=
  .actionGlobal 3 [⟨false, false, none⟩] [] ⟨false, true, none⟩ rfl rfl (by simp) rfl rfl rfl

example : ∃ s', run rpcSrv rpcSess [⟨.parsed rpcEnv rpcOp, .busy, .takes⟩, ⟨.frame, .got, .takes⟩, ⟨.parsed rpcEnv rpcOp, .got, .takes⟩] = some s' ∧
    s'.calls = [(7, rpcOp), (7, rpcOp)] := ⟨_, rfl, rfl⟩

/-! ## C122: unknown attributes are named -/

/-- C122. The n-th quoted part of a message is found. -/
theorem nth_quoted (msg q : Text) (n : Nat) (hn : n < 2147483647) (h : NthQuoted msg n q) : quoted msg n = some q := by
  obtain ⟨pre, post, rfl, hc, hq⟩ := h
  exact quoted_eq pre q post n (by omega) hq (Or.inl (by omega))

/-- C122: the converse is false: a message with one quoted part has a second one for the function (`unknown_attr_error` needs this for messages of libyang that
name the attribute only). -/
theorem nth_quoted_false : quoted c!"abcd\"ef\"ghij" 1 = some c!"ef" ∧ ∀ q, ¬ NthQuoted c!"abcd\"ef\"ghij" 1 q := by
  refine ⟨by decide, ?_⟩
  rintro q ⟨pre, post, h, hc, hq⟩
  have := congrArg (List.count '"') h
  simp [hc] at this

/-- C122. A request refused because of an attribute is answered with unknown-attribute, the name of the attribute and of the element, and the message of libyang; the messages are
those of libyang: without prefix (`pre "attr" post`), with unknown prefix (`pre "prefix" mid "attr" post`), or an unknown annotation (the schema path ends with `:attr`).
The element is the one of the path libyang gave, without its last part if that is an attribute. -/
theorem unknown_attr_error (find : Text → Option Node) (v11 : Bool) (e : LyErr) (n : Node) (attr : Text)
    (hn : ∃ dir last, e.path = some (dir ++ '/' :: last) ∧ '/' ∉ last ∧ find (if '@' ∈ last then dir else dir ++ '/' :: last) = some n)
    (h : (∃ pre post, e.msg = c!"Missing mandatory prefix" ++ pre ++ '"' :: attr ++ '"' :: post ∧ '"' ∉ pre ∧ '"' ∉ attr ∧ '"' ∉ post) ∨
      (∃ pre pfx mid post, e.msg = c!"Unknown XML prefix" ++ pre ++ '"' :: pfx ++ '"' :: mid ++ '"' :: attr ++ '"' :: post ∧ '"' ∉ pre ∧ '"' ∉ pfx ∧ '"' ∉ mid ∧ '"' ∉ attr) ∨
      (∃ r p, e.msg = c!"Annotation definition for attribute" ++ r ∧ e.path = some (p ++ ':' :: attr) ∧ ':' ∉ attr)) :
    ∃ x, prepareErr v11 true find (some e) = some (some x) ∧ Says (.errors [x]) .unknownAttr (if n.isRpc then .prot else .app)
      [(.badAttribute, String.ofList attr), (.badElement, String.ofList n.name)] ∧ getMsg x = some (String.ofList e.msg) := by
  have hn : findNode find e.path = some (some n) := by
    obtain ⟨dir, last, h1, h2, h3⟩ := hn
    rw [h1]
    unfold findNode
    dsimp only
    rw [afterLast_eq '/' dir last h2]
    have hlen : (dir ++ '/' :: last).length - last.length - 1 = dir.length := by simp; omega
    dsimp only
    rw [hlen, List.take_left' rfl]
    split
    · rename_i h4; rw [if_pos h4] at h3; rw [h3]
    · rename_i h4; rw [if_neg h4] at h3; rw [h3]
  have hno : ∀ (a b : Text) (r : Text), a.length ≤ b.length → (a.isPrefixOf b = false) → strstarts a (b ++ r) = false := by
    intro a b r hl hp
    cases hs : strstarts a (b ++ r) with
    | false => rfl
    | true =>
      obtain ⟨t, ht⟩ := (strstarts_iff _ _).1 hs
      have : a <+: b ++ r := ⟨t, ht.symm⟩
      have h2 : a <+: b := List.prefix_of_prefix_length_le this (List.prefix_append b r) hl
      rw [← List.isPrefixOf_iff_prefix, hp] at h2
      cases h2
  have hchoose : chooseErr (some n) e = some (mkErr .unknownAttr (if n.isRpc then .prot else .app) (some attr) (some n.name)) := by
    rcases h with ⟨pre, post, hm, h1, h2, h3⟩ | ⟨pre, pfx, mid, post, hm, h1, h2, h3, h4⟩ | ⟨r, p, hm, hp, hc⟩
    · have hs : strstarts c!"Missing mandatory prefix" e.msg = true := (strstarts_iff _ _).2 ⟨pre ++ '"' :: attr ++ '"' :: post, by rw [hm]; simp only [List.append_assoc]⟩
      have hq : quoted e.msg 1 = some attr := by
        rw [hm]
        refine quoted_eq (c!"Missing mandatory prefix" ++ pre) attr post 1 (by omega) h2 (Or.inr ⟨?_, h3⟩)
        rw [List.count_append, List.count_eq_zero.2 h1]
        decide
      simp only [chooseErr, hs, Bool.true_or, if_true, hq]
    · have hs : strstarts c!"Unknown XML prefix" e.msg = true :=
        (strstarts_iff _ _).2 ⟨pre ++ '"' :: pfx ++ '"' :: mid ++ '"' :: attr ++ '"' :: post, by rw [hm]; simp only [List.append_assoc, List.cons_append]⟩
      have hq : quoted e.msg 1 = some attr := by
        rw [hm]
        refine quoted_eq (c!"Unknown XML prefix" ++ pre ++ '"' :: pfx ++ '"' :: mid) attr post 1 (by omega) h4 (Or.inl ?_)
        simp only [List.count_append, List.count_cons_self, List.count_eq_zero.2 h1, List.count_eq_zero.2 h2, List.count_eq_zero.2 h3]
        decide
      simp only [chooseErr, hs, Bool.or_true, if_true, hq]
    · have hs : strstarts c!"Annotation definition for attribute" e.msg = true := (strstarts_iff _ _).2 ⟨r, hm⟩
      have hn1 : strstarts c!"Missing mandatory prefix" e.msg = false := by rw [hm]; exact hno _ _ _ (by decide) (by decide)
      have hn2 : strstarts c!"Unknown XML prefix" e.msg = false := by rw [hm]; exact hno _ _ _ (by decide) (by decide)
      simp only [chooseErr, hs, hn1, hn2, Bool.or_self, Bool.false_eq_true, if_false, if_true, hp, afterLast_eq ':' p attr hc]
  have hprep : prepareErr v11 true find (some e) =
      some ((mkErr .unknownAttr (if n.isRpc then .prot else .app) (some attr) (some n.name)).map (fun x => setMsg x (String.ofList e.msg) (some "en"))) := by
    simp [prepareErr, hn, hchoose]
  rw [hprep]
  cases n.isRpc with
  | true => exact ⟨_, rfl, ⟨_, rfl, by rfl, by rfl, by rfl⟩, by rfl⟩
  | false => exact ⟨_, rfl, ⟨_, rfl, by rfl, by rfl, by rfl⟩, by rfl⟩

example : (prepareErr true true (fun p => if p = c!"/ietf-netconf:get" then some ⟨c!"get", true⟩ else none)
      (some ⟨c!"Unknown XML prefix \"m\" at attribute \"a\".", some c!"/ietf-netconf:get/@x", false⟩)).map (·.map infoOf) =
    some (some [(.badAttribute, "a"), (.badElement, "get")]) := by decide +kernel

/-! ## C123: get-schema -/

/-- C123. Full statement: `get-schema` gives the text of the schema with the requested name and version. It is false for an empty version
(`schema_empty_version_false`) and if several versions match (`schema_ambiguous_false`). Proved: with a version (a date), exactly the module or submodule with that
name and revision is given in the requested format; if there is none, or the format is unknown, the answer is invalid-value. -/
theorem schema_partial (ctx : List Mod) (latest : Bool → Text → Option Mod) (ident v : Text) (format : Option Text) (hv : v.length = 10) :
    (∀ r, getSchema ctx latest ident (some v) format = some r →
      (∃ m ∈ ctx, ∃ t, m.name = ident ∧ m.rev = some v ∧ TextOf m format t ∧ r = .data [t] .explicit) ∨ (∃ b, Shows r b ∧ Says b .invalidValue .app [])) ∧
    ((∃ m ∈ ctx, m.name = ident ∧ m.rev = some v) → (∃ m t, TextOf m format t) →
      ∃ t, getSchema ctx latest ident (some v) format = some (.data [t] .explicit)) ∧
    ((∀ m ∈ ctx, m.name = ident → m.rev ≠ some v) → ∃ r b, getSchema ctx latest ident (some v) format = some r ∧ Shows r b ∧ Says b .invalidValue .app []) := by
  have hne : v ≠ [] := by rintro rfl; simp at hv
  have hbad : (decide (v.length ≠ 10 ∧ v ≠ c!"1.0")) = false := by simp [hv]
  have hget : getSchema ctx latest ident (some v) format =
      match findSchema ctx latest ident (some v) with
      | none => replyErr (schemaErr "The requested module was not found.")
      | some m =>
        match schemaFormat format with
        | none => replyErr (schemaErr "The requested format is not supported.")
        | some yin => some (.data [if yin then m.yin else m.yang] .explicit) := by
    unfold getSchema
    simp only [if_neg hne, hbad, Bool.false_eq_true, if_false]
    rfl
  have herr : ∀ t, Says (.errors ((schemaErr t).toList)) .invalidValue .app [] := fun t => ⟨_, rfl, by rfl, by rfl, by rfl⟩
  have hfind : ∀ m, findSchema ctx latest ident (some v) = some m → m ∈ ctx ∧ m.name = ident ∧ m.rev = some v := by
    intro m hm
    have aux : ∀ sub, getRev ctx sub ident v = some m → m ∈ ctx ∧ m.name = ident ∧ m.rev = some v := by
      intro sub h
      have h1 := List.mem_of_find?_eq_some h
      have h2 := List.find?_some h
      simp at h2
      exact ⟨h1, h2.1.2, h2.2⟩
    unfold findSchema at hm
    dsimp only at hm
    split at hm
    · cases hm; exact aux false (by assumption)
    · exact aux true hm
  have hnone : findSchema ctx latest ident (some v) = none → ∀ m ∈ ctx, m.name = ident → m.rev ≠ some v := by
    intro hn m hm hname hrev
    unfold findSchema at hn
    dsimp only at hn
    split at hn
    · cases hn
    · rename_i h0
      cases hsub : m.sub with
      | false =>
        have := List.find?_eq_none.1 h0 m hm
        simp [hsub, hname, hrev] at this
      | true =>
        have := List.find?_eq_none.1 hn m hm
        simp [hsub, hname, hrev] at this
  have hfmt : ∀ (m : Mod) yin, schemaFormat format = some yin → TextOf m format (if yin then m.yin else m.yang) := by
    intro m yin h
    unfold schemaFormat at h
    split at h
    · cases h; exact .default
    · split at h
      · rename_i f hf
        subst hf
        cases h; exact .yang
      · split at h
        · rename_i f _ hf
          subst hf
          cases h; exact .yin
        · cases h
  rw [hget]
  refine ⟨?_, ?_, ?_⟩
  · intro r hr
    cases hf : findSchema ctx latest ident (some v) with
    | none => rw [hf] at hr; cases hr; exact Or.inr ⟨_, .errors _, herr _⟩
    | some m =>
      rw [hf] at hr
      dsimp only at hr
      cases hfm : schemaFormat format with
      | none => rw [hfm] at hr; cases hr; exact Or.inr ⟨_, .errors _, herr _⟩
      | some yin =>
        rw [hfm] at hr
        cases hr
        obtain ⟨h1, h2, h3⟩ := hfind m hf
        exact Or.inl ⟨m, h1, _, h2, h3, hfmt m yin hfm, rfl⟩
  · rintro ⟨m, hm, hn, hr⟩ ⟨m', t, ht⟩
    cases hf : findSchema ctx latest ident (some v) with
    | none => exact absurd hr (hnone hf m hm hn)
    | some m2 =>
      cases ht with
      | default => exact ⟨_, rfl⟩
      | yang => exact ⟨_, rfl⟩
      | yin => exact ⟨_, rfl⟩
  · intro hall
    cases hf : findSchema ctx latest ident (some v) with
    | none => exact ⟨_, _, rfl, .errors _, herr _⟩
    | some m =>
      obtain ⟨h1, h2, h3⟩ := hfind m hf
      exact absurd h3 (hall m h1 h2)

/-- C123. Without a version, a module or submodule of that name is given if there is one, the implemented one of several. -/
theorem schema_any_version (ctx : List Mod) (latest : Bool → Text → Option Mod) (hl : Latest ctx latest) (ident : Text) (format : Option Text) :
    ((∃ m ∈ ctx, m.name = ident) → (∃ m t, TextOf m format t) →
      ∃ m ∈ ctx, ∃ t, m.name = ident ∧ TextOf m format t ∧ getSchema ctx latest ident none format = some (.data [t] .explicit) ∧
        ((∃ i ∈ ctx, i.name = ident ∧ i.sub = false ∧ i.implemented = true) → m.implemented = true)) ∧
    ((∀ m ∈ ctx, m.name ≠ ident) → ∃ r b, getSchema ctx latest ident none format = some r ∧ Shows r b ∧ Says b .invalidValue .app []) := by
  have hget : getSchema ctx latest ident none format =
      match findSchema ctx latest ident none with
      | none => replyErr (schemaErr "The requested module was not found.")
      | some m =>
        match schemaFormat format with
        | none => replyErr (schemaErr "The requested format is not supported.")
        | some yin => some (.data [if yin then m.yin else m.yang] .explicit) := rfl
  have himpl : ∀ m, getImpl ctx ident = some m → m ∈ ctx ∧ m.name = ident ∧ m.implemented = true := by
    intro m h
    have h1 := List.mem_of_find?_eq_some h
    have h2 := List.find?_some h
    simp at h2
    exact ⟨h1, h2.1.2, h2.2⟩
  have himpl0 : getImpl ctx ident = none → ∀ i ∈ ctx, i.name = ident → i.sub = false → i.implemented = false := by
    intro h i hi hn hs
    have := List.find?_eq_none.1 h i hi
    simpa [hn, hs] using this
  rw [hget]
  constructor
  · rintro ⟨m, hm, hn⟩ ⟨m', t, ht⟩
    have key : ∃ m2, findSchema ctx latest ident none = some m2 ∧ m2 ∈ ctx ∧ m2.name = ident ∧
        ((∃ i ∈ ctx, i.name = ident ∧ i.sub = false ∧ i.implemented = true) → m2.implemented = true) := by
      unfold findSchema
      dsimp only
      cases hg : getImpl ctx ident with
      | some m2 =>
        obtain ⟨h1, h2, h3⟩ := himpl m2 hg
        exact ⟨m2, rfl, h1, h2, fun _ => h3⟩
      | none =>
        have hno : ¬ ∃ i ∈ ctx, i.name = ident ∧ i.sub = false ∧ i.implemented = true := by
          rintro ⟨i, hi, h1, h2, h3⟩
          rw [himpl0 hg i hi h1 h2] at h3
          cases h3
        dsimp only
        cases h1 : latest false ident with
        | some m2 =>
          obtain ⟨ha, hb, hc⟩ := (hl false ident).1 m2 h1
          exact ⟨m2, rfl, ha, hc, fun h => absurd h hno⟩
        | none =>
          dsimp only
          cases h2 : latest true ident with
          | some m2 =>
            obtain ⟨ha, hb, hc⟩ := (hl true ident).1 m2 h2
            exact ⟨m2, rfl, ha, hc, fun h => absurd h hno⟩
          | none =>
            exfalso
            cases hs : m.sub with
            | false => exact (hl false ident).2 h1 m hm hs hn
            | true => exact (hl true ident).2 h2 m hm hs hn
    obtain ⟨m2, hf, h1, h2, h3⟩ := key
    rw [hf]
    cases ht with
    | default => exact ⟨m2, h1, _, h2, .default, rfl, h3⟩
    | yang => exact ⟨m2, h1, _, h2, .yang, rfl, h3⟩
    | yin => exact ⟨m2, h1, _, h2, .yin, rfl, h3⟩
  · intro hall
    have : findSchema ctx latest ident none = none := by
      unfold findSchema
      dsimp only
      cases hg : getImpl ctx ident with
      | some m2 => exact absurd (himpl m2 hg).2.1 (hall m2 (himpl m2 hg).1)
      | none =>
        dsimp only
        cases h1 : latest false ident with
        | some m2 => exact absurd ((hl false ident).1 m2 h1).2.2 (hall m2 ((hl false ident).1 m2 h1).1)
        | none =>
          dsimp only
          cases h2 : latest true ident with
          | some m2 => exact absurd ((hl true ident).1 m2 h2).2.2 (hall m2 ((hl true ident).1 m2 h2).1)
          | none => rfl
    rw [this]
    exact ⟨_, _, rfl, .errors _, _, rfl, by rfl, by rfl, by rfl⟩

/-- Two modules of the same name, the one without revision is only imported. -/
def schemaCtx : List Mod := [⟨c!"m", some c!"2020-01-01", true, false, c!"new", c!"<new/>"⟩, ⟨c!"m", none, false, false, c!"old", c!"<old/>"⟩]
/-- The latest module of that context. -/
def schemaLatest : Bool → Text → Option Mod := fun sub name => if sub = false ∧ name = c!"m" then schemaCtx.head? else none

/-- C123 is false for the empty version, which names the module without revision (RFC 6022, 3.1 and 2.1.3: the version of such a schema is the zero-length string):
a module with a revision is given. -/
theorem schema_empty_version_false : getSchema schemaCtx schemaLatest c!"m" (some []) none = some (.data [c!"new"] .explicit) ∧
    ∃ m ∈ schemaCtx, m.name = c!"m" ∧ m.rev = none ∧ m.yang = c!"old" := ⟨by decide, ⟨c!"m", none, false, false, c!"old", c!"<old/>"⟩, by decide, rfl, rfl, rfl⟩

/-- C123 is false without version and with several matching schemas, where RFC 6022 (3.1) asks for an error (operation-failed, data-not-unique). -/
theorem schema_ambiguous_false : getSchema schemaCtx schemaLatest c!"m" none (some c!"ietf-netconf-monitoring:yin") = some (.data [c!"<new/>"] .explicit) ∧
    (schemaCtx.filter (fun m => m.name == c!"m")).length = 2 := ⟨by decide, by decide⟩

example : getSchema schemaCtx schemaLatest c!"m" (some c!"2020-01-01") none = some (.data [c!"new"] .explicit) := by decide
example : Latest schemaCtx schemaLatest := by
  intro sub name
  unfold schemaLatest
  constructor
  · intro m h
    split at h
    · rename_i hc
      cases h
      obtain ⟨rfl, rfl⟩ := hc
      decide
    · cases h
  · intro h m hm hs hn
    subst hs hn
    split at h
    · cases h
    · rename_i hc
      simp [schemaCtx] at hm
      rcases hm with rfl | rfl <;> simp at hc

/-! ## C124: reply objects -/

/-- C124. All errors of a reply are sent in the order they were added, the last one is the one reported by `nc_server_reply_get_last_err`, and every error is freed exactly
once with the reply, sent or not; other trees are not touched. -/
theorem error_reply_objects (m : Mem) (e : Nat) (es : List Nat) (hd : (e :: es).Nodup) (hm : ∀ n ∈ e :: es, (m.get n).isSome) :
    lastErr (addErrs (replyErrObj e) es) = some ((e :: es).getLast (by simp)) ∧
    (∃ cs r m1, printReply m (addErrs (replyErrObj e) es) = some (cs, r, m1) ∧ cs.map some = (e :: es).map m.get ∧
      replyFree m1 r = some { m with trees := m.trees.filter (fun t => !(e :: es).contains t.1) }) ∧
    replyFree m (addErrs (replyErrObj e) es) = some { m with trees := m.trees.filter (fun t => !(e :: es).contains t.1) } := by
  have hobj : addErrs (replyErrObj e) es = .errors (e :: es) := by
    unfold replyErrObj; rw [addErrs_eq]; rfl
  rw [hobj]
  obtain ⟨hn, hl⟩ := List.nodup_cons.1 hd
  refine ⟨List.getLast?_eq_some_getLast (l := e :: es) (by simp), ?_, ?_⟩
  · have hmap : ∀ l : List Nat, (∀ n ∈ l, (m.get n).isSome) → ∃ cs, l.mapM m.get = some cs ∧ cs.map some = l.map m.get := by
      intro l
      induction l with
      | nil => exact fun _ => ⟨[], rfl, rfl⟩
      | cons a l ih =>
        intro h
        obtain ⟨c, hc⟩ := Option.isSome_iff_exists.1 (h a (by simp))
        obtain ⟨cs, h1, h2⟩ := ih (fun n hn => h n (by simp [hn]))
        refine ⟨c :: cs, ?_, ?_⟩
        · rw [List.mapM_cons, hc, h1]; rfl
        · simp [hc, h2]
    obtain ⟨cs, h1, h2⟩ := hmap (e :: es) hm
    refine ⟨cs, .errors [e], { m with trees := m.trees.filter (fun t => !es.contains t.1) }, ?_, h2, ?_⟩
    · unfold printReply
      dsimp only
      rw [h1]
      dsimp only
      rw [freeAll_eq m es hl (fun n hn => hm n (by simp [hn]))]
    · unfold replyFree
      dsimp only
      rw [freeAll_eq]
      · simp only [List.filter_filter, Option.some.injEq, Mem.mk.injEq, and_true]
        congr 1
        funext t
        by_cases h : t.1 = e <;> simp [h]
      · simp
      · intro k hk
        simp at hk
        subst hk
        have := hm k (by simp)
        unfold Mem.get at this ⊢
        simp only [Option.isSome_map, List.find?_isSome] at this ⊢
        obtain ⟨t, ht, he⟩ := this
        refine ⟨t, ?_, he⟩
        simp at he
        simp only [List.mem_filter, ht, true_and]
        simp [he, hn]
  · exact freeAll_eq m (e :: es) hd hm

/-- C124. Sending a data reply prints the data and leaves them as they were; freeing the reply frees the copy (`DUP_AND_FREE`) or the data (`FREE`), and never the data of the caller
with `CONST` or `DUP_AND_FREE`. -/
theorem data_reply_objects (m : Mem) (t : Nat) (cs : List Text) (wd : Wd) (p : Param) (hg : m.get t = some cs) (hnew : ∀ x ∈ m.trees, x.1 < m.next) :
    ∃ r m1, replyData m t true wd p = some (some r, m1) ∧ printReply m1 r = some ([cs], r, m1) ∧
      ∃ m2, replyFree m1 r = some m2 ∧ (p = .free → m2.get t = none ∧ m2.trees = m.trees.filter (·.1 != t)) ∧ (p ≠ .free → m2.get t = some cs ∧ m2.trees = m.trees) := by
  have hfree : (m.trees.filter (·.1 != t)).find? (·.1 == t) = none := by
    rw [List.find?_eq_none]
    intro x hx
    have := (List.mem_filter.1 hx).2
    simpa using this
  cases p with
  | const =>
    refine ⟨.data t wd false, m, by simp [replyData, hg], by simp [printReply, hg], m, rfl, by simp, fun _ => ⟨hg, rfl⟩⟩
  | free =>
    refine ⟨.data t wd true, m, by simp [replyData, hg], by simp [printReply, hg], { m with trees := m.trees.filter (·.1 != t) }, by simp [replyFree, Mem.free, hg], ?_, by simp⟩
    intro _
    refine ⟨?_, rfl⟩
    unfold Mem.get
    rw [hfree]; rfl
  | dup =>
    have hnone : m.trees.find? (·.1 == m.next) = none := by
      rw [List.find?_eq_none]
      intro x hx
      have := hnew x hx
      simp; omega
    have hget : Mem.get { trees := m.trees ++ [(m.next, cs)], next := m.next + 1 } m.next = some cs := by
      simp [Mem.get, List.find?_append, hnone]
    have hkeep : (m.trees ++ [(m.next, cs)]).filter (·.1 != m.next) = m.trees := by
      rw [List.filter_append, List.filter_eq_self.2]
      · simp
      · intro x hx
        have := hnew x hx
        simp; omega
    refine ⟨.data m.next wd true, { trees := m.trees ++ [(m.next, cs)], next := m.next + 1 }, by simp [replyData, hg], by simp [printReply, hget],
      { trees := (m.trees ++ [(m.next, cs)]).filter (·.1 != m.next), next := m.next + 1 }, by simp [replyFree, Mem.free, hget], by simp, fun _ => ?_⟩
    rw [hkeep]
    exact ⟨hg, rfl⟩

example : (printReply ⟨[(1, [c!"a"]), (2, [c!"b"]), (3, [c!"c"])], 4⟩ (addErrs (replyErrObj 1) [3])).map (fun r => (r.1, replyFree r.2.2 r.2.1)) =
    some ([[c!"a"], [c!"c"]], some ⟨[(2, [c!"b"])], 4⟩) := by decide
example : (replyData ⟨[(1, [c!"a"])], 2⟩ 1 true .trim .dup).map (fun r => r.1) = some (some (.data 2 .trim true)) := by decide

end Verif.Props
