import Verif.Model.ManyThreads
import Verif.Model.Writer
import Verif.Spec.ServerRpc
import Verif.Spec.Poll

/-!
# What users of a server expect when many threads work on one session

Written after RFC 6241 (sections 4.1, 4.2 and 4.5), RFC 6242 (section 4) and the documentation of `nc_ps_poll` and `nc_server_notif_send`.
-/

namespace Verif.ManyThreads
open NcErr ServerRpc

/-- The right reply to a message: with the attributes of the request and the content its own callback gave, or an error if there is no reply of
a callback (RFC 6241, 4.2 and 4.3; for /repo/src/session_server.c:1590-1770). -/
inductive Right (srv : Srv) (v11 : Bool) : Read → Sent → Prop
  | served (e : Envp) (op : ServerRpc.Op) (c : Nat) (st : Poll.Status) (re : Nat) (r : Reply) (x : Sent) (hi : HasId e) (hs : Serves srv op c)
      (hr : (srv.run c op st re).reply = some r) (ha : x.attrs = e.attrs) (hb : Shows r x.body) : Right srv v11 (.parsed e op) x
  | failed (e : Envp) (op : ServerRpc.Op) (c : Nat) (st : Poll.Status) (re : Nat) (x : Sent) (err : Err) (hi : HasId e) (hs : Serves srv op c)
      (hr : (srv.run c op st re).reply = none) (ha : x.attrs = e.attrs) (hb : x.body = .errors [err]) : Right srv v11 (.parsed e op) x
  | refused (r : Read) (x : Sent) (err : Err) (hn : ∀ e op, r = .parsed e op → HasId e → ∀ c, ¬ Serves srv op c)
      (ha : wanted v11 r = some x.attrs) (hb : x.body = .errors [err]) : Right srv v11 r x

/-- The replies to messages, in order; without `all` messages may be left without reply. -/
inductive Replies (srv : Srv) (v11 all : Bool) : List Read → List Sent → Prop
  | nil : Replies srv v11 all [] []
  | answer (l : List Read) (xs : List Sent) (r : Read) (x : Sent) (h : Replies srv v11 all l xs) (hx : Right srv v11 r x) :
      Replies srv v11 all (l ++ [r]) (xs ++ [x])
  | none (l : List Read) (xs : List Sent) (r : Read) (h : Replies srv v11 all l xs) (hn : all = true → wanted v11 r = none) :
      Replies srv v11 all (l ++ [r]) xs

/-- The calls of callbacks for messages, in order: one for every valid request that has a callback. -/
inductive CallsFor (srv : Srv) : List Read → List (Nat × ServerRpc.Op) → Prop
  | nil : CallsFor srv [] []
  | call (l : List Read) (cs : List (Nat × ServerRpc.Op)) (e : Envp) (op : ServerRpc.Op) (c : Nat) (h : CallsFor srv l cs) (hi : HasId e) (hs : Serves srv op c) :
      CallsFor srv (l ++ [.parsed e op]) (cs ++ [(c, op)])
  | skip (l : List Read) (cs : List (Nat × ServerRpc.Op)) (r : Read) (h : CallsFor srv l cs)
      (hn : ∀ e op, r = .parsed e op → HasId e → ∀ c, ¬ Serves srv op c) : CallsFor srv (l ++ [r]) cs

/-- Every operation that was parsed is one (for /repo/src/session_server.c:1622). -/
def AllOps (inp : List Read) : Prop := ∀ e op, Read.parsed e op ∈ inp → IsOp op

/-- A session that can be used (`nc_session_get_status`). -/
def Alive (st : Poll.Status) : Prop := st = .running ∨ st = .starting

/-- Nobody makes a session usable again that is not: neither the application nor a callback. -/
def NoRevival (srv : Srv) (acts : List (Nat × Act)) : Prop :=
  (∀ t st, (t, Act.setStatus st) ∈ acts → ¬ Alive st) ∧
  ∀ c op st re, Alive (srv.run c op st re).status → Alive st

/-- Every write error ends the session (it does if the connection is found closed; for /repo/src/io.c:587-591, 616-625). -/
def NoticedErrors (acts : List (Nat × Act)) : Prop := ∀ t i, (t, Act.fail false i) ∉ acts

/-- The lock for writing is always available in time (for /repo/src/io.c:871-877). -/
def InTime (acts : List (Nat × Act)) : Prop := ∀ t, (t, Act.lateWrite) ∉ acts

/-- The thread is busy with a message of the client: it reads it, looks at it, runs its callback, or sends a reply. -/
def Working : Pc → Prop
  | .reading => True
  | .parse _ => True
  | .call _ _ => True
  | .inCb _ _ _ => True
  | .write _ m => ∃ x, m = .reply x
  | .writeLock _ m => ∃ x, m = .reply x
  | .writing _ m _ _ _ => ∃ x, m = .reply x
  | _ => False

/-- Nothing goes wrong: locks are available in time, data arrive and are accepted, and nobody else touches the session; writing to a session that
has ended is refused (for /repo/src/session_server.c:1957-2011). -/
def Smooth : Act → Prop
  | .poll | .go | .lock | .data | .nodata | .accept _ | .refuse false => True
  | _ => False

/-- As `Smooth`, with notifications and locks for polling and reading that are not available in time. -/
def Harmless (a : Act) : Prop := Smooth a ∨ a = .late ∨ ∃ n, a = .notify n

/-- The callbacks do not end the session (`nc_session_set_status`, `nc_session_set_term_reason`). -/
def KeepRunning (srv : Srv) : Prop := ∀ c op, (srv.run c op .running Spec.whyNone).status = .running ∧ (srv.run c op .running Spec.whyNone).reason = Spec.whyNone

/-- The replies among messages. -/
def repliesIn (l : List Msg) : List Sent := l.filterMap fun m => match m with | .reply x => some x | .notif _ => none

/-- `nc_write` is called with the bytes of the message (`text`) as printed, framed. -/
def Prints (cf : Conf) (v : Writer.Version) (ops : Msg → List Writer.Op) : Prop :=
  ∀ m, (cf.pieces m).flatten = (Writer.sendMsg v (Writer.goodSink []) (ops m)).2.wire

end Verif.ManyThreads
