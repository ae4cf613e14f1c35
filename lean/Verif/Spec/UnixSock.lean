import Verif.Model.UnixSock

/-! # What UNIX sockets are expected to do -/

namespace Verif.UnixSock

/-- Clients that connect to the path reach the socket. -/
def listensAt (w : World) (p : Path) (f : Nat) : Prop := f ∈ w.fds ∧ f ∈ w.lis ∧ ∃ n, w.fs p = some n ∧ n.sock = some f

/-- The file has the mode and owners asked for, the others are those of a new file. -/
def asked (e : Env) (o : Opts) (n : Node) : Prop := n.mode = o.mode.getD e.mode ∧ n.uid = o.uid.getD e.uid ∧ n.gid = o.gid.getD e.gid

/-- The operating system grants all calls. -/
def Granting (e : Env) : Prop :=
  e.socketOk = true ∧ e.unlinkOk = true ∧ e.bindOk = true ∧ e.chmodOk = true ∧ e.chownOk = true ∧ e.listenOk = true

/-- Numbers of sockets that are open or were bound to a file were given away already. -/
def Sane (w : World) : Prop :=
  (∀ f ∈ w.fds, f < w.next) ∧ (∀ f ∈ w.lis, f < w.next) ∧ (∀ p n f, w.fs p = some n → n.sock = some f → f < w.next)

/-- A call that uses no path of another endpoint, and no path that does not fit. -/
def Careful (s : Srv) : Call → Prop
  | .add _ _ o => o.address.length ≤ 106 ∧ ∀ x ∈ s.endpts, x.path ≠ o.address
  | .del _ _ => True

/-- A sequence of such calls. -/
def CarefulRun : Srv → List Call → Prop
  | _, [] => True
  | s, c :: cs => Careful s c ∧ CarefulRun (c.run s) cs

/-- The server after a sequence of calls. -/
def after (s : Srv) (cs : List Call) : Srv := cs.foldl Call.run s

end Verif.UnixSock
