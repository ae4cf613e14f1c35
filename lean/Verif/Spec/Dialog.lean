import Verif.Model.Dialog
import Verif.Spec.ServerRpc
import Verif.Spec.Framing
import Verif.Spec.Poll
import Verif.Lemmas.Writer

/-!
# What applications at both ends of a session expect

Written after RFC 6241 (sections 2, 3 and 4) and RFC 5277 (section 4).
-/

namespace Verif.Dialog
open Verif.Reader Verif.Writer
open Verif.ServerRpc (Srv Sent Body Text Serves Shows Says IsOp)

/-- The namespace of NETCONF (RFC 6241, 3.1). -/
def nsBase : Text := c!"urn:ietf:params:xml:ns:netconf:base:1.0"

/-- The text of an id. -/
def digits (id : Nat) : Text := chars (dec id)

/-- The document of an RPC (RFC 6241, 4.1). -/
def rpcText (x : Xml) (id : Nat) (op : ServerRpc.Op) : List Byte :=
  bytes (c!"<rpc xmlns=\"urn:ietf:params:xml:ns:netconf:base:1.0\" message-id=\"" ++ digits id ++ c!"\">") ++ text (x.opWrites op) ++ bytes c!"</rpc>"

/-- The document of a notification (RFC 5277, 4). -/
def ntfText (x : Xml) (n : Notif) : List Byte :=
  bytes (c!"<notification xmlns=\"urn:ietf:params:xml:ns:netconf:notification:1.0\"><eventTime>" ++ n.time ++ c!"</eventTime>") ++
    text (x.ntfWrites n.ntf) ++ bytes c!"</notification>"

/-- The reply to the RPC with this id (RFC 6241, 4.2). -/
def replyTo (id : Nat) (b : Body) : Sent := ⟨none, nsBase, [⟨c!"message-id", digits id⟩], b⟩

/-- The content answers the operation: what its callback gave, operation-failed without such, operation-not-supported without a callback
(RFC 6241, 4.2-4.4, appendix A). -/
def Answers (srv : Srv) (op : ServerRpc.Op) (b : Body) : Prop :=
  (∃ c, Serves srv op c ∧ ((∃ r, (srv.run c op .running Spec.whyNone).reply = some r ∧ Shows r b) ∨
    ((srv.run c op .running Spec.whyNone).reply = none ∧ Says b .opFailed .app []))) ∨
  ((∀ c, ¬ Serves srv op c) ∧ Says b .opNotSupported .prot [])

/-- The calls made for operations: one for each that has a callback. -/
inductive CallsOf (srv : Srv) : List ServerRpc.Op → List (Nat × ServerRpc.Op) → Prop
  | nil : CallsOf srv [] []
  | call (op : ServerRpc.Op) (ops : List ServerRpc.Op) (l : List (Nat × ServerRpc.Op)) (c : Nat) (h : CallsOf srv ops l) (hs : Serves srv op c) :
      CallsOf srv (ops ++ [op]) (l ++ [(c, op)])
  | skip (op : ServerRpc.Op) (ops : List ServerRpc.Op) (l : List (Nat × ServerRpc.Op)) (h : CallsOf srv ops l) (hs : ∀ c, ¬ Serves srv op c) :
      CallsOf srv (ops ++ [op]) l

/-- Texts that can be framed (C01, C02): XML documents are not empty and without NUL; NETCONF 1.0 has its marker, and `framing10_first_eom_false`. -/
def Sendable : Version → List Byte → Prop
  | .v11, t => t ≠ [] ∧ 0 ∉ t
  | .v10, t => 0 ∉ t ∧ t.length + 6 < 2147483648 ∧ ¬ Spec.eom <:+: t ∧ ¬ [93] <:+ t ∧ ¬ [93, 93, 62] <:+ t

/-- The writes of a message are small enough (C01), its text can be framed and consists of bytes. -/
def Fits (v : Version) (ops : List Op) : Prop :=
  (∀ o ∈ ops, o.bs.length < 2 ^ 32 - 1024) ∧ Sendable v (text ops) ∧ ∀ b ∈ text ops, b < 256

/-- libyang reads what was written: RPCs with operations among `ops`, and replies to them. Replies are printed without a declaration and
comments, with the prefix of the request (none). -/
structure Faithful (v : Version) (x : Xml) (srv : Srv) (ops : List ServerRpc.Op) (ntfs : List Notif) : Prop where
  isOp : ∀ op ∈ ops, IsOp op
  rpcFits : ∀ op ∈ ops, ∀ id < 2 ^ 64, Fits v (rpcWrites x id op)
  rpcRead : ∀ op ∈ ops, ∀ id < 2 ^ 64, x.parseRpc (rpcText x id op) = .parsed ⟨none, nsBase, [⟨c!"message-id", digits id⟩]⟩ op
  replyFits : ∀ op ∈ ops, ∀ id < 2 ^ 64, ∀ b, Answers srv op b → Fits v (x.replyWrites (replyTo id b)) ∧
    bytes c!"<rpc-reply" <+: text (x.replyWrites (replyTo id b))
  replyRead : ∀ op ∈ ops, ∀ id < 2 ^ 64, ∀ b, Answers srv op b →
    x.parseReply (text (x.replyWrites (replyTo id b))) = (⟨true, some [(c!"message-id", digits id)]⟩, some b)
  ntfFits : ∀ n ∈ ntfs, Fits v (notifWrites x n)

/-- Operations and notifications sent by acts, and conditions on the transport: it takes everything written (in pieces, after any delay). -/
def Uses (ops : List ServerRpc.Op) (ntfs : List Notif) : Act → Prop
  | .rpc op w => op ∈ ops ∧ NoFail w
  | .poll _ w => NoFail w
  | .notify n w => n ∈ ntfs ∧ NoFail w
  | .recvReply _ _ _ => True
  | .recvNotif _ _ => True

/-- Reading everything that is on the way, one byte after the other. -/
def byteWise (wire : List Byte) : Reading := ⟨List.replicate wire.length (.data 0), fun _ => true, wire.length + 1⟩

/-- The operation an act sends. -/
def opOf : Act → Option ServerRpc.Op
  | .rpc op _ => some op
  | _ => none

/-- The notification an act sends. -/
def ntfOf : Act → Option Notif
  | .notify n _ => some n
  | _ => none

end Verif.Dialog
