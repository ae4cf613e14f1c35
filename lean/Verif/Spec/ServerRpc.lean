import Verif.Model.ServerRpc

/-!
# What users of a NETCONF server expect of replies

Written after RFC 6241 (sections 3, 4.2 and 4.3, appendix A), RFC 6242 (section 4.2) and RFC 6022 (section 3.1).
-/

namespace Verif.ServerRpc
open NcErr

/-- The attributes of the reply a message has to be answered with (RFC 6241, 4.2: all attributes of the request), if it needs one. Without
a readable envelope there are no attributes; old clients get no reply then (RFC 6241, 3). For /repo/src/session_server.c:1590-1661. -/
def wanted (v11 : Bool) : Read → Option (List Attr)
  | .failed _ _ => none
  | .busy => none
  | .frame => some []
  | .parsed e _ => some e.attrs
  | .rejected (some e) _ => some e.attrs
  | .rejected none _ => if v11 then some [] else none

/-- libyang gives an RPC or a tree with an action (for /repo/src/session_server.c:1719-1737). -/
def IsOp (op : Op) : Prop := op.root.isRpc = true ∨ ∃ n ∈ op.root :: op.rest, n.isAction = true

/-- Every operation that was parsed is one (for /repo/src/session_server.c:1621). -/
def Parses (evs : List Ev) : Prop := ∀ ev ∈ evs, ∀ e op, ev.read = .parsed e op → IsOp op

/-- The lock is free and there is no write error when a reply is sent, but the client may be gone (for /repo/src/io.c:845-1082). -/
def Ready (ev : Ev) : Prop := ev.lock = .got ∧ (ev.peer = .takes ∨ ev.peer = .dropped)

/-- The information elements of an error (for /repo/src/messages_server.c:420-465). -/
def infoOf (e : Err) : List (InfoKind × String) :=
  match find e .info with
  | none => []
  | some c => c.sub

/-- The error of a reply says this (RFC 6241, appendix A; for /repo/src/session_server.c:1503-1584). -/
def Says (b : Body) (tag : Tag) (ty : Ty) (info : List (InfoKind × String)) : Prop :=
  ∃ e, b = .errors [e] ∧ getTag e = tag ∧ getType e = ty ∧ infoOf e = info

/-- The request has a message-id (RFC 6241, 4.1; for /repo/src/session_server.c:1381-1402). -/
def HasId (e : Envp) : Prop := ∃ a ∈ e.attrs, a.name = c!"message-id"

/-- The callback an operation has to reach: the one of the RPC or of the (first) action, otherwise the global one
(/repo/doc, `nc_set_rpc_callback`, `nc_set_global_rpc_clb`; for /repo/src/session_server.c:1719-1747). -/
inductive Serves (srv : Srv) (op : Op) : Nat → Prop
  | rpc (c : Nat) (h : op.root.isRpc = true) (hc : op.root.priv = some c) : Serves srv op c
  | rpcGlobal (c : Nat) (h : op.root.isRpc = true) (hp : op.root.priv = none) (hc : srv.glob = some c) : Serves srv op c
  | action (c : Nat) (pre post : List SNode) (n : SNode) (h : op.root.isRpc = false) (hs : op.root :: op.rest = pre ++ n :: post)
      (hf : ∀ x ∈ pre, x.isAction = false) (hn : n.isAction = true) (hc : n.priv = some c) : Serves srv op c
  | actionGlobal (c : Nat) (pre post : List SNode) (n : SNode) (h : op.root.isRpc = false) (hs : op.root :: op.rest = pre ++ n :: post)
      (hf : ∀ x ∈ pre, x.isAction = false) (hn : n.isAction = true) (hp : n.priv = none) (hc : srv.glob = some c) : Serves srv op c

/-- The callbacks called for messages: one for each valid request that has one, in order, and no others (for /repo/src/session_server.c:2119-2149). -/
inductive Called (srv : Srv) : List Ev → List (Nat × Op) → Prop
  | nil : Called srv [] []
  | call (ev : Ev) (evs : List Ev) (l : List (Nat × Op)) (e : Envp) (op : Op) (c : Nat) (hr : ev.read = .parsed e op) (hi : HasId e)
      (hs : Serves srv op c) (h : Called srv evs l) : Called srv (ev :: evs) ((c, op) :: l)
  | skip (ev : Ev) (evs : List Ev) (l : List (Nat × Op)) (hn : ∀ e op, ev.read = .parsed e op → HasId e → ∀ c, ¬ Serves srv op c)
      (h : Called srv evs l) : Called srv (ev :: evs) l

/-- The content of a reply is what the callback gave (for /repo/src/io.c:931-972); RFC 6243 names the modes. -/
inductive Shows : Reply → Body → Prop
  | ok : Shows .ok .ok
  | all (cs : List Text) : Shows (.data cs .all) (.data cs .all)
  | allTag (cs : List Text) : Shows (.data cs .allTag) (.data cs .allTag)
  | trim (cs : List Text) : Shows (.data cs .trim) (.data cs .trim)
  | explicit (cs : List Text) : Shows (.data cs .explicit) (.data cs .explicit)
  | unknown (cs : List Text) : Shows (.data cs .unknown) (.data cs .explicit)
  | errors (l : List Err) : Shows (.errors l) (.errors l)

/-- `q` is the quoted part number `n` of the text, counted from 0: there are `2 n` quotes before the one it starts with
(comment of /repo/src/session_server.c:1434-1445). -/
def NthQuoted (msg : Text) (n : Nat) (q : Text) : Prop :=
  ∃ pre post, msg = pre ++ '"' :: q ++ '"' :: post ∧ pre.count '"' = 2 * n ∧ '"' ∉ q

/-- libyang left what the server looks at: an error item, schema paths with a slash, and paths with a colon for unknown annotations
(for /repo/src/session_server.c:1516, 1423, 1560). -/
def Logs : Read → Prop
  | .rejected _ e => ∃ x, e = some x ∧ (∀ p, x.path = some p → '/' ∈ p) ∧
      ((∃ r, x.msg = c!"Annotation definition for attribute" ++ r) → ∃ p, x.path = some p ∧ ':' ∈ p)
  | _ => True

/-- `latest` finds a module if there is one (libyang; for /repo/src/session_server.c:702-706). -/
def Latest (ctx : List Mod) (latest : Bool → Text → Option Mod) : Prop :=
  ∀ sub name, (∀ m, latest sub name = some m → m ∈ ctx ∧ m.sub = sub ∧ m.name = name) ∧
    (latest sub name = none → ∀ m ∈ ctx, m.sub = sub → m.name ≠ name)

/-- The text of a module in the requested format (RFC 6022, 3.1; for /repo/src/session_server.c:714-733). -/
inductive TextOf (m : Mod) : Option Text → Text → Prop
  | default : TextOf m none m.yang
  | yang : TextOf m (some c!"ietf-netconf-monitoring:yang") m.yang
  | yin : TextOf m (some c!"ietf-netconf-monitoring:yin") m.yin

/-- `nc_server_reply_add_err` for one error after the other. -/
def addErrs (r : RObj) : List Nat → RObj
  | [] => r
  | t :: l => addErrs (addErr r t).2 l

end Verif.ServerRpc
