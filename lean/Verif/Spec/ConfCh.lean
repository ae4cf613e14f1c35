import Verif.Spec.ConfEndpt
import Verif.Model.ConfCh

/-!
# Which Call Home clients the server should connect to

As for the endpoints to listen on (`Spec.ConfEndpt`): configurations, diffs, the configuration they lead to, the diffs as data. The endpoints of
a client are ordered by the user.
-/

namespace Verif.ConfCh
open Verif.ConfTree (Op Meta)
open Verif.ConfStore
open Verif.ConfEndpt (Ti Opts Ka KaConf KaEdit KaAs kaData)

/-- An endpoint of a client: transport, address (mandatory) and port of the client, local address and port, keepalives
(modules/ietf-tcp-client@2023-12-28.yang:134-175, 317). -/
structure EpConf where
  ti : Ti
  dstAddr : Nat
  dstPort : Option Nat
  srcAddr : Option Nat
  srcPort : Option Nat
  ka : KaConf
  deriving DecidableEq

/-- Default port (modules/ietf-netconf-server@2023-12-28.yang:336-337, 392-393). -/
def chPort : Ti → Nat
  | .ssh => 4334
  | .tls => 4335

/-- Change of an endpoint: parameters, or another transport; `first` tells if the old transport is deleted before the new one is created. -/
inductive EpChange where
  | params (t : Ti) (dstAddr : Option Nat) (dstPort srcAddr srcPort : LeafEdit) (ka : KaEdit)
  | switch (t : Ti) (rest : List Tree) (c : EpConf) (first : Bool)

/-- Apply it. -/
def EpConf.change (c : EpConf) : EpChange → Option EpConf
  | .params t a p x y k =>
    match p.apply c.dstPort, x.apply c.srcAddr, y.apply c.srcPort, c.ka.change k with
    | some p', some x', some y', some k' => if t = c.ti then some ⟨t, a.getD c.dstAddr, p', x', y', k'⟩ else none
    | _, _, _, _ => none
  | .switch t _ c' _ => if t = c.ti && c'.ti != t then some c' else none

/-- Which edits are considered: all of them; those that are followed as to where connections are made; of these, those that do not remove
keepalives. -/
inductive Scope where
  | all
  | contact
  | keepalives
  deriving DecidableEq

/-- A leaf is removed. -/
def removes : LeafEdit → Bool
  | .delete _ => true
  | _ => false

/-- The keepalives are removed. -/
def removesKa : KaEdit → Bool
  | .delete _ => true
  | _ => false

/-- Changes that are not followed. -/
def EpChange.lost (w : Scope) (c : EpConf) : EpChange → Bool
  | .params _ _ p _ _ k => (w != .all && removes p) || (w == .keepalives && removesKa k)
  | .switch _ _ c' first => w != .all && (!first || (c.srcAddr.isSome && c'.srcAddr.isNone))

/-- Endpoints with their names, in order. -/
abbrev Eps := List (Nat × EpConf)

/-- Put an element at a position. -/
def insertAt {α : Type} (l : List α) (i : Nat) (x : α) : List α := l.take i ++ x :: l.drop i

/-- Edit of the endpoints of a client. -/
inductive EpEdit where
  | create (k i : Nat) (c : EpConf)
  | delete (k : Nat) (rest : List Tree)
  | move (k i : Nat)
  | change (k : Nat) (d : EpChange)

/-- The endpoint with this name. -/
def epOf (l : Eps) (k : Nat) : Option EpConf := (l.find? (fun x => x.1 == k)).map Prod.snd

/-- The others. -/
def others (l : Eps) (k : Nat) : Eps := l.filter (fun x => !(x.1 == k))

/-- Apply it. -/
def EpEdit.apply (l : Eps) : EpEdit → Option Eps
  | .create k i c => match epOf l k with
    | none => if i ≤ l.length then some (insertAt l i (k, c)) else none
    | some _ => none
  | .delete k _ => match epOf l k with
    | none => none
    | some _ => some (others l k)
  | .move k i => match epOf l k with
    | none => none
    | some c => if i < l.length then some (insertAt (others l k) i (k, c)) else none
  | .change k d => match epOf l k with
    | none => none
    | some c => (c.change d).map (fun c' => l.map (fun x => if x.1 == k then (k, c') else x))

/-- Edits that are not followed: only at the end can endpoints be added and removed. -/
def EpEdit.lost (w : Scope) (l : Eps) : EpEdit → Bool
  | .create _ i _ => w != .all && i != l.length
  | .delete k _ => w != .all && (l.getLast?.map Prod.fst) != some k
  | .move _ _ => w != .all
  | .change k d => match epOf l k with
    | none => false
    | some c => d.lost w c

/-- Apply several edits, if they are considered. -/
def applyEps (w : Scope) : Eps → List EpEdit → Option Eps
  | l, [] => some l
  | l, e :: es => if e.lost w l then none else (e.apply l).bind (fun l' => applyEps w l' es)

/-- Connection type: persistent or periodic with period, anchor time and idle timeout (modules/ietf-netconf-server@2023-12-28.yang:520-614). -/
inductive Conn where
  | persistent
  | periodic (period anchor idle : Option Nat)
  deriving DecidableEq

/-- Change of the connection type; `first` tells if the old one is deleted before the new one is created. -/
inductive ConnEdit where
  | keep
  | toPersistent (rest : List Tree) (first : Bool)
  | toPeriodic (rest : List Tree) (period anchor idle : Option Nat) (first : Bool)
  | leaves (period anchor idle : LeafEdit)

/-- Apply it. -/
def Conn.change : Conn → ConnEdit → Option Conn
  | c, .keep => some c
  | .periodic .., .toPersistent _ _ => some .persistent
  | .persistent, .toPeriodic _ p a i _ => some (.periodic p a i)
  | .periodic p a i, .leaves ep ea ei => match ep.apply p, ea.apply a, ei.apply i with
    | some p', some a', some i' => some (.periodic p' a' i')
    | _, _, _ => none
  | _, _ => none

/-- Reconnect strategy; all leaves have defaults (modules/ietf-netconf-server@2023-12-28.yang:615-674). -/
structure Rs where
  startWith : Option Nat
  maxWait : Option Nat
  maxAttempts : Option Nat
  deriving DecidableEq

/-- No leaf is given. -/
def Rs.empty (c : Rs) : Bool := c.startWith.isNone && c.maxWait.isNone && c.maxAttempts.isNone

/-- `start-with` has three values. -/
def Rs.valid (c : Rs) : Bool := c.startWith.getD 0 ≤ 2

/-- Change of the reconnect strategy: the container appears in a diff as created or deleted with its first or last leaf that is given. -/
inductive RsEdit where
  | keep
  | create (c : Rs)
  | leaves (startWith maxWait maxAttempts : LeafEdit)
  | delete (rest : List Tree)

/-- Apply it. -/
def Rs.change (c : Rs) : RsEdit → Option Rs
  | .keep => some c
  | .create c' => if c.empty && !c'.empty && c'.valid then some c' else none
  | .leaves a b d =>
    match a.apply c.startWith, b.apply c.maxWait, d.apply c.maxAttempts with
    | some x, some y, some z => if !c.empty && !(Rs.mk x y z).empty && (Rs.mk x y z).valid then some ⟨x, y, z⟩ else none
    | _, _, _ => none
  | .delete _ => if c.empty then none else some ⟨none, none, none⟩

/-- A client. -/
structure ClientConf where
  eps : Eps
  conn : Conn
  rs : Rs

/-- Change of a client. -/
structure ClientChange where
  eps : List EpEdit
  conn : ConnEdit
  rs : RsEdit

/-- Apply it. -/
def ClientConf.change (w : Scope) (c : ClientConf) (d : ClientChange) : Option ClientConf :=
  match applyEps w c.eps d.eps, c.conn.change d.conn, c.rs.change d.rs with
  | some e, some k, some r => some ⟨e, k, r⟩
  | _, _, _ => none

/-- A new client: names of endpoints differ. -/
def mkClient (c : ClientConf) : Option ClientConf := if (c.eps.map Prod.fst).Nodup ∧ c.rs.valid = true then some c else none

/-- Edits of clients. -/
abbrev ClientEdit := Edit ClientConf ClientChange

/-- Apply diffs, each a list of edits. -/
def patchCh (w : Scope) : Map ClientConf → List (List ClientEdit) → Option (Map ClientConf)
  | m, [] => some m
  | m, d :: ds => (patchAll mkClient (ClientConf.change w) m d).bind (fun m' => patchCh w m' ds)

/-! ## As data -/

/-- The transport of an endpoint as data. -/
def epTrans (c : EpConf) (m : Meta := .absent) : Tree :=
  .node c.ti.label 0 m [.node .tcpClientParameters 0 .absent
    (leaf .remoteAddress c.dstAddr :: leaf .remotePort (c.dstPort.getD (chPort c.ti)) ::
      (optLeaf .localAddress c.srcAddr ++ [leaf .localPort (c.srcPort.getD 0), kaData c.ka]))]

/-- An endpoint as data. -/
def epData (k : Nat) (c : EpConf) (m : Meta := .absent) : Tree := .node .endpoint 0 m [leaf .name k, epTrans c]

/-- A change of an endpoint as data. -/
def EpChange.trees : EpChange → List Tree
  | .params t a p x y k =>
    [.node t.label 0 .none [.node .tcpClientParameters 0 .none
      (replaced .remoteAddress a ++ (leafTree .remotePort p ++ (leafTree .localAddress x ++ (leafTree .localPort y ++ k.trees))))]]
  | .switch t rest c first =>
    if first then [.node t.label 0 .delete rest, epTrans c .create] else [epTrans c .create, .node t.label 0 .delete rest]

/-- An edit of an endpoint as data; positions are given by metadata that the server does not look at. -/
def EpEdit.tree : EpEdit → Tree
  | .create k _ c => epData k c .create
  | .delete k rest => .node .endpoint 0 .delete (leaf .name k :: rest)
  | .move k _ => .node .endpoint 0 .replace [leaf .name k]
  | .change k d => .node .endpoint 0 .none (leaf .name k :: d.trees)

/-- A periodic connection as data. -/
def periodicData (p a i : Option Nat) (m : Meta := .absent) : Tree :=
  .node .periodic 0 m (leaf .period (p.getD 60) :: (optLeaf .anchorTime a ++ [leaf .idleTimeout (i.getD 180)]))

/-- The connection type as data. -/
def Conn.data : Conn → Tree
  | .persistent => .node .persistent 0 .absent []
  | .periodic p a i => periodicData p a i

/-- A change of it as data. -/
def ConnEdit.trees : ConnEdit → List Tree
  | .keep => []
  | .toPersistent rest first =>
    if first then [.node .periodic 0 .delete rest, .node .persistent 0 .create []]
    else [.node .persistent 0 .create [], .node .periodic 0 .delete rest]
  | .toPeriodic rest p a i first =>
    if first then [.node .persistent 0 .delete rest, periodicData p a i .create]
    else [periodicData p a i .create, .node .persistent 0 .delete rest]
  | .leaves p a i => [.node .periodic 0 .none (leafTree .period p ++ (leafTree .anchorTime a ++ leafTree .idleTimeout i))]

/-- The reconnect strategy as data; leaves that are not given are there with their defaults. -/
def Rs.data (c : Rs) (m : Meta := .absent) : Tree :=
  .node .reconnectStrategy 0 m [leaf .startWith (c.startWith.getD 0), leaf .maxWait (c.maxWait.getD 5), leaf .maxAttempts (c.maxAttempts.getD 3)]

/-- A change of it as data. -/
def RsEdit.trees : RsEdit → List Tree
  | .keep => []
  | .create c => [c.data .create]
  | .leaves a b d => [.node .reconnectStrategy 0 .none (leafTree .startWith a ++ (leafTree .maxWait b ++ leafTree .maxAttempts d))]
  | .delete rest => [.node .reconnectStrategy 0 .delete rest]

/-- A client as data. -/
def clientData (k : Nat) (c : ClientConf) (m : Meta := .absent) : Tree :=
  .node .netconfClient 0 m
    [leaf .name k, .node .other 0 .absent (c.eps.map (fun x => epData x.1 x.2)), .node .connectionType 0 .absent [c.conn.data], c.rs.data]

/-- An edit of a client as data. -/
def clientTree : ClientEdit → Tree
  | .create k c => clientData k c .create
  | .delete k rest => .node .netconfClient 0 .delete (leaf .name k :: rest)
  | .change k d => .node .netconfClient 0 .none
      (leaf .name k :: .node .other 0 .none (d.eps.map EpEdit.tree) :: .node .connectionType 0 .none d.conn.trees :: d.rs.trees)

/-- A diff as data. -/
def chTree (d : List ClientEdit) : Tree := .node .other 0 .none (d.map clientTree)

/-- Whole data. -/
abbrev ChData := List (Nat × ClientConf)

/-- Their meaning. -/
def chConf (d : ChData) : Option (Map ClientConf) :=
  patchAll mkClient (ClientConf.change .all) (fun _ => none) (d.map (fun q => Edit.create q.1 q.2))

/-- Whole data without operations. -/
def chData (d : ChData) : Tree := .node .other 0 .absent (d.map (fun q => clientData q.1 q.2))

/-! ## What the server does -/

/-- The server connects to the endpoint as configured. -/
def EpAs (e : Ep) (x : Nat × EpConf) : Prop :=
  e.name = some x.1 ∧ e.ti = some x.2.ti ∧ e.opts = .live x.2.ti ∧ e.dstAddr = some x.2.dstAddr ∧
  e.dstPort = x.2.dstPort.getD (chPort x.2.ti) ∧ e.srcAddr = x.2.srcAddr ∧ e.srcPort = x.2.srcPort.getD 0

/-- Connections to the client are made when configured. -/
def ConnAs (o : Opt) : Conn → Prop
  | .persistent => o.conn = .persist
  | .periodic p a i => o.conn = .period ∧ o.period = p.getD 60 ∧ o.anchor = a.getD 0 ∧ o.idle = i.getD 180

/-- The reconnect strategy is as configured. -/
def RsAs (o : Opt) (c : Rs) : Prop :=
  o.startWith = c.startWith.getD 0 ∧ o.maxWait = c.maxWait.getD 5 ∧ o.maxAttempts = c.maxAttempts.getD 3

/-- The settings of a client are as configured. -/
def OptAs (c : Client) (x : ClientConf) : Prop := ConnAs c.opt x.conn ∧ RsAs c.opt x.rs

/-- The lists are of the same length and related element by element. -/
def ListRel {α β : Type} (R : α → β → Prop) : List α → List β → Prop
  | [], [] => True
  | a :: as, b :: bs => R a b ∧ ListRel R as bs
  | _, _ => False

/-- Keepalives are sent as configured. -/
def KasAs (c : Client) (x : ClientConf) : Prop := ListRel (fun e y => KaAs e.ka y.2.ka) c.eps x.eps

/-- The endpoints of a client are as configured, in the configured order. -/
def EpsAs (c : Client) (x : ClientConf) : Prop := ListRel EpAs c.eps x.eps

end Verif.ConfCh
