import Verif.Spec.ConfUsers
import Verif.Model.ConfEndpt

/-!
# Where the server should listen

As for the stores (`Spec.ConfStore`): a configuration, a diff, the configuration it leads to, and the diff as it is given to the server.
-/

namespace Verif.ConfEndpt
open Verif.ConfTree (Op Meta)
open Verif.ConfStore

/-- TCP keepalives as configured; all leaves have defaults (modules/ietf-tcp-common@2023-12-28.yang:67-114). -/
structure KaConf where
  idle : Option Nat
  probes : Option Nat
  interval : Option Nat
  deriving DecidableEq

/-- No leaf is given. -/
def KaConf.empty (c : KaConf) : Bool := c.idle.isNone && c.probes.isNone && c.interval.isNone

/-- Change of keepalives: the container appears in a diff as created or deleted with its first or last leaf that is given. -/
inductive KaEdit where
  | keep
  | create (c : KaConf)
  | leaves (idle probes interval : LeafEdit)
  | delete (rest : List Tree)

/-- Apply it. -/
def KaConf.change (c : KaConf) : KaEdit → Option KaConf
  | .keep => some c
  | .create c' => if c.empty && !c'.empty then some c' else none
  | .leaves a b d =>
    match a.apply c.idle, b.apply c.probes, d.apply c.interval with
    | some x, some y, some z => if !c.empty && !(KaConf.mk x y z).empty then some ⟨x, y, z⟩ else none
    | _, _, _ => none
  | .delete _ => if c.empty then none else some ⟨none, none, none⟩

/-- A configured endpoint: transport, local address (mandatory), local port (modules/ietf-tcp-server@2023-12-28.yang:85-115), keepalives. -/
structure EndptConf where
  ti : Ti
  addr : Nat
  port : Option Nat
  ka : KaConf
  deriving DecidableEq

/-- Default port of the transport (modules/ietf-netconf-server@2023-12-28.yang:213-214, 269-270). -/
def Ti.defaultPort : Ti → Nat
  | .ssh => 830
  | .tls => 6513

/-- The port to listen on. -/
def EndptConf.effPort (c : EndptConf) : Nat := c.port.getD c.ti.defaultPort

/-- Port 0 is said to be invalid (modules/ietf-tcp-server@2023-12-28.yang:100-105). -/
def EndptConf.valid (c : EndptConf) : Bool := c.effPort != 0

/-- Change of an endpoint with transport `t`: parameters, or another transport; `first` tells if the old transport is deleted before the new one is created. -/
inductive EndptChange where
  | params (t : Ti) (addr : Option Nat) (port : LeafEdit) (ka : KaEdit)
  | switch (t : Ti) (rest : List Tree) (c : EndptConf) (first : Bool)

/-- Apply it. -/
def EndptConf.change (c : EndptConf) : EndptChange → Option EndptConf
  | .params t a p k =>
    match p.apply c.port, c.ka.change k with
    | some p', some k' =>
      if t = c.ti && (EndptConf.mk t (a.getD c.addr) p' k').valid then some ⟨t, a.getD c.addr, p', k'⟩ else none
    | _, _ => none
  | .switch t _ c' _ => if t = c.ti && c'.ti != t && c'.valid then some c' else none

/-- Edits of endpoints. -/
abbrev EndptEdit := Edit EndptConf EndptChange

/-- A new endpoint. -/
def mkEndpt (c : EndptConf) : Option EndptConf := if c.valid then some c else none

/-- The configuration of the container `listen`. -/
structure ListenConf where
  idle : Option Nat
  endpts : Map EndptConf

/-- A diff of it. -/
structure ListenDiff where
  idle : LeafEdit
  endpts : List EndptEdit

/-- A diff of endpoints only. -/
def endptsDiff (es : List EndptEdit) : ListenDiff := ⟨.keep, es⟩

/-- Apply it. -/
def patchListen (c : ListenConf) (d : ListenDiff) : Option ListenConf :=
  match d.idle.apply c.idle, patchAll mkEndpt EndptConf.change c.endpts d.endpts with
  | some i, some m => some ⟨i, m⟩
  | _, _ => none

/-- Apply several diffs. -/
def patchListenAll : ListenConf → List ListenDiff → Option ListenConf
  | c, [] => some c
  | c, d :: ds => (patchListen c d).bind (fun c' => patchListenAll c' ds)

/-! ## As data -/

/-- The container of a transport. -/
def Ti.label : Ti → Label
  | .ssh => .ssh
  | .tls => .tls

/-- Keepalives as data; leaves that are not given are there with their defaults. -/
def kaData (c : KaConf) (m : Meta := .absent) : Tree :=
  .node .keepalives 0 m
    [leaf .idleTime (c.idle.getD 7200), leaf .maxProbes (c.probes.getD 9), leaf .probeInterval (c.interval.getD 75)]

/-- The transport of an endpoint as data. -/
def transData (c : EndptConf) (m : Meta := .absent) : Tree :=
  .node c.ti.label 0 m [.node .tcpServerParameters 0 .absent [leaf .localAddress c.addr, leaf .localPort c.effPort, kaData c.ka]]

/-- An endpoint as data. -/
def endptData (k : Nat) (c : EndptConf) (m : Meta := .absent) : Tree := .node .endpoint 0 m [leaf .name k, transData c]

/-- A change of keepalives as data. -/
def KaEdit.trees : KaEdit → List Tree
  | .keep => []
  | .create c => [kaData c .create]
  | .leaves a b d => [.node .keepalives 0 .none (leafTree .idleTime a ++ (leafTree .maxProbes b ++ leafTree .probeInterval d))]
  | .delete rest => [.node .keepalives 0 .delete rest]

/-- A change of an endpoint as data. -/
def EndptChange.trees : EndptChange → List Tree
  | .params t a p k =>
    [.node t.label 0 .none [.node .tcpServerParameters 0 .none (replaced .localAddress a ++ (leafTree .localPort p ++ k.trees))]]
  | .switch t rest c first =>
    if first then [.node t.label 0 .delete rest, transData c .create] else [transData c .create, .node t.label 0 .delete rest]

/-- An edit of an endpoint as data. -/
def endptTree : EndptEdit → Tree
  | .create k c => endptData k c .create
  | .delete k rest => .node .endpoint 0 .delete (leaf .name k :: rest)
  | .change k e => .node .endpoint 0 .none (leaf .name k :: e.trees)

/-- A diff as data. -/
def listenTree (d : ListenDiff) : Tree :=
  .node .other 0 .none (leafTree .idleTimeout d.idle ++ [.node .other 0 .none (d.endpts.map endptTree)])

/-- Whole data. -/
structure ListenData where
  idle : Option Nat
  endpts : List (Nat × EndptConf)

/-- Their meaning. -/
def ListenData.conf (d : ListenData) : Option ListenConf :=
  (patchAll mkEndpt EndptConf.change (fun _ => none) (d.endpts.map (fun q => Edit.create q.1 q.2))).map (fun m => ⟨d.idle, m⟩)

/-- Whole data without operations. -/
def ListenData.tree (d : ListenData) : Tree :=
  .node .other 0 .absent [leaf .idleTimeout (d.idle.getD 180), .node .other 0 .absent (d.endpts.map (fun q => endptData q.1 q.2))]

/-! ## What the server does -/

/-- The endpoint serves the transport on a socket of its own at the configured address and port. -/
def Serves (n : Net) (e : Endpt) (c : EndptConf) : Prop :=
  e.ti = some c.ti ∧ e.opts = .live c.ti ∧
  ∃ f, e.sock = some f ∧ ⟨f, c.addr, c.effPort⟩ ∈ n.socks ∧ ∀ x ∈ n.socks, x.fd = f → x = ⟨f, c.addr, c.effPort⟩

/-- The server listens exactly where it is configured to: for every configured endpoint there is one, no others, each with a socket of its
own, and there are no other listening sockets. -/
def ListenAs (s : Srv) (m : Map EndptConf) : Prop :=
  (s.endpts.map Endpt.name).Nodup ∧ (∀ k, OptRel (Serves s.net) (s.endpts.find? (fun e => e.name == k)) (m k)) ∧
  (∀ x ∈ s.net.socks, ∃ e ∈ s.endpts, e.sock = some x.fd) ∧
  (∀ a ∈ s.endpts, ∀ b ∈ s.endpts, a.sock = b.sock → a = b)

/-- Keepalives are sent as configured. -/
def KaAs (k : Ka) (c : KaConf) : Prop :=
  k.enabled = true ∧ k.idle = c.idle.getD 7200 ∧ k.probes = c.probes.getD 9 ∧ k.interval = c.interval.getD 75

/-- Every listening socket belongs to an endpoint of the server. -/
def Owned (s : Srv) : Prop := ∀ x ∈ s.net.socks, ∃ e ∈ s.endpts, e.sock = some x.fd

/-! ## Changes that are not followed -/

/-- Another transport or no port any more. -/
def EndptChange.lost : EndptChange → Bool
  | .switch .. => true
  | .params _ _ p _ => match p with | .delete _ => true | _ => false

/-- Edits without such changes. -/
def noLost (d : ListenDiff) : Prop := ∀ k e, Edit.change k e ∈ d.endpts → e.lost = false

/-- Edits that do not remove keepalives either. -/
def keepsKa (d : ListenDiff) : Prop := ∀ k t a p r, Edit.change k (EndptChange.params t a p (.delete r)) ∉ d.endpts

/-- The operating system lets the server listen. -/
def grants (env : Env) : Prop := ∀ l a p, env.os l a p = true

end Verif.ConfEndpt
