import Verif.Model.ConfEndpt

/-!
# Call Home clients (src/server_config.c)

The callbacks for the nodes below `call-home`. Names, addresses and values of leaves are numbers; `start-with` is 0 (first listed), 1 (last
connected), 2 (random selection). The SSH and TLS parameters of an endpoint are only one pointer here (see `ConfUsers`, `ConfTls`), references
to other endpoints and pending sockets are left out, and so are locks. Threads that connect to the clients are assumed to be created
successfully once the application has given its callbacks.
-/

namespace Verif.ConfCh
open Verif.ConfTree (Op Meta)
open Verif.ConfStore
open Verif.ConfUsers (parentN keyOr)
open Verif.ConfEndpt (Ti Opts Ka)

/-- `struct nc_ch_endpt` (src/session_p.h:534-556); a name that is `none` was freed. -/
structure Ep where
  name : Option Nat
  ti : Option Ti
  opts : Opts
  srcAddr : Option Nat
  srcPort : Nat
  dstAddr : Option Nat
  dstPort : Nat
  ka : Ka
  deriving DecidableEq, Repr

/-- NC_CH_CONN_TYPE (src/session.h:102-106). -/
inductive ConnType where
  | unset
  | persist
  | period
  deriving DecidableEq, Repr

/-- Settings of a client without its endpoints (src/session_p.h:559-568). -/
structure Opt where
  conn : ConnType
  period : Nat
  anchor : Nat
  idle : Nat
  startWith : Nat
  maxAttempts : Nat
  maxWait : Nat
  deriving DecidableEq, Repr

/-- `struct nc_ch_client` (src/session_p.h:529-571); `thread` tells if `thread_data` is not NULL. -/
structure Client where
  name : Nat
  thread : Bool
  eps : List Ep
  opt : Opt
  deriving DecidableEq, Repr

/-- A new endpoint: everything zero but the name (src/server_config.c:538-562, 1114-1122). -/
def newEp (n : Nat) : Ep := ⟨some n, none, .null, none, 0, none, 0, ⟨false, 0, 0, 0⟩⟩

/-- Settings of a new client (src/server_config.c:3495-3503). -/
def newOpt : Opt := ⟨.unset, 0, 0, 0, 0, 3, 0⟩

/-- Search for the endpoint by name (src/server_config.c:195-218): `none` if a freed name is compared, `some none` if it is not found. -/
def search (k : Nat) : List Ep → Option (Option Nat)
  | [] => some none
  | e :: es =>
    match e.name with
    | none => none
    | some n => if n = k then some (some 0) else (search k es).map (fun o => o.map (· + 1))

/-- The transport part of `nc_server_config_ssh` and `nc_server_config_tls` for Call Home (src/server_config.c:1213-1221, 1242-1271,
1289-1297, 1317-1346): the pointer to the parameters is not reset when they are freed. -/
def transport (t : Ti) (op : Op) (e : Ep) : Res Ep :=
  if op = .create then .ok { e with ti := some t, opts := .live t }
  else if op = .delete then (if e.opts = .live t then .ok { e with opts := .freed } else .ub)
  else .ok e

/-- Callbacks for the nodes in an endpoint (src/server_config.c:1224-1671, 3546-3611). -/
def epCb (path : List Anc) (v : Nat) (op : Op) (e : Ep) : Res Ep :=
  match path.head?.map Anc.label with
  | some .ssh => transport .ssh op e
  | some .tls => transport .tls op e
  | some .localAddress =>
    .ok (if setting op then { e with srcAddr := some v } else if op = .delete then { e with srcAddr := none } else e)
  | some .localPort => .ok (if setting op then { e with srcPort := v } else if op = .delete then { e with srcPort := 0 } else e)
  | some .remoteAddress => .ok { e with dstAddr := if setting op then some v else none }
  | some .remotePort => .ok { e with dstPort := if setting op then v else 0 }
  | some .keepalives => .ok { e with ka := { e.ka with enabled := op = .create } }
  | some .idleTime => .ok { e with ka := { e.ka with idle := if setting op then v else 7200 } }
  | some .maxProbes => .ok { e with ka := { e.ka with probes := if setting op then v else 9 } }
  | some .probeInterval => .ok { e with ka := { e.ka with interval := if setting op then v else 75 } }
  | _ => .ok e

/-- Does the callback of the node look for an endpoint (src/server_config.c:1224-1671, 3546-3611): some only below
`tcp-client-parameters`. -/
def ofEp (path : List Anc) : Bool :=
  match path.head?.map Anc.label with
  | some .ssh | some .tls | some .remoteAddress | some .remotePort => true
  | some .localAddress | some .localPort | some .keepalives => parentN path 1 .tcpClientParameters
  | some .idleTime | some .maxProbes | some .probeInterval => parentN path 2 .tcpClientParameters
  | _ => false

/-- Find the endpoint of a node and change it (`nc_server_config_get_ch_endpt`, src/server_config.c:195-218). -/
def withEp (path : List Anc) (c : Client) (f : Ep → Res Ep) : Res Client :=
  match keyOr path .endpoint with
  | none => .fail c
  | some k =>
    match search k c.eps with
    | none => .ub
    | some none => .fail c
    | some (some i) =>
      match c.eps[i]? with
      | none => .fail c
      | some e =>
        match f e with
        | .ok e' => .ok { c with eps := c.eps.set i e' }
        | .fail e' => .fail { c with eps := c.eps.set i e' }
        | .ub => .ub

/-- `nc_server_config_ch_del_endpt` (src/server_config.c:876-910): the endpoint at `i` is freed and the count decreased, so that the last one
is no longer in the array. -/
def delEp (c : Client) (i : Nat) (e : Ep) : Res Client :=
  match e.ti with
  | none => .ok { c with eps := (c.eps.set i { e with name := none }).dropLast }
  | some t => if e.opts = .live t then .ok { c with eps := (c.eps.set i { e with name := none, opts := .freed }).dropLast } else .ub

/-- `nc_server_config_endpoint` for Call Home (src/server_config.c:1169-1192). -/
def endpoint (path : List Anc) (op : Op) (c : Client) : Res Client :=
  if op = .create then
    match ownKey path with
    | .found k => .ok { c with eps := c.eps ++ [newEp k] }
    | .missing => .fail c
    | .bad => .ub
  else if op = .delete then
    match keyOr path .endpoint with
    | none => .fail c
    | some k =>
      match search k c.eps with
      | none => .ub
      | some none => .fail c
      | some (some i) =>
        match c.eps[i]? with
        | none => .fail c
        | some e => delEp c i e
  else .ok c

/-- Callbacks for the settings of a client (src/server_config.c:1049-1070, 3615-3844). -/
def optCb (path : List Anc) (v : Nat) (op : Op) (o : Opt) : Res Opt :=
  match path.head?.map Anc.label with
  | some .persistent => .ok { o with conn := .persist }
  | some .periodic => .ok { o with conn := .period, period := 60, anchor := 0, idle := 180 }
  | some .period => .ok (if setting op then { o with period := v } else if op = .delete then { o with period := 60 } else o)
  | some .anchorTime => .ok (if setting op then { o with anchor := v } else if op = .delete then { o with anchor := 0 } else o)
  | some .idleTimeout => .ok (if setting op then { o with idle := v } else if op = .delete then { o with idle := 180 } else o)
  | some .reconnectStrategy => .ok { o with startWith := 0, maxWait := 5, maxAttempts := 3 }
  | some .startWith => if op = .delete then .ok { o with startWith := 0 } else if v ≤ 2 then .ok { o with startWith := v } else .fail o
  | some .maxWait => .ok { o with maxWait := if setting op then v else 5 }
  | some .maxAttempts => .ok { o with maxAttempts := if setting op then v else 3 }
  | _ => .ok o

/-- Does the callback of the node change the settings of a client (src/server_config.c:1049-1070, 3615-3844): nothing is done when
`persistent` or `periodic` is deleted. -/
def ofOpt (path : List Anc) (op : Op) : Bool :=
  match path.head?.map Anc.label with
  | some .persistent | some .periodic => op != .delete
  | some .period | some .anchorTime | some .idleTimeout | some .reconnectStrategy | some .startWith | some .maxWait | some .maxAttempts => true
  | _ => false

/-- Callbacks for the nodes in a client (src/server_config.c:3846-3957). -/
def clientCb (path : List Anc) (v : Nat) (op : Op) (c : Client) : Res Client :=
  if path.head?.map Anc.label = some .endpoint then endpoint path op c
  else if ofOpt path op then
    match optCb path v op c.opt with
    | .ok o => .ok { c with opt := o }
    | .fail o => .fail { c with opt := o }
    | .ub => .ub
  else if ofEp path then withEp path c (epCb path v op)
  else .ok c

/-- Find the client of a node and change it (`nc_server_config_get_ch_client_with_lock`, src/server_config.c:480-508, `…_get_ch_client`
168-190). -/
def withClient (path : List Anc) (s : List Client) (f : Client → Res Client) : Res (List Client) :=
  match (keyOr path .netconfClient).bind (fun k => s.findIdx? (fun c => c.name == k)) with
  | none => .fail s
  | some i =>
    match s[i]? with
    | none => .fail s
    | some c =>
      match f c with
      | .ok c' => .ok (s.set i c')
      | .fail c' => .fail (s.set i c')
      | .ub => .ub

/-- `nc_server_config_destroy_ch_client` (src/server_config.c:912-943): the data of the thread are used without a check, then the endpoints
are freed one by one. -/
def destroyable (c : Client) : Bool :=
  c.thread && c.eps.all (fun e => e.name.isSome && (match e.ti with | none => true | some t => e.opts == .live t))

/-- `nc_server_config_netconf_client` (src/server_config.c:3482-3542, 945-976); `disp` tells if the application has given its callbacks, so
that a thread is created. -/
def netconfClient (disp : Bool) (path : List Anc) (op : Op) (s : List Client) : Res (List Client) :=
  if op = .create then
    match ownKey path with
    | .found k => .ok (s ++ [⟨k, disp, [], newOpt⟩])
    | .missing => .fail s
    | .bad => .ub
  else if op = .delete then
    match (keyOr path .netconfClient).bind (fun k => s.findIdx? (fun c => c.name == k)) with
    | none => .ok s
    | some i =>
      match s[i]? with
      | none => .ok s
      | some c => if destroyable c then .ok (swapDel s i) else .ub
  else .ok s

/-- Does the node have a callback that looks for the client (src/server_config.c:1049-1671, 3546-3844). -/
def ofClient (path : List Anc) (op : Op) : Bool :=
  path.head?.map Anc.label == some .endpoint || ofOpt path op || ofEp path

/-- `nc_server_config_parse_netconf_server` for the nodes in the container `call-home` (src/server_config.c:3846-3957). The callback for
`call-home` itself, which removes all clients on deletion, is not here. -/
def srvCb (disp : Bool) (path : List Anc) (v : Nat) (op : Op) (s : List Client) : Res (List Client) :=
  if path.head?.map Anc.label = some .netconfClient then netconfClient disp path op s
  else if ofClient path op then withClient path s (clientCb path v op)
  else .ok s

/-- Several diffs, one after another (`nc_server_config_setup_diff`, src/server_config.c:4368-4421). -/
def diffs (disp : Bool) : List Tree → List Client → Res (List Client)
  | [], s => .ok s
  | t :: ts, s =>
    match parse (srvCb disp) .unknown [] s t with
    | .ok s1 => diffs disp ts s1
    | r => r

/-- Whole data, then diffs (`nc_server_config_setup_data`, src/server_config.c:4423-4502). -/
def run (disp : Bool) (t : Tree) (ts : List Tree) : Res (List Client) :=
  match parse (srvCb disp) .create [] [] t with
  | .ok s => diffs disp ts s
  | r => r

end Verif.ConfCh
