import Verif.Model.ConfUsers

/-!
# Endpoints the server listens on (src/server_config.c, src/session_server.c)

Names of endpoints, addresses and values of leaves are numbers. Sockets are numbered in the order in which they are opened; numbers are not
used again, so that a use of a closed descriptor is seen (in C the number may belong to another file by then). What the operating system
answers is a parameter. The SSH and TLS parameters of an endpoint are only one pointer here (see `ConfUsers`, `ConfTls`), references
between endpoints are left out (see `References`), and so are UNIX sockets, whose endpoints are not configured by YANG data. The arrays
of endpoints and binds are one list (that they stay in step in memory is C24).
-/

namespace Verif.ConfEndpt
open Verif.ConfTree (Op Meta current)
open Verif.ConfStore
open Verif.ConfUsers (parentN keyOr)

/-- Transports (NC_TI_SSH, NC_TI_TLS, src/session.h:87-97). -/
inductive Ti where
  | ssh
  | tls
  deriving DecidableEq, Repr

/-- The pointer `address` of a bind (src/session_p.h:312-317). -/
inductive Addr where
  | null
  | str (a : Nat)
  | freed
  deriving DecidableEq, Repr

/-- The pointer in the union `opts` of an endpoint (src/session_p.h:516-523) and what it points to. -/
inductive Opts where
  | null
  | live (t : Ti)
  | freed
  deriving DecidableEq, Repr

/-- `struct nc_keepalives` (src/session_p.h:292-297). -/
structure Ka where
  enabled : Bool
  idle : Nat
  probes : Nat
  interval : Nat
  deriving DecidableEq, Repr

/-- `struct nc_endpt` with its `struct nc_bind` (src/session_p.h:312-317, 508-524); no socket is -1. -/
structure Endpt where
  name : Nat
  ti : Option Ti
  opts : Opts
  addr : Addr
  port : Nat
  sock : Option Nat
  ka : Ka
  deriving DecidableEq, Repr

/-- A listening socket: number, address and port (src/session_server.c:330-376). -/
structure Sock where
  fd : Nat
  addr : Nat
  port : Nat
  deriving DecidableEq, Repr

/-- The listening sockets of the process and the number of the next one (src/session_server.c:330-376). -/
structure Net where
  socks : List Sock
  next : Nat
  deriving DecidableEq, Repr

/-- Server options for listening (src/session_p.h:500-525): endpoints, idle timeout. -/
structure Srv where
  endpts : List Endpt
  net : Net
  idle : Nat
  deriving DecidableEq, Repr

/-- The surroundings: may a socket listen at the address and port, given the sockets that are listening already
(src/session_server.c:330-376); are assertions checked (build type Debug, CMakeLists.txt). -/
structure Env where
  os : List Sock → Nat → Nat → Bool
  debug : Bool

/-- A new endpoint: everything zero but the name, no socket (src/server_config.c:538-562, 1083-1112). -/
def newEndpt (n : Nat) : Endpt := ⟨n, none, .null, .null, 0, none, ⟨false, 0, 0, 0⟩⟩

/-- `close(bind->sock)` if it is not -1 (e.g. src/server_config.c:645-647); `none` means that no such socket is open. -/
def closeSock (n : Net) : Option Nat → Option Net
  | none => some n
  | some f => if n.socks.any (fun x => x.fd == f) then some { n with socks := n.socks.filter (fun x => !(x.fd == f)) } else none

/-- What the callbacks of an endpoint work on: the endpoint and the sockets (src/session_server.c:2197-2258, arguments). -/
abbrev St := Endpt × Net

/-- `nc_server_set_address_port` (src/session_server.c:2197-2258) with `nc_sock_listen_inet` (330-376): a new socket is opened before the
old one is closed. -/
def setAddressPort (env : Env) (address : Option Nat) (port : Nat) (s : St) : Res St :=
  if env.debug && !((address.isSome && port == 0) || (address.isNone && port != 0)) then .ub
  else
    match (match address with | some a => Addr.str a | none => s.1.addr) with
    | .freed => .ub
    | .null => .ok s
    | .str a =>
      if (if address.isSome then s.1.port else port) = 0 then .ok s
      else if env.os s.2.socks a (if address.isSome then s.1.port else port) then
        match closeSock s.2 s.1.sock with
        | none => .ub
        | some n =>
          if s.1.ti.isNone then
            .fail ({ s.1 with sock := some n.next },
              ⟨n.socks ++ [⟨n.next, a, if address.isSome then s.1.port else port⟩], n.next + 1⟩)
          else
            .ok ({ s.1 with sock := some n.next },
              ⟨n.socks ++ [⟨n.next, a, if address.isSome then s.1.port else port⟩], n.next + 1⟩)
      else .fail s

/-- `nc_server_config_del_ssh_opts` and `nc_server_config_del_tls_opts` (src/server_config.c:638-667, 824-849): the address is freed and the
socket closed, neither is reset; then the parameters, which must be those of the transport, are freed. -/
def delOpts (t : Ti) (s : St) : Res St :=
  if s.1.addr = .freed then .ub
  else
    match closeSock s.2 s.1.sock with
    | none => .ub
    | some n => if s.1.opts = .live t then .ok ({ s.1 with addr := .freed, opts := .freed }, n) else .ub

/-- `nc_server_config_ssh` and `nc_server_config_tls` (src/server_config.c:1201-1209, 1224-1241, 1279-1317). -/
def transport (t : Ti) (op : Op) (s : St) : Res St :=
  if op = .create then .ok ({ s.1 with ti := some t, opts := .live t }, s.2)
  else if op = .delete then delOpts t s
  else .ok s

/-- `nc_server_config_local_address` (src/server_config.c:1355-1378). -/
def localAddress (env : Env) (v : Nat) (s : St) : Res St :=
  if s.1.addr = .freed then .ub else setAddressPort env (some v) 0 ({ s.1 with addr := .str v }, s.2)

/-- `nc_server_config_local_port` (src/server_config.c:1411-1438). -/
def localPort (env : Env) (v : Nat) (op : Op) (s : St) : Res St :=
  setAddressPort env none (if setting op then v else 0) ({ s.1 with port := if setting op then v else 0 }, s.2)

/-- Callbacks for the nodes in an endpoint (src/server_config.c:1468-1671, 3846-3957): keepalives are enabled when they are created and
disabled otherwise; the leaves have default values. -/
def endptCb (env : Env) (path : List Anc) (v : Nat) (op : Op) (s : St) : Res St :=
  match path.head?.map Anc.label with
  | some .ssh => transport .ssh op s
  | some .tls => transport .tls op s
  | some .localAddress => if parentN path 1 .tcpServerParameters then localAddress env v s else .ok s
  | some .localPort => if parentN path 1 .tcpServerParameters then localPort env v op s else .ok s
  | some .keepalives =>
    if parentN path 1 .tcpServerParameters then .ok ({ s.1 with ka := { s.1.ka with enabled := op = .create } }, s.2) else .ok s
  | some .idleTime =>
    if parentN path 2 .tcpServerParameters then .ok ({ s.1 with ka := { s.1.ka with idle := if setting op then v else 7200 } }, s.2)
    else .ok s
  | some .maxProbes =>
    if parentN path 2 .tcpServerParameters then .ok ({ s.1 with ka := { s.1.ka with probes := if setting op then v else 9 } }, s.2)
    else .ok s
  | some .probeInterval =>
    if parentN path 2 .tcpServerParameters then .ok ({ s.1 with ka := { s.1.ka with interval := if setting op then v else 75 } }, s.2)
    else .ok s
  | _ => .ok s

/-- Put the changed endpoint and sockets back (src/server_config.c:138-163, pointers into the arrays). -/
def put (s : Srv) (i : Nat) (x : St) : Srv := ⟨s.endpts.set i x.1, x.2, s.idle⟩

/-- Find the endpoint of a node and change it (`nc_server_config_get_endpt`, src/server_config.c:138-163). -/
def withEndpt (path : List Anc) (s : Srv) (f : St → Res St) : Res Srv :=
  match (keyOr path .endpoint).bind (fun k => s.endpts.findIdx? (fun e => e.name == k)) with
  | none => .fail s
  | some i =>
    match s.endpts[i]? with
    | none => .fail s
    | some e =>
      match f (e, s.net) with
      | .ok x => .ok (put s i x)
      | .fail x => .fail (put s i x)
      | .ub => .ub

/-- Deletion of the endpoint at `i` (src/server_config.c:1146-1168, 719-739, 851-872). -/
def delEndpt (s : Srv) (i : Nat) (e : Endpt) : Res Srv :=
  match e.ti with
  | none => .fail s
  | some t =>
    match delOpts t (e, s.net) with
    | .ok x => .ok ⟨swapDel s.endpts i, x.2, s.idle⟩
    | .fail _ => .fail s
    | .ub => .ub

/-- `nc_server_config_endpoint` (src/server_config.c:1125-1168). -/
def endpoint (path : List Anc) (op : Op) (s : Srv) : Res Srv :=
  if op = .create then
    match ownKey path with
    | .found k => .ok { s with endpts := s.endpts ++ [newEndpt k] }
    | .missing => .fail s
    | .bad => .ub
  else if op = .delete then
    match (keyOr path .endpoint).bind (fun k => s.endpts.findIdx? (fun e => e.name == k)) with
    | none => .fail s
    | some i =>
      match s.endpts[i]? with
      | none => .fail s
      | some e => delEndpt s i e
  else .ok s

/-- Has the node a callback that looks for the endpoint (src/server_config.c:3846-3957). -/
def ofEndpt : Label → Bool
  | .ssh | .tls | .localAddress | .localPort | .keepalives | .idleTime | .maxProbes | .probeInterval => true
  | _ => false

/-- `nc_server_config_parse_netconf_server` for the nodes in the container `listen` (src/server_config.c:3846-3957; idle timeout:
1049-1081). The callback for `listen` itself, which removes all endpoints on deletion, is not here (see C25). -/
def srvCb (env : Env) (path : List Anc) (v : Nat) (op : Op) (s : Srv) : Res Srv :=
  match path.head?.map Anc.label with
  | some .endpoint => endpoint path op s
  | some .idleTimeout => .ok { s with idle := if setting op then v else 180 }
  | some l => if ofEndpt l then withEndpt path s (endptCb env path v op) else .ok s
  | none => .ok s

/-- Several diffs, one after another (`nc_server_config_setup_diff`, src/server_config.c:4368-4421). -/
def diffs (env : Env) : List Tree → Srv → Res Srv
  | [], s => .ok s
  | t :: ts, s =>
    match parse (srvCb env) .unknown [] s t with
    | .ok s1 => diffs env ts s1
    | r => r

/-- A server without endpoints (src/session_server.c:54-58). -/
def start : Srv := ⟨[], ⟨[], 0⟩, 180⟩

/-- Whole data, then diffs (`nc_server_config_setup_data`, src/server_config.c:4423-4502). -/
def run (env : Env) (t : Tree) (ts : List Tree) : Res Srv :=
  match parse (srvCb env) .create [] start t with
  | .ok s => diffs env ts s
  | r => r

end Verif.ConfEndpt
