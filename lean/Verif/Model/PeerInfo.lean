/-!
# Addresses: listening, connecting, and what a session tells about its peer (src/session_server.c, src/session_client.c, src/session_client_ssh.c,
src/session_client_tls.c, src/session.c)

Texts are lists of characters. The number of an IP address is a natural number; ports in socket addresses are two bytes as they are in memory. What the
operating system grants is a parameter, and so are the functions of the C library that write and read addresses and look up names. Sockets are
numbered in the order in which they are opened; numbers are not used again. Memory does not run out.
-/

namespace Verif.PeerInfo

/-- A text (src/session_p.h:726). -/
abbrev Text := List Char

/-- Outcome: undefined behaviour or a value (src/session_client_ssh.c:1924). -/
inductive Res (α : Type) where
  | ub
  | ok (a : α)
  deriving DecidableEq, Repr

/-- Families AF_INET and AF_INET6 (src/session_server.c:342). -/
inductive Fam where
  | v4
  | v6
  deriving DecidableEq, Repr

/-- `struct sockaddr_in`, `struct sockaddr_in6` (src/session_server.c:279-280): family, address, zone (0 for none) and the two bytes of the port. -/
structure Inet where
  fam : Fam
  num : Nat
  scope : Nat
  port : Nat × Nat
  deriving DecidableEq, Repr

/-- A socket address of any family (src/session_server.c:617-633). -/
inductive SAddr where
  | unix
  | inet (a : Inet)
  | other
  deriving DecidableEq, Repr

/-- The C library: `text` is what `inet_ntop` writes, given space, `pton` is `inet_pton` (src/session_server.c:295, 489). -/
structure Lib where
  text : Fam → Nat → Text
  pton : Fam → Text → Option Nat

/-- `htons`: the bytes in memory (src/session_server.c:288, 309). -/
def htons (p : Nat) : Nat × Nat := (p / 256 % 256, p % 256)

/-- `ntohs` (src/session_server.c:496, 522). -/
def ntohs (b : Nat × Nat) : Nat := b.1 * 256 + b.2

/-- `inet_ntop` with a buffer of `size` bytes (src/session_server.c:489, 515, src/session_client.c:1578). -/
def ntop (L : Lib) (f : Fam) (n : Nat) (size : Nat) : Option Text :=
  if (L.text f n).length < size then some (L.text f n) else none

/-- INET_ADDRSTRLEN and INET6_ADDRSTRLEN (src/session_server.c:486, 512). -/
def strLen : Fam → Nat
  | .v4 => 16
  | .v6 => 46

/-! ## Sockets -/

/-- A socket (src/session_server.c:331-376): number, family, SO_REUSEADDR, TCP_NODELAY, the address it is bound to, whether it listens, the address
it is connected to. -/
structure Sock where
  fd : Nat
  fam : Fam
  reuse : Bool
  nodelay : Bool
  bound : Option Inet
  listening : Bool
  peer : Option Inet
  deriving DecidableEq, Repr

/-- Open sockets and the number of the next one (src/session_server.c:342). -/
structure World where
  socks : List Sock
  next : Nat
  deriving DecidableEq, Repr

/-- Which calls the operating system grants (src/session_server.c:342-369, src/session_client.c:1620-1652). -/
structure Env where
  socketOk : Fam → Bool
  reuseOk : Bool
  nodelayOk : Bool
  flagsOk : Bool
  bindOk : Inet → Bool
  listenOk : Bool
  connectOk : Inet → Bool

/-- `socket` (src/session_server.c:342, src/session_client.c:1620): the new socket is the first one. -/
def socket (w : World) (f : Fam) : World := ⟨⟨w.next, f, false, false, none, false, none⟩ :: w.socks, w.next + 1⟩

/-- A change of the socket `fd` (src/session_server.c:350-366). -/
def upd (w : World) (fd : Nat) (g : Sock → Sock) : World := { w with socks := w.socks.map (fun s => if s.fd = fd then g s else s) }

/-- `close` (src/session_server.c:372, src/session_client.c:1704). -/
def close (w : World) (fd : Nat) : World := { w with socks := w.socks.filter (fun s => s.fd ≠ fd) }

/-- The call `bind` (src/session_server.c:300, 321): the address must be of the family of the socket. -/
def bindCall (e : Env) (w : World) (fd : Nat) (a : Inet) : Option World :=
  if w.socks.any (fun s => s.fd == fd && s.fam == a.fam) && e.bindOk a then some (upd w fd (fun s => { s with bound := some a })) else none

/-- `nc_sock_bind_inet` (src/session_server.c:276-328). -/
def bindInet (L : Lib) (e : Env) (w : World) (fd : Nat) (address : Option Text) (port : Nat) (isIpv4 : Bool) : Option World :=
  if isIpv4 then
    match L.pton .v4 (address.getD ['0', '.', '0', '.', '0', '.', '0']) with
    | none => none
    | some n => bindCall e w fd ⟨.v4, n, 0, htons port⟩
  else
    match L.pton .v6 (address.getD [':', ':']) with
    | none => none
    | some n => bindCall e w fd ⟨.v6, n, 0, htons port⟩

/-- `nc_sock_listen_inet` (src/session_server.c:331-376): the world and the socket, if it succeeds. -/
def listenInet (L : Lib) (e : Env) (w : World) (address : Text) (port : Nat) : World × Option Nat :=
  let isIpv4 := !address.contains ':'
  let f : Fam := if isIpv4 then .v4 else .v6
  if !e.socketOk f then (w, none)
  else
    let w1 := socket w f
    if !e.reuseOk then (close w1 w.next, none)
    else
      let w2 := upd w1 w.next (fun s => { s with reuse := true })
      if !e.nodelayOk then (close w2 w.next, none)
      else
        let w3 := upd w2 w.next (fun s => { s with nodelay := true })
        match bindInet L e w3 w.next (some address) port isIpv4 with
        | none => (close w3 w.next, none)
        | some w4 =>
          if !e.listenOk then (close w4 w.next, none)
          else (upd w4 w.next (fun s => { s with listening := true }), some w.next)

/-- The call `connect`, `true` also stands for EINPROGRESS (src/session_client.c:1646-1652): the address must be of the family of the socket. -/
def connectCall (e : Env) (w : World) (fd : Nat) (a : Inet) : Option World :=
  if w.socks.any (fun s => s.fd == fd && s.fam == a.fam) && e.connectOk a then some (upd w fd (fun s => { s with peer := some a })) else none

/-- `nc_saddr2str` (src/session_client.c:1556-1585). -/
def saddr2str (L : Lib) (a : Inet) : Option (Text × Nat) :=
  (ntop L a.fam a.num (strLen a.fam)).map (fun t => (t, ntohs a.port))

/-- Starting the connection in `sock_connect`, without a pending socket (src/session_client.c:1612-1652, 1700-1705): the world and the socket. -/
def startConnect (L : Lib) (e : Env) (w : World) (srcAddr : Option Text) (srcPort : Nat) (res : Inet) : World × Option Nat :=
  match saddr2str L res with
  | none => (w, none)
  | some _ =>
    if !e.socketOk res.fam then (w, none)
    else
      let w1 := socket w res.fam
      if !e.flagsOk then (close w1 w.next, none)
      else if srcAddr.isSome || srcPort ≠ 0 then
        if !e.reuseOk then (close w1 w.next, none)
        else
          let w2 := upd w1 w.next (fun s => { s with reuse := true })
          match bindInet L e w2 w.next srcAddr srcPort (res.fam == .v4) with
          | none => (close w2 w.next, none)
          | some w3 =>
            match connectCall e w3 w.next res with
            | none => (close w3 w.next, none)
            | some w4 => (w4, some w.next)
      else
        match connectCall e w1 w.next res with
        | none => (close w1 w.next, none)
        | some w4 => (w4, some w.next)

/-! ## Names and ports -/

/-- `snprintf(dst_port_str, 6, "%u", dst_port)` (src/session_client.c:1726). -/
def portText (p : Nat) : Text := (Nat.toDigits 10 p).take 5

/-- `getaddrinfo` (src/session_client.c:1731): the addresses of the name with the port written in the other text. -/
def getaddrinfo (resolve : Text → List Inet) (host service : Text) : List Inet :=
  (resolve host).map (fun a => { a with port := htons (service.foldl (fun n c => 10 * n + (c.toNat - '0'.toNat)) 0) })

/-- `nc_sock_connect` without a pending socket (src/session_client.c:1708-1765): the address that was connected, `pick` says which one, and `ip_host`. -/
def sockConnect (L : Lib) (resolve : Text → List Inet) (host : Text) (port : Nat) (pick : Nat) : Option (Inet × Option Text) :=
  match (getaddrinfo resolve host (portText port))[pick]? with
  | none => none
  | some a => (saddr2str L a).map (fun x => (a, some x.1))

/-- `nc_sock_connect` with a pending socket that is now connected to `peer` (src/session_client.c:1768-1783). -/
def sockPending (L : Lib) (fd : Nat) (peer : Inet) : Option (Inet × Option Text) :=
  if 0 < fd then (saddr2str L peer).map (fun x => (peer, some x.1)) else some (peer, none)

/-! ## Sessions -/

/-- Transports (src/session.h:87-97). -/
inductive Ti where
  | ssh
  | tls
  | unix
  deriving DecidableEq, Repr

/-- What a session stores about its peer (src/session_p.h:722-728). -/
structure Sess where
  ti : Ti
  host : Option Text
  port : Nat
  path : Option Text
  deriving DecidableEq, Repr

/-- `nc_session_get_host` (src/session.c:584-589). -/
def getHost (s : Sess) : Option Text := s.host

/-- `nc_session_get_port` (src/session.c:604-609). -/
def getPort (s : Sess) : Nat := s.port

/-- `nc_session_get_path` (src/session.c:592-601). -/
def getPath (s : Sess) : Option Text := if s.ti ≠ .unix then none else s.path

/-- `sock_host_inet` (src/session_server.c:483-499). -/
def sockHostInet (L : Lib) (a : Inet) : Option (Option Text × Nat) := (ntop L .v4 a.num 16).map (fun t => (some t, ntohs a.port))

/-- `sock_host_inet6` (src/session_server.c:509-525). -/
def sockHostInet6 (L : Lib) (a : Inet) : Option (Option Text × Nat) := (ntop L .v6 a.num 46).map (fun t => (some t, ntohs a.port))

/-- What `nc_sock_accept_binds` reports about a connection (src/session_server.c:616-645); `own` is the path `getsockname` gives for the socket
(src/session_server.c:448-473). -/
def acceptInfo (L : Lib) (own : Text) : SAddr → Option (Option Text × Nat)
  | .unix => some (some own, 0)
  | .inet a =>
    match a.fam with
    | .v4 => sockHostInet L a
    | .v6 => sockHostInet6 L a
  | .other => none

/-- `nc_accept` for an endpoint with the transport `ti` (src/session_server.c:2520-2575, 2338-2340); all else succeeds. -/
def accept (L : Lib) (ti : Ti) (own : Text) (sa : SAddr) : Option Sess :=
  (acceptInfo L own sa).map (fun x => ⟨ti, x.1, x.2, none⟩)

/-- `nc_connect_ch_endpt` after `nc_sock_connect` (src/session_server.c:2723-2730); all else succeeds. -/
def connectCh (ti : Ti) (dstPort : Nat) (c : Inet × Option Text) : Sess := ⟨ti, c.2, dstPort, none⟩

/-- The host and port that are used if none are given (src/session_client_ssh.c:1770-1776, src/session_client_tls.c:379-385). -/
def defaults (dflt : Nat) (host : Option Text) (port : Nat) : Text × Nat :=
  (match host with
   | none => ['l', 'o', 'c', 'a', 'l', 'h', 'o', 's', 't']
   | some [] => ['l', 'o', 'c', 'a', 'l', 'h', 'o', 's', 't']
   | some h => h,
   if port = 0 then dflt else port)

/-- `nc_connect_ssh` (src/session_client_ssh.c:1758-1864): the address connected and the session; all else succeeds. -/
def connectSsh (L : Lib) (resolve : Text → List Inet) (host : Option Text) (port : Nat) (pick : Nat) : Option (Inet × Sess) :=
  let d := defaults 830 host port
  (sockConnect L resolve d.1 d.2 pick).map (fun c => (c.1, ⟨.ssh, c.2, d.2, none⟩))

/-- `nc_connect_tls` (src/session_client_tls.c:362-435): the address connected and the session; all else succeeds. -/
def connectTls (L : Lib) (resolve : Text → List Inet) (host : Option Text) (port : Nat) (pick : Nat) : Option (Inet × Sess) :=
  let d := defaults 6513 host port
  (sockConnect L resolve d.1 d.2 pick).map (fun c => (c.1, ⟨.tls, c.2, d.2, none⟩))

/-- `_nc_connect_libssh` (src/session_client_ssh.c:1632-1755): host and port are those of the libssh session; without a host it connects to the local
host. The address is only known if the connection is made here. All else succeeds. -/
def connectLibssh (L : Lib) (resolve : Text → List Inet) (host : Option Text) (port : Nat) (pick : Nat) : Option (Option Inet × Sess) :=
  match host with
  | some h => some (none, ⟨.ssh, some h, port, none⟩)
  | none =>
    (sockConnect L resolve ['l', 'o', 'c', 'a', 'l', 'h', 'o', 's', 't'] port pick).map (fun c => (some c.1, ⟨.ssh, c.2, port, none⟩))

/-- `nc_accept_callhome_ssh_sock` (src/session_client_ssh.c:1936-1995): libssh gives back the host and the port that were set. -/
def callHomeSsh (L : Lib) (host : Option Text) (port : Nat) : Option Sess :=
  match host with
  | none => none
  | some h => (connectLibssh L (fun _ => []) (some h) port 0).map Prod.snd

/-- `nc_accept_callhome_tls_sock` (src/session_client_tls.c:446-495): `strdup` of the host. -/
def callHomeTls (host : Option Text) (port : Nat) : Res Sess :=
  match host with
  | none => .ub
  | some h => .ok ⟨.tls, some h, port, none⟩

/-- `nc_accept_callhome` (src/session_client.c:1892-1937); `none` is no session. -/
def acceptCallHome (L : Lib) (ti : Ti) (sa : SAddr) : Res (Option Sess) :=
  match acceptInfo L [] sa with
  | none => .ok none
  | some x =>
    match ti with
    | .ssh => .ok (callHomeSsh L x.1 x.2)
    | .tls =>
      match callHomeTls x.1 x.2 with
      | .ub => .ub
      | .ok s => .ok (some s)
    | .unix => .ok none

/-- `nc_connect_unix` (src/session_client.c:1467-1544); all else succeeds. -/
def connectUnix (address : Text) : Sess := ⟨.unix, none, 0, some address⟩

/-- Another session in the same SSH session, on the client with `nc_connect_ssh_channel` (src/session_client_ssh.c:1873-1933) and on the server
(src/session_server_ssh.c:1405-1427): `strdup` of the host. -/
def newChannel (s : Sess) : Res Sess :=
  match s.host with
  | none => .ub
  | some h => .ok ⟨.ssh, some h, s.port, none⟩

end Verif.PeerInfo
