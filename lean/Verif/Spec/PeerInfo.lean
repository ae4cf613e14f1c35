import Verif.Model.PeerInfo

/-!
# What is expected of addresses and of what a session tells about its peer
-/

namespace Verif.PeerInfo

/-- How many addresses there are in a family. -/
def Fam.size : Fam → Nat
  | .v4 => 2 ^ 32
  | .v6 => 2 ^ 128

/-- The C library writes and reads addresses as documented: what is written can be read and fits the buffer sizes the library defines, IPv6 addresses are
those with a colon, zones are not read, the addresses that stand for all addresses are number 0. -/
structure Lib.Good (L : Lib) : Prop where
  round : ∀ f n, n < f.size → L.pton f (L.text f n) = some n
  short4 : ∀ n, n < 2 ^ 32 → (L.text .v4 n).length ≤ 15
  short6 : ∀ n, n < 2 ^ 128 → (L.text .v6 n).length ≤ 45
  range : ∀ f t n, L.pton f t = some n → n < f.size
  colon4 : ∀ t n, L.pton .v4 t = some n → ':' ∉ t
  colon6 : ∀ t n, L.pton .v6 t = some n → ':' ∈ t
  noZone : ∀ f t n, L.pton f t = some n → '%' ∉ t
  any4 : L.pton .v4 "0.0.0.0".toList = some 0
  any6 : L.pton .v6 "::".toList = some 0
  empty : ∀ f, L.pton f [] = none

/-- The port in a socket address: network byte order. -/
def portOf (a : Inet) : Nat := 256 * a.port.1 + a.port.2

/-- A socket address as it may be. -/
def Inet.Ok (a : Inet) : Prop := a.num < a.fam.size ∧ a.port.1 < 256 ∧ a.port.2 < 256 ∧ (a.fam = .v4 → a.scope = 0)

/-- The session tells the address and the port of the peer. -/
def Tells (L : Lib) (s : Sess) (a : Inet) : Prop := getHost s = some (L.text a.fam a.num) ∧ getPort s = portOf a

/-- The ways SSH and TLS sessions come about, with the socket address at the other end of the connection: accepted by a server, made by a client,
made by a server that calls home, at once or with a socket that was pending (with a number that is allowed by `fdOk`), accepted by a client that is
called home, and further sessions of an SSH session. -/
inductive Made (L : Lib) (resolve : Text → List Inet) (fdOk : Nat → Prop) : Sess → Inet → Prop where
  | accepted (ti own a s) : ti ≠ .unix → a.Ok → accept L ti own (.inet a) = some s → Made L resolve fdOk s a
  | ssh (host port pick a s) : port < 65536 → connectSsh L resolve host port pick = some (a, s) → Made L resolve fdOk s a
  | tls (host port pick a s) : port < 65536 → connectTls L resolve host port pick = some (a, s) → Made L resolve fdOk s a
  | libssh (port pick a s) : port < 65536 → connectLibssh L resolve none port pick = some (some a, s) → Made L resolve fdOk s a
  | home (ti dst port pick c) : port < 65536 → sockConnect L resolve dst port pick = some c → Made L resolve fdOk (connectCh ti port c) c.1
  | pending (ti port fd a c) : a.Ok → portOf a = port → fdOk fd → sockPending L fd a = some c → Made L resolve fdOk (connectCh ti port c) a
  | called (ti a s) : a.Ok → acceptCallHome L ti (.inet a) = .ok (some s) → Made L resolve fdOk s a
  | channel (s s' a) : Made L resolve fdOk s a → newChannel s = .ok s' → Made L resolve fdOk s' a

/-- Names are looked up as addresses that can be. -/
def Resolver (resolve : Text → List Inet) : Prop := ∀ t a, a ∈ resolve t → a.Ok

/-- Full claim: SSH and TLS sessions tell the address and port of their peers. -/
def TellsPeer : Prop := ∀ (L : Lib) (resolve : Text → List Inet) (s : Sess) (a : Inet), L.Good → Resolver resolve →
  Made L resolve (fun _ => True) s a → Tells L s a

/-- Full claim: from what a session tells it is clear who the peer is. -/
def TellsApart : Prop := ∀ (L : Lib) (resolve : Text → List Inet) (s : Sess) (a b : Inet), L.Good → Resolver resolve → a.Ok → b.Ok →
  Made L resolve (fun fd => fd ≠ 0) s a → Made L resolve (fun fd => fd ≠ 0) s b → a = b

/-- Full claim: a second session in an SSH session does no harm. -/
def ChannelSafe : Prop := ∀ (L : Lib) (resolve : Text → List Inet) (s : Sess) (a : Inet), L.Good → Resolver resolve →
  Made L resolve (fun _ => True) s a → newChannel s ≠ .ub

/-- Full claim: sessions over a UNIX socket tell its path, on the side of the client and of the server. -/
def TellsPath : Prop := (∀ p : Text, getPath (connectUnix p) = some p) ∧
  ∀ (L : Lib) (own : Text) (s : Sess), accept L .unix own .unix = some s → getPath s = some own

/-- The numbers of open sockets are not used again. -/
def Fresh (w : World) : Prop := ∀ s ∈ w.socks, s.fd < w.next

/-- The operating system grants all calls. -/
def Granting (e : Env) : Prop := (∀ f, e.socketOk f = true) ∧ e.reuseOk = true ∧ e.nodelayOk = true ∧ e.flagsOk = true ∧ (∀ a, e.bindOk a = true) ∧
  e.listenOk = true ∧ ∀ a, e.connectOk a = true

/-- A text of the YANG type `ip-address`: an address, maybe with a zone. -/
def IpAddress (L : Lib) (t : Text) : Prop := ∃ f n a z, L.pton f a = some n ∧ t = a ++ z ∧ (z = [] ∨ ∃ r, r ≠ [] ∧ z = '%' :: r)

/-- Full claim: one can listen at all IP addresses. -/
def ListensAnywhere : Prop := ∀ (L : Lib) (e : Env) (w : World) (t : Text) (port : Nat), L.Good → Granting e → Fresh w → IpAddress L t → port < 65536 →
  (listenInet L e w t port).2.isSome = true

end Verif.PeerInfo
