import Verif.Model.ConfTls

/-!
# Parameters of the transport given to the libraries (src/session_server_tls.c:809-900, src/session_client_tls.c:268-310, src/session_openssl.c,
src/session_mbedtls.c, src/session_server_ssh.c:1911-1962)

The configuration object of the TLS library has limits of versions, cipher suites and the check of the peer. That `mbedtls_ssl_config_defaults`
sets limits and cipher suites to those of the library, and for a client the check of the peer, is in the documentation of Mbed TLS ("Load reasonable
default SSL configuration values"). Which algorithm is used for a direction is chosen as in RFC 4253, section 7.1.
-/

namespace Verif.TransCfg

/-- The TLS libraries (CMakeLists.txt:236-243). -/
inductive Lib where
  | openssl
  | mbedtls
  deriving DecidableEq, Repr

/-- Sides (src/session_p.h:658-661). -/
inductive Side where
  | client
  | server
  deriving DecidableEq, Repr

/-- Configuration object of a TLS library (src/session_openssl.c:66-84, src/session_mbedtls.c:225-235): limits of versions, cipher suites for TLS 1.2 and lower and for TLS 1.3,
`none` is what the library does itself; must the peer have a certificate that is trusted, and is the callback for cert-to-name set. -/
structure Cfg where
  limits : Option Nat × Option Nat := (none, none)
  ciphers : Option (List Nat) := none
  ciphers13 : Option (List Nat) := none
  verify : Bool := false
  callback : Bool := false
  deriving DecidableEq, Repr

/-- What the library supports (src/session_openssl.c:66, src/session_mbedtls.c:225): versions and cipher suites, which are enabled by default, and which
lists of cipher suites OpenSSL takes for TLS 1.2 and lower and for TLS 1.3 (src/session_openssl.c:1430-1433). -/
structure Support where
  version : Nat → Bool
  cipher : Nat → Bool
  defVersion : Nat → Bool
  defCipher : Nat → Bool
  takes : List Nat → Bool
  takes13 : List Nat → Bool

/-- `nc_server_tls_set_tls_versions_wrap` if versions are configured (src/session_server_tls.c:866-871, src/session_openssl.c:246-282,
src/session_mbedtls.c:418-441). A limit that is not set stays. -/
def setVersions (lib : Lib) (m : BitVec 32) (c : Cfg) : Cfg :=
  if m = 0 then c
  else
    let r := match lib with | .openssl => ConfTls.opensslRange m | .mbedtls => ConfTls.mbedRange m
    { c with limits := (r.1.or c.limits.1, r.2.or c.limits.2) }

/-- `nc_server_tls_set_cipher_suites_wrap` if there are any (src/session_server_tls.c:873-876, src/session_openssl.c:1427-1434,
src/session_mbedtls.c:1881-1885). The results of the two calls of OpenSSL are not looked at; one that fails changes nothing. -/
def setCiphers (lib : Lib) (s : Support) (cs : Option (List Nat)) (c : Cfg) : Cfg :=
  match cs, lib with
  | none, _ => c
  | some l, .openssl =>
    { c with ciphers := if s.takes l = true then some l else c.ciphers, ciphers13 := if s.takes13 l = true then some l else c.ciphers13 }
  | some l, .mbedtls => { c with ciphers := some l, ciphers13 := some l }

/-- `nc_server_tls_set_verify_wrap`, `nc_client_tls_set_verify_wrap` (src/session_openssl.c:384-396, src/session_mbedtls.c:583-594). -/
def setVerify (side : Side) (c : Cfg) : Cfg :=
  match side with
  | .server => { c with verify := true, callback := true }
  | .client => { c with verify := true }

/-- `mbedtls_ssl_config_defaults` (src/session_mbedtls.c:1078-1082). -/
def defaults (side : Side) (c : Cfg) : Cfg :=
  match side with
  | .server => { c with limits := (none, none), ciphers := none, ciphers13 := none }
  | .client => { c with limits := (none, none), ciphers := none, ciphers13 := none, verify := true }

/-- `nc_tls_setup_config_from_ctx_wrap` (src/session_openssl.c:761-799, src/session_mbedtls.c:1073-1098). -/
def setup (lib : Lib) (side : Side) (c : Cfg) : Cfg :=
  match lib with
  | .openssl => c
  | .mbedtls => defaults side c

/-- The configuration with which `nc_accept_tls_session` does the handshake (src/session_server_tls.c:809-900). -/
def serverCfg (lib : Lib) (s : Support) (m : BitVec 32) (cs : Option (List Nat)) : Cfg :=
  setup lib .server (setVerify .server (setCiphers lib s cs (setVersions lib m {})))

/-- The configuration with which `nc_client_tls_session_new` does the handshake (src/session_client_tls.c:268-310). -/
def clientCfg (lib : Lib) : Cfg := setup lib .client (setVerify .client {})

/-- A version accepted in a handshake (src/session_server_tls.c:905-918). -/
def Cfg.version (s : Support) (c : Cfg) (v : Nat) : Bool :=
  if c.limits = (none, none) then s.defVersion v else s.version v && ConfTls.within c.limits v

/-- A cipher suite accepted in a handshake with version `v`, 3 is TLS 1.3 (src/session_server_tls.c:905-918). -/
def Cfg.cipher (s : Support) (c : Cfg) (v x : Nat) : Bool :=
  match if v = 3 then c.ciphers13 else c.ciphers with
  | none => s.defCipher x
  | some l => s.cipher x && l.contains x

/-- A handshake of the server (src/session_server_tls.c:905-918): `peer` is whether the client has a certificate that is trusted, with the chain and the
callback taken together. -/
def serverUp (lib : Lib) (s : Support) (m : BitVec 32) (cs : Option (List Nat)) (v x : Nat) (peer : Bool) : Bool :=
  (serverCfg lib s m cs).version s v && (serverCfg lib s m cs).cipher s v x && (!(serverCfg lib s m cs).verify || peer)

/-- A handshake of the client (src/session_client_tls.c:328-342). -/
def clientUp (lib : Lib) (s : Support) (v x : Nat) (peer : Bool) : Bool :=
  (clientCfg lib).version s v && (clientCfg lib).cipher s v x && (!(clientCfg lib).verify || peer)

/-! ## SSH -/

/-- Kinds of algorithms that are negotiated (RFC 4253, section 7.1; src/session_server_ssh.c:1942-1957). -/
inductive Kind where
  | kex
  | hostKey
  | cipherCS
  | cipherSC
  | macCS
  | macSC
  deriving DecidableEq, Repr

/-- The lists of algorithms of a server: `none` is not configured (src/session_p.h:212-215). -/
structure Algs where
  hostKey : Option (List Nat)
  encryption : Option (List Nat)
  kex : Option (List Nat)
  mac : Option (List Nat)
  deriving DecidableEq, Repr

/-- `ssh_bind_options_set` for a list of algorithms (src/session_server_ssh.c:1942-1957): unknown ones are left out, it fails if none is left. -/
def setAlgs (known : Kind → List Nat) (k : Kind) (l : Option (List Nat)) (b : Kind → List Nat) : Option (Kind → List Nat) :=
  match l with
  | none => some b
  | some l =>
    if l.filter (fun x => (known k).contains x) = [] then none
    else some (fun k' => if k' = k then l.filter (fun x => (known k).contains x) else b k')

/-- The algorithms that the server announces (src/session_server_ssh.c:1941-1958), beginning with those of libssh. -/
def bindAlgs (known defs : Kind → List Nat) (o : Algs) : Option (Kind → List Nat) :=
  match setAlgs known .hostKey o.hostKey defs with
  | none => none
  | some b1 =>
    match setAlgs known .cipherSC o.encryption b1 with
    | none => none
    | some b2 =>
      match setAlgs known .kex o.kex b2 with
      | none => none
      | some b3 => setAlgs known .macSC o.mac b3

/-- The algorithm chosen (RFC 4253, section 7.1; src/session_server_ssh.c:1973): the first one of the client that the server has. -/
def chosen (client server : List Nat) : Option Nat := client.find? (fun x => server.contains x)

/-- Key exchange (src/session_server_ssh.c:1941-1985): the algorithm of each kind, `none` if the session is refused. -/
def negotiate (known defs : Kind → List Nat) (o : Algs) (client : Kind → List Nat) (k : Kind) : Option Nat :=
  match bindAlgs known defs o with
  | none => none
  | some b => chosen (client k) (b k)

end Verif.TransCfg
