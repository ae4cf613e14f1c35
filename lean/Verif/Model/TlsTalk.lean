import Verif.Model.ClientTls
import Verif.Model.TlsLogin
import Verif.Model.ServerId

/-!
# A client and a server of this library authenticating over TLS

The client of `Verif.ClientTls` (src/session_client_tls.c) with the server of `Verif.TlsLogin` and `Verif.ServerId` (src/session_server_tls.c) on the other side
of the connection. Certificates have the same numbers on both sides, and the key of a certificate has its number too. Simplified: the TLS libraries carry their
messages without loss and in time; an owner of a key proves it, others cannot.
-/

namespace Verif.TlsTalk
open Verif.TransCfg (Lib)
open Verif.ConfStore (Ks Ts)
open Verif.TlsLogin (End Out)
open Verif.TlsAuth (Text Sess MEv)

/-- What is outside of both sides: a certificate by its number as the client sees it (src/session_openssl.c:652) and as the server sees it (src/session.c:141-157), further
certificates the TLS library sends behind that of the server and behind that of the client, and what the library of the server does with the certificates of a client,
by their numbers, given the trusted ones (src/session_openssl.c:290-383, src/session_mbedtls.c:508-581). -/
structure World where
  real : Nat → ClientTls.Cert
  seen : Nat → TlsAuth.Cert
  more : Nat → List ClientTls.Cert
  clientMore : Nat → List Nat
  ossl : List Nat → List TlsAuth.Cert → TlsLogin.Handshake
  mbedPre : List Nat → List TlsAuth.Cert → List MEv
  mbedLast : List Nat → List TlsAuth.Cert → MEv

/-- A server with one endpoint and the one it refers to (src/session_server_tls.c:793-943): meanings of values, keystore, truststore, whether everything else succeeds,
what the application says about users. -/
structure Server where
  vals : TlsLogin.Vals
  idVals : ServerId.Vals
  ks : Ks
  ts : Ts
  own : End
  ref : Option (Option End)
  up : Bool
  userOk : Text → Bool

/-- Up to the handshake (src/session_server_tls.c:814-905): memory is used that is not there, the connection is closed, or certificate and key are shown. OpenSSL refuses a
key that is not that of the certificate (src/session_openssl.c:761-799). -/
def Server.ready (s : Server) (lib : Lib) (w : World) : Option (Option (Nat × Nat)) :=
  match ServerId.loadServer s.idVals s.ks s.own.tls.id with
  | .ub => none
  | .refused => some none
  | .shown c k =>
    match TlsLogin.prepare s.vals s.ts s.own s.ref s.up with
    | none => none
    | some none => some none
    | some (some _) => if ClientTls.keyFits lib (w.real c.id) k then some (some (c.id, k)) else some none

/-- The server as the client sees it (src/session_server_tls.c:888-919): nothing is shown if the connection is closed. -/
def Server.peer (s : Server) (lib : Lib) (w : World) : ClientTls.Peer :=
  match s.ready lib w with
  | some (some (c, k)) => ⟨w.real c :: w.more c, fun n => n == k, true⟩
  | _ => ⟨[], fun _ => false, false⟩

/-- The server verifies a client that shows these certificates and has proved that it owns the key of the first one (src/session_server_tls.c:907-922). -/
def Server.verify (s : Server) (lib : Lib) (w : World) (shown : List Nat) : Out :=
  match lib with
  | .openssl => TlsLogin.acceptOpenssl s.vals s.ts s.own s.ref s.up s.userOk (w.ossl shown)
  | .mbedtls => TlsLogin.acceptMbedtls s.vals s.ts s.own s.ref s.up s.userOk (fun S => w.mbedPre shown S ++ [w.mbedLast shown S])

/-- How the connection came about: the client has called `nc_connect_tls` (src/session_client_tls.c:361-436), or the server has called the client at a bind
(src/session_client.c:1920-1928, src/session_server.c:2695-2787). -/
inductive Way where
  | direct (host : Option Text)
  | home (b : ClientTls.Bind)

/-- The client on this way, up to its TLS session (src/session_client_tls.c:361-403, 445-462). -/
def Way.client (way : Way) (lib : Lib) (x : ClientTls.Ext) (d : ClientTls.Disk) (o : ClientTls.Opts) (peer : ClientTls.Peer) : Except Crl.Fault (Option ClientTls.Sess) :=
  match way with
  | .direct host => ClientTls.connectTls lib x d o host peer
  | .home b => ClientTls.acceptCallHome lib x d o b peer

/-- The TLS handshake: the session of the client after `nc_client_tls_session_new` (src/session_client_tls.c:259-359) and the result of `nc_accept_tls_session`
(src/session_server_tls.c:793-943). The client verifies the server first. With TLS 1.3 it is done then, with TLS 1.2 it waits for the server. -/
def layer (cl sl : Lib) (v13 : Bool) (w : World) (x : ClientTls.Ext) (d : ClientTls.Disk) (o : ClientTls.Opts) (way : Way) (s : Server) :
    Except Crl.Fault (Option ClientTls.Sess × Out) :=
  match way.client cl x d o (s.peer sl w) with
  | .error f => .error f
  | .ok none => .ok (none, if s.ready sl w = none then .ub else .refused)
  | .ok (some c) =>
    match (if c.key = c.cert.id then s.verify sl w (c.cert.id :: w.clientMore c.cert.id) else .refused) with
    | .session t => .ok (some c, .session t)
    | .refused => .ok (if v13 then some c else none, .refused)
    | .ub => .ok (if v13 then some c else none, .ub)

/-- `nc_connect_tls` and `nc_accept`, or `nc_accept_callhome_tls_sock` and `nc_connect_ch_endpt`, with the exchange of hello messages (src/session_client_tls.c:414-417, 472-475,
src/session_server.c:2584-2593, 2763-2769), whose results for both sides are
given: a server that has refused the client sends no hello. -/
def connect (cl sl : Lib) (v13 : Bool) (w : World) (x : ClientTls.Ext) (d : ClientTls.Disk) (o : ClientTls.Opts) (way : Way) (s : Server)
    (hello : Bool × Bool) : Except Crl.Fault (Option ClientTls.Sess × Option Sess) :=
  match layer cl sl v13 w x d o way s with
  | .error f => .error f
  | .ok (some c, .session t) => .ok (if hello.1 then some c else none, if hello.2 then some t else none)
  | .ok _ => .ok (none, none)

end Verif.TlsTalk
