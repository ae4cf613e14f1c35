import Verif.Model.ConfTls
import Verif.Model.TlsAuth

/-!
# From the configuration to TLS client authentication (src/session_server_tls.c:76-100, 482-579, 711-744, 775-943)

`ConfTls`, `ConfStore` and `Ctn` model what the callbacks of the configuration leave in memory, with numbers for the values in data. `TlsAuth` models the
verification with the certificates and cert-to-name entries given. Here they are read from the memory left by the configuration, and put before the
handshake as `nc_accept_tls_session` does. The configuration does not change meanwhile: `nc_accept` holds the configuration lock
(src/session_server.c:2509-2582, C183).
-/

namespace Verif.TlsLogin
open Verif.ConfStore (Ts)
open Verif.ConfTls (Tls Grp)
open Verif.TlsAuth (Cert MapType Endpt Opts Sess Ev MEv Text)

/-- Meaning of the values in data: texts of names and fingerprints; the certificate that the TLS library makes of Base64 text, `none` if it makes none
(`nc_base64der_to_cert`, src/session.c:141-157). -/
structure Vals where
  text : Nat → Text
  cert : Nat → Option Cert

/-- An endpoint in memory: `struct nc_server_tls_opts` (src/session_p.h:256-282), the cert-to-name entries apart. -/
structure End where
  tls : Tls
  ctn : List Ctn.Ctn

/-- The certificates of an array or of the bag it names (src/session_server_tls.c:526-540, 717-731, `nc_server_tls_truststore_ref_get_certs`, 76-100): `none` if
memory is used that is no array or no name, `some none` if there is no such bag. -/
def certsOf (v : Vals) (ts : Ts) (g : Grp) : Option (Option (List (Option Cert))) :=
  match g.trust with
  | none => none
  | some (.certs l) => some (some (l.map (fun c => c.data.bind v.cert)))
  | some (.bag n) => some ((ts.certBags.find? (fun b => decide (v.text b.name = v.text n))).map (fun b => b.certs.map (fun c => c.data.bind v.cert)))

/-- Map types of the entries by their number (src/server_config.c:3201-3224). -/
def mapType : Nat → MapType
  | 0 => .specified
  | 1 => .rfc822
  | 2 => .dns
  | 3 => .ip
  | 4 => .any
  | 5 => .commonName
  | _ => .unknown

/-- An entry as seen by the verification (src/session_server_tls.c:489-490, 505-506). -/
def entry (v : Vals) (c : Ctn.Ctn) : TlsAuth.Ctn := ⟨c.fingerprint.map v.text, mapType c.mapType, c.name.map v.text⟩

/-- What the verification uses of an endpoint (src/session_server_tls.c:482-579). -/
def endOpts (v : Vals) (ts : Ts) (x : End) : Option Opts :=
  match certsOf v ts x.tls.ee with
  | none => none
  | some l => some ⟨l, x.ctn.map (entry v)⟩

/-- The endpoint and the referenced one: none, a missing one, or one that is there (src/session_server_tls.c:482-579). -/
def endpt (v : Vals) (ts : Ts) (own : End) : Option (Option End) → Option Endpt
  | none => (endOpts v ts own).map (fun o => ⟨o, none⟩)
  | some none => (endOpts v ts own).map (fun o => ⟨o, some none⟩)
  | some (some r) =>
    match endOpts v ts own, endOpts v ts r with
    | some o, some p => some ⟨o, some (some p)⟩
    | _, _ => none

/-- All certificates of the list, `none` if one could not be made (src/session_server_tls.c:729-741). -/
def allCerts : List (Option Cert) → Option (List Cert)
  | [] => some []
  | none :: _ => none
  | some c :: l => (allCerts l).map (c :: ·)

/-- `nc_server_tls_load_trusted_certs` (src/session_server_tls.c:710-744): `some none` is the result 1. -/
def loadTrusted (v : Vals) (ts : Ts) (g : Grp) : Option (Option (List Cert)) :=
  match certsOf v ts g with
  | none => none
  | some none => some none
  | some (some l) => some (allCerts l)

/-- The store of CA certificates (src/session_server_tls.c:827-844): `some none` for a refused connection. -/
def store (v : Vals) (ts : Ts) (own : End) (ref : Option (Option End)) : Option (Option (List Cert)) :=
  match loadTrusted v ts own.tls.ca with
  | none => none
  | some none => some none
  | some (some l) =>
    match ref with
    | none => some (some l)
    | some none => some none
    | some (some r) =>
      match loadTrusted v ts r.tls.ca with
      | none => none
      | some none => some none
      | some (some m) => some (some (l ++ m))

/-- `nc_server_tls_get_num_certs` (src/session_server_tls.c:775-791): the error -1 is returned as `uint16_t`. -/
def numCerts : Option (List (Option Cert)) → Nat
  | none => 65535
  | some l => l.length

/-- The number of end-entity certificates (src/session_server_tls.c:848-854). -/
def numEe (o : Endpt) : Nat :=
  numCerts o.own.ee + match o.ref with | some (some r) => numCerts r.ee | _ => 0

/-- Result of `nc_accept_tls_session` (src/session_server_tls.c:793-943): the connection is refused, memory is used that is not there, or the session. -/
inductive Out where
  | refused
  | ub
  | session (s : Sess)

/-- The steps before the handshake (src/session_server_tls.c:814-858); `up` tells whether everything else, like loading the key of the server, succeeds. The
CA certificates were counted when they were loaded. -/
def prepare (v : Vals) (ts : Ts) (own : End) (ref : Option (Option End)) (up : Bool) : Option (Option (List Cert × Endpt)) :=
  match store v ts own ref with
  | none => none
  | some none => some none
  | some (some l) =>
    match endpt v ts own ref with
    | none => none
    | some o => if l.length + numEe o = 0 then some none else if up then some (some (l, o)) else some none

/-- What a client and OpenSSL do, given the trusted CA certificates: the chain, the certificate of the client, the calls of the callback
(src/session_openssl.c:290-383). -/
structure Handshake where
  chain : List Cert
  peer : Cert
  evs : List Ev

/-- `nc_accept_tls_session` with OpenSSL (src/session_server_tls.c:793-943). -/
def acceptOpenssl (v : Vals) (ts : Ts) (own : End) (ref : Option (Option End)) (up : Bool) (userOk : Text → Bool) (hs : List Cert → Handshake) : Out :=
  match prepare v ts own ref up with
  | none => .ub
  | some none => .refused
  | some (some (l, o)) =>
    match TlsAuth.run o userOk (hs l).chain (hs l).peer ⟨none, none⟩ (hs l).evs with
    | none => .refused
    | some s => .session s

/-- `nc_accept_tls_session` with Mbed TLS (src/session_server_tls.c:793-943). -/
def acceptMbedtls (v : Vals) (ts : Ts) (own : End) (ref : Option (Option End)) (up : Bool) (userOk : Text → Bool) (hs : List Cert → List MEv) : Out :=
  match prepare v ts own ref up with
  | none => .ub
  | some none => .refused
  | some (some (l, o)) =>
    match TlsAuth.mRun o userOk [] ⟨none, none⟩ (hs l) with
    | none => .refused
    | some s => .session s

end Verif.TlsLogin
