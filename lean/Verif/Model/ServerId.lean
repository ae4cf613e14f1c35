import Verif.Model.ConfTls
import Verif.Model.HostKeys
import Verif.Model.TlsAuth

/-!
# From the configuration to the identity a client is shown (src/session_server_tls.c:38-74, 666-708, src/session_server_ssh.c:58-157, 1814-1860)

`ConfTls`, `ConfUsers` and `ConfStore` model what the callbacks of the configuration leave in memory, with numbers for the values in data. Here the private
key and the certificate of a TLS endpoint and the host keys of an SSH endpoint are read from this memory as it is done for every new connection, and given
to the libraries. Texts are compared by their numbers: two leaves have the same number exactly if they have the same text. The configuration does not
change meanwhile (src/session_server.c:2509-2582, C183).
-/

namespace Verif.ServerId
open Verif.ConfStore (Ks AsymKey)
open Verif.ConfTls (Ident Shown)
open Verif.TlsAuth (Cert)

/-- Meaning of the values in data: the certificate that the TLS library makes of Base64 text (`nc_base64der_to_cert`, src/session.c:141-157) and the private
key that it makes of a format and Base64 text (`nc_base64der_to_privkey`, src/session_server_tls.c:102-119), `none` if it makes none; the contents of the
file written for a format and Base64 text (src/session_server_ssh.c:82-101) and the type of the key that libssh reads from such a file (1842); is
Base64 text a SubjectPublicKeyInfo (src/session.c:176-205). -/
structure Vals where
  cert : Nat → Option Cert
  pkey : Nat → Nat → Option Nat
  file : Nat → Nat → Nat
  host : Nat → Option Nat
  spki : Nat → Bool

/-! ## TLS -/

/-- What the server shows to TLS clients: memory is used that is no name, connections are refused, or a certificate and its private key
(src/session_server_tls.c:666-708, 822-825). -/
inductive Out where
  | ub
  | refused
  | shown (cert : Cert) (key : Nat)

/-- `nc_server_tls_ks_ref_get_cert_key` (src/session_server_tls.c:38-74): format and data of the private key, certificate. -/
def ksCertKey (ks : Ks) (key cert : Nat) : Option (Nat × Option Nat × Option Nat) :=
  match ks.keys.find? (fun a => a.name == key) with
  | none => none
  | some a =>
    match a.certs.find? (fun c => c.name == cert) with
    | none => none
    | some c => some (a.privType, a.privData, c.data)

/-- The end of `nc_server_tls_load_server_cert_key` (src/session_server_tls.c:689-707). -/
def load (v : Vals) (fmt : Nat) (priv cert : Option Nat) : Out :=
  match cert, priv with
  | some c, some p =>
    match v.cert c with
    | none => .refused
    | some x =>
      match v.pkey fmt p with
      | none => .refused
      | some k => .shown x k
  | _, _ => .refused

/-- `nc_server_tls_load_server_cert_key` (src/session_server_tls.c:666-708). -/
def loadServer (v : Vals) (ks : Ks) (i : Ident) : Out :=
  match i.shown with
  | none => .ub
  | some (.own t p c) => load v t p c
  | some (.ref k c) =>
    match ksCertKey ks k c with
    | none => .refused
    | some (t, p, d) => load v t p d

/-! ## SSH -/

/-- The keystore as `nc_server_ssh_ks_ref_get_key` and the writing of the file see it (src/session_server_ssh.c:128-157, 1836). -/
def storeKeys (v : Vals) (ks : Ks) : List HostKeys.StoreKey :=
  ks.keys.map fun a => ⟨a.name, a.privData.map (v.file a.privType), a.pubData.any v.spki⟩

/-- A host key in memory; `none`: the name of the key in the keystore is NULL (src/session_server_ssh.c:1826-1836). -/
def hostKey (v : Vals) (h : ConfUsers.HostKey) : Option HostKeys.HostKey :=
  match h.priv with
  | none => none
  | some (.inl (t, p)) => some (.stored (p.map (v.file t)))
  | some (.inr n) => some (.ref n)

/-- `nc_ssh_bind_add_hostkeys` (src/session_server_ssh.c:1814-1860) with the host keys in memory; `none`: `strcmp` is called with NULL (137). -/
def bind (v : Vals) (ks : Ks) (e : Nat → HostKeys.Env) : Nat → List ConfUsers.HostKey → HostKeys.St → Option (Bool × HostKeys.St)
  | _, [], s => some (true, s)
  | i, h :: hs, s =>
    match hostKey v h with
    | none => none
    | some k =>
      match HostKeys.addOne v.host (storeKeys v ks) (e i) k s with
      | (false, s1) => some (false, s1)
      | (true, s1) => bind v ks e (i + 1) hs s1

end Verif.ServerId
