import Verif.Model.TransCfg
import Verif.Model.Crl

/-!
# The server as seen by a TLS client (src/session_client_tls.c:235-409, 445-470, src/session_openssl.c:637-815, src/session_mbedtls.c:987-1103)

Files with certificates and keys, the store of trusted certificates, revocation lists, the name of the server and the handshake, for both TLS libraries.
Certificates have numbers; two certificates with the same number are the same. How a library finds a chain of certificates is a parameter; which
certificates it may end with, which names and which revocation lists are looked at are written out here from the documentation of the libraries
(X509_STORE_load_locations(3), X509_check_host(3), X509_VERIFY_PARAM_set_flags(3), mbedtls_x509_crt_verify in mbedtls/x509_crt.h, Mbed TLS 3.5 or later as
CMakeLists.txt:237 demands). Memory is not modelled: `up` tells whether everything else succeeds (see C170 for what is released then).
-/

namespace Verif.ClientTls
open Verif.TransCfg (Lib)

/-- Texts (src/session_client_tls.c:362). -/
abbrev Text := List Char

/-- A certificate (src/session_client_tls.c:264): the certificate that signed it (its own number if it is self-signed), whether the time is within its
period, the host names and the addresses it is for as the library finds them, URIs of its distribution points of revocation lists. -/
structure Cert where
  id : Nat
  signer : Nat
  valid : Bool
  dns : List Text
  ips : List Text
  uris : List Nat
  deriving DecidableEq, Repr

/-- A revocation list (src/session.c:1695): who signed it, which certificates are revoked, whether it is signed correctly and the time is within its period. -/
structure RevList where
  issuer : Nat
  revoked : List Nat
  valid : Bool
  deriving DecidableEq, Repr

/-- What is in a PEM file (src/session_openssl.c:652, 666, src/session_mbedtls.c:1001, 977); `key k` is the private key of the certificate with number `k`. -/
inductive Item where
  | cert (c : Cert)
  | badCert
  | key (k : Nat)
  deriving DecidableEq, Repr

/-- Files that can be read, directories with their files (src/session_openssl.c:680-690, src/session_mbedtls.c:1022-1038); the flag tells that the file has the
name of the hash of the subject, as OpenSSL needs it. -/
structure Disk where
  file : Nat → Option (List Item)
  dir : Nat → Option (List (Bool × Nat))

/-- `struct nc_client_tls_opts` (src/session_p.h:352-358). -/
structure Opts where
  certPath : Option Nat
  keyPath : Option Nat
  caFile : Option Nat
  caDir : Option Nat
  deriving DecidableEq, Repr

/-- The TLS library and CURL (src/session_client_tls.c:331, src/session.c:1687): a chain from a certificate, with further certificates, to one of the trusted ones;
parsing revocation lists; downloads. -/
structure Ext where
  path : List Cert → Cert → List Cert → Option (List Cert)
  der : List Nat → Option RevList
  pem : List Nat → Option RevList
  eaten : List Nat → Nat
  get : Nat → Crl.Download
  newStore : Bool
  curlInit : Bool
  urisOk : Bool
  up : Bool

/-! ## Files -/

/-- First certificate of a file (`PEM_read_bio_X509`, src/session_openssl.c:652): other blocks are skipped. -/
def firstCert : List Item → Option Cert
  | [] => none
  | .cert c :: _ => some c
  | .badCert :: _ => none
  | .key _ :: l => firstCert l

/-- First private key of a file (`PEM_read_bio_PrivateKey`, src/session_openssl.c:666; `mbedtls_pk_parse_keyfile`, src/session_mbedtls.c:977). -/
def firstKey : List Item → Option Nat
  | [] => none
  | .key k :: _ => some k
  | _ :: l => firstKey l

/-- All certificates of a file (`mbedtls_x509_crt_parse_file`, src/session_mbedtls.c:1001, 1027). -/
def allCerts (l : List Item) : List Cert := l.filterMap (fun i => match i with | .cert c => some c | _ => none)

/-- Is there a certificate that cannot be read (src/session_openssl.c:683, src/session_mbedtls.c:1001). -/
def anyBad (l : List Item) : Bool := l.contains .badCert

/-- `nc_client_tls_load_cert_key_wrap` (src/session_openssl.c:637-678, src/session_mbedtls.c:987-1020): the certificate shown first, the key. Both paths must be
set. Mbed TLS fails if one of the certificates in the file cannot be read. -/
def loadCertKey (lib : Lib) (d : Disk) (cert key : Option Nat) : Option (Cert × Nat) :=
  match cert, key with
  | some cp, some kp =>
    match d.file cp with
    | none => none
    | some ci =>
      match lib with
      | .openssl =>
        match firstCert ci with
        | none => none
        | some c =>
          match d.file kp with
          | none => none
          | some ki => (firstKey ki).map (fun k => (c, k))
      | .mbedtls =>
        if anyBad ci then none
        else
          match (allCerts ci).head? with
          | none => none
          | some c =>
            match d.file kp with
            | none => none
            | some ki => (firstKey ki).map (fun k => (c, k))
  | _, _ => none

/-- Trusted certificates: those in memory and those that OpenSSL looks for in the directory when it needs them (src/session_openssl.c:683). -/
structure Store where
  mem : List Cert
  later : List Cert
  deriving DecidableEq, Repr

/-- Certificates of the files of a directory (src/session_openssl.c:683, src/session_mbedtls.c:1032): OpenSSL only looks at files named after hashes. -/
def dirCerts (d : Disk) (hashed : Bool) (l : List (Bool × Nat)) : List Cert :=
  l.flatMap (fun f => if hashed && !f.1 then [] else match d.file f.2 with | some i => allCerts i | none => [])

/-- Certificates of the directory with OpenSSL (src/session_openssl.c:683): none if it is not there. -/
def laterCerts (d : Disk) : Option Nat → List Cert
  | none => []
  | some p => dirCerts d true ((d.dir p).getD [])

/-- `nc_client_tls_load_trusted_certs_wrap` with OpenSSL (src/session_openssl.c:680-690): nothing can be loaded from no locations; all of the file must be read and
there must be a certificate in it; a directory is not looked at yet. -/
def loadTrustedOpenssl (d : Disk) (file dir : Option Nat) : Option Store :=
  if file = none ∧ dir = none then none
  else
    match file with
    | none => some ⟨[], laterCerts d dir⟩
    | some p =>
      match d.file p with
      | none => none
      | some i => if anyBad i || (allCerts i).isEmpty then none else some ⟨allCerts i, laterCerts d dir⟩

/-- `nc_client_tls_load_trusted_certs_wrap` with Mbed TLS (src/session_mbedtls.c:1022-1038): a file without any certificate that can be read is an error, single ones
are not; a directory must be there. -/
def loadTrustedMbedtls (d : Disk) (file dir : Option Nat) : Option Store :=
  let fromFile : Option (List Cert) :=
    match file with
    | none => some []
    | some p =>
      match d.file p with
      | none => none
      | some i => if (allCerts i).isEmpty then none else some (allCerts i)
  match fromFile with
  | none => none
  | some l =>
    match dir with
    | none => some ⟨l, []⟩
    | some p =>
      match d.dir p with
      | none => none
      | some fs => some ⟨l ++ dirCerts d false fs, []⟩

/-- `nc_client_tls_load_trusted_certs_wrap` (src/session_openssl.c:680-690, src/session_mbedtls.c:1022-1038). -/
def loadTrusted (lib : Lib) (d : Disk) (file dir : Option Nat) : Option Store :=
  match lib with
  | .openssl => loadTrustedOpenssl d file dir
  | .mbedtls => loadTrustedMbedtls d file dir

/-! ## Revocation lists -/

/-- `nc_server_tls_add_crl_to_store_wrap` as called there (src/session.c:1695, C128). -/
def addList (lib : Lib) (x : Ext) (b : List Nat) : Except Crl.Fault (Option RevList) :=
  match lib with
  | .openssl => Crl.addOssl x.der x.pem x.eaten b
  | .mbedtls => Crl.addMbed x.der b

/-- `nc_session_tls_crl_from_cert_ext_fetch` as called by the client (src/session_client_tls.c:291, src/session.c:1652-1718, C128): from the distribution points of the
certificate of the client and of those in the store. -/
def fetchLists (lib : Lib) (x : Ext) (own : Cert) (st : Store) : Except Crl.Fault (Nat × Option (List RevList)) :=
  Crl.fetch (addList lib x) x.newStore x.curlInit x.urisOk (((own :: st.mem).flatMap (·.uris)).map x.get)

/-- Checking a chain against revocation lists. OpenSSL (X509_V_FLAG_CRL_CHECK and X509_V_FLAG_CRL_CHECK_ALL, src/session_openssl.c:779-787) needs a list for every
certificate of the chain; of several lists of an issuer one is used, here the first. Mbed TLS (src/session_mbedtls.c:1094) looks at all lists of the issuer, not for the
trusted certificate itself. -/
def listsOk (lib : Lib) (lists : Option (List RevList)) (p : List Cert) : Bool :=
  match lists, lib with
  | none, _ => true
  | some l, .openssl =>
    p.all (fun c => match l.find? (fun r => r.issuer == c.signer) with | none => false | some r => r.valid && !r.revoked.contains c.id)
  | some l, .mbedtls => p.dropLast.all (fun c => l.all (fun r => r.issuer != c.signer || (r.valid && !r.revoked.contains c.id)))

/-! ## Names -/

/-- `nc_client_tls_set_hostname_wrap` (src/session_openssl.c:692-715, src/session_mbedtls.c:1040-1052): Mbed TLS takes names up to 255 characters
(MBEDTLS_SSL_MAX_HOST_NAME_LEN). -/
def setHostname (lib : Lib) (host : Option Text) : Bool :=
  match lib, host with
  | .mbedtls, some h => decide (h.length ≤ 255)
  | _, _ => true

/-- Checking the name of a certificate (src/session_openssl.c:701, src/session_mbedtls.c:1045): no name is not checked; for OpenSSL an empty one is no name
(X509_VERIFY_PARAM_set1_host), and only host names are compared, Mbed TLS compares addresses too. -/
def nameOk (lib : Lib) (host : Option Text) (c : Cert) : Bool :=
  match host, lib with
  | none, _ => true
  | some h, .openssl => h.isEmpty || c.dns.contains h
  | some h, .mbedtls => c.dns.contains h || c.ips.contains h

/-! ## Handshake -/

/-- The server, or whoever is connected to (src/session_client_tls.c:331): certificates shown, private keys owned, whether it does everything else. -/
structure Peer where
  shown : List Cert
  owns : Nat → Bool
  up : Bool

/-- Certificates a chain may end with: OpenSSL demands that they are self-signed (no X509_V_FLAG_PARTIAL_CHAIN, src/session_openssl.c:761-799). -/
def anchors (lib : Lib) (st : Store) : List Cert :=
  match lib with
  | .openssl => (st.mem ++ st.later).filter (fun c => c.signer == c.id)
  | .mbedtls => st.mem ++ st.later

/-- Verification of the certificates shown (src/session_openssl.c:395, src/session_mbedtls.c:593). -/
def verifyPeer (lib : Lib) (x : Ext) (st : Store) (lists : Option (List RevList)) (host : Option Text) (leaf : Cert) (rest : List Cert) : Bool :=
  match x.path (anchors lib st) leaf (rest ++ st.mem ++ st.later) with
  | none => false
  | some p => listsOk lib lists p && nameOk lib host leaf

/-- The loop of `nc_client_tls_handshake_step_wrap` (src/session_client_tls.c:331-337): -1 or 1, and the result of the verification. The server must prove that it has
the private key of the first certificate. -/
def handshake (lib : Lib) (x : Ext) (st : Store) (lists : Option (List RevList)) (host : Option Text) (peer : Peer) : Int × Bool :=
  match peer.shown with
  | [] => (-1, true)
  | leaf :: rest =>
    if peer.owns leaf.id && peer.up && (!(TransCfg.clientCfg lib).verify || verifyPeer lib x st lists host leaf rest) then
      (1, verifyPeer lib x st lists host leaf rest)
    else (-1, verifyPeer lib x st lists host leaf rest)

/-- `nc_client_tls_connect_check` (src/session_client_tls.c:235-257): the result of the verification is only logged. -/
def connectCheck (r : Int × Bool) : Int := r.1

/-- What a session has after the handshake (src/session_client_tls.c:344-345): certificate and key of the client, certificate of the server. -/
structure Sess where
  cert : Cert
  key : Nat
  server : Cert
  deriving DecidableEq, Repr

/-- `nc_tls_setup_config_from_ctx_wrap` (src/session_openssl.c:761-799, src/session_mbedtls.c:1073-1098): OpenSSL refuses a key that is not that of the certificate. -/
def keyFits (lib : Lib) (c : Cert) (k : Nat) : Bool :=
  match lib with
  | .openssl => c.id == k
  | .mbedtls => true

/-- `nc_client_tls_session_new` (src/session_client_tls.c:259-359). -/
def sessionNew (lib : Lib) (x : Ext) (d : Disk) (o : Opts) (host : Option Text) (peer : Peer) : Except Crl.Fault (Option Sess) :=
  match loadCertKey lib d o.certPath o.keyPath with
  | none => .ok none
  | some (c, k) =>
    match loadTrusted lib d o.caFile o.caDir with
    | none => .ok none
    | some st =>
      match fetchLists lib x c st with
      | .error f => .error f
      | .ok (ret, lists) =>
        if ret ≠ 0 then .ok none
        else if keyFits lib c k = false then .ok none
        else if setHostname lib host = false then .ok none
        else if x.up = false then .ok none
        else if connectCheck (handshake lib x st lists host peer) = 1 then .ok (peer.shown.head?.map (fun s => ⟨c, k, s⟩))
        else .ok none

/-- `nc_connect_tls` up to the TLS session (src/session_client_tls.c:361-404): a certificate and trusted certificates must be set; no host is localhost. -/
def connectTls (lib : Lib) (x : Ext) (d : Disk) (o : Opts) (host : Option Text) (peer : Peer) : Except Crl.Fault (Option Sess) :=
  if o.certPath = none then .ok none
  else if o.caFile = none ∧ o.caDir = none then .ok none
  else
    match host with
    | none => sessionNew lib x d o (some ['l', 'o', 'c', 'a', 'l', 'h', 'o', 's', 't']) peer
    | some h => if h = [] then sessionNew lib x d o (some ['l', 'o', 'c', 'a', 'l', 'h', 'o', 's', 't']) peer else sessionNew lib x d o (some h) peer

/-- Binds of Call Home with their transport and, for TLS, the name expected (src/session_p.h:373-376). -/
inductive Bind where
  | ssh
  | tls (host : Option Text)
  | other
  deriving DecidableEq, Repr

/-- What `nc_accept_callhome` does with an accepted socket (src/session_client.c:1920-1928): nothing here for SSH, TLS with the name of the bind, or closing it.
`nc_accept_callhome_tls_sock` up to the TLS session (src/session_client_tls.c:445-462). -/
def acceptCallHome (lib : Lib) (x : Ext) (d : Disk) (o : Opts) (b : Bind) (peer : Peer) : Except Crl.Fault (Option Sess) :=
  match b with
  | .ssh => .ok none
  | .tls host => sessionNew lib x d o host peer
  | .other => .ok none

end Verif.ClientTls
