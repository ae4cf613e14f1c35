/-!
# TLS client authentication (src/session_server_tls.c:121-640, src/session_openssl.c:283-383, src/session_mbedtls.c:499-581)

Certificates are what the code reads of them. The TLS library's own verification is a sequence of events given to the verify callback.
-/

namespace Verif.TlsAuth

/-- Text of C strings (the `char *` of src/session_server_tls.c:241-333). -/
abbrev Text := List Char

/-- A subject alternative name (src/session_openssl.c:440-484): the value of the first two may contain NUL characters, an address is its octets. -/
inductive San where
  | email (value : Text)
  | dns (value : Text)
  | ip (octets : List Nat)
  | other
  deriving DecidableEq, Repr

/-- What is read of a certificate. `id` stands for the DER data compared by `nc_server_tls_certs_match_wrap` (src/session_openssl.c:501-505);
`digest k` is the digest of the algorithm with the number `k` of the TLS registry or `none` if it cannot be computed (src/session_openssl.c:507-589);
`subject` is the printed subject (src/session_openssl.c:398-402); `sans` is `none` without the extension (src/session_openssl.c:410-414). -/
structure Cert where
  id : Nat
  digest : Nat → Option (List Nat)
  subject : Option Text
  sans : Option (List San)

/-- `NC_TLS_CTN_MAPTYPE` (src/session.h:51-59). -/
inductive MapType where
  | unknown | specified | rfc822 | dns | ip | any | commonName
  deriving DecidableEq, Repr

/-- `struct nc_ctn` (src/session_p.h:245-251) without the id. -/
structure Ctn where
  fingerprint : Option Text
  mapType : MapType
  name : Option Text
  deriving DecidableEq, Repr

/-- Result of looking for a name: -1, 1, 0 with the name (src/session_server_tls.c:337), or a read behind the end of the fingerprint. -/
inductive Res where
  | fatal
  | no
  | name (u : Text)
  | overread
  deriving DecidableEq, Repr

/-- A lower case hexadecimal digit of the format `%02x` (src/session_server_tls.c:131, 133). -/
def hexChar (n : Nat) : Char := if n < 10 then Char.ofNat (48 + n) else Char.ofNat (87 + n)

/-- The format `%02x` of an octet (src/session_server_tls.c:131, 133). -/
def hex2 (b : Nat) : Text := [hexChar (b / 16), hexChar (b % 16)]

/-- `nc_server_tls_digest_to_hex` (src/session_server_tls.c:121-137); the digest is never empty. -/
def digestHex : List Nat → Text
  | [] => []
  | [b] => hex2 b
  | b :: t => hex2 b ++ ':' :: digestHex t

/-- `strcasecmp` being 0 (src/session_server_tls.c:371, 387, 403, 419, 435, 451). -/
def eqNoCase (a b : Text) : Bool := a.map Char.toLower == b.map Char.toLower

/-- The outcome of comparing fingerprints: -1, `continue`, the flag `fingerprint_match`, or a read behind the end
(src/session_server_tls.c:359-463). -/
inductive FpRes where
  | fatal | unknownAlg | flag (m : Bool) | overread
  deriving DecidableEq, Repr

/-- One of the branches of the known algorithms (src/session_server_tls.c:364-377 and its five copies to 457): the text from the fourth character on is compared. -/
def fpCompare (fp : Text) (c : Cert) (alg : Nat) : FpRes :=
  match c.digest alg with
  | none => .fatal                                                  -- 366-369
  | some d => if fp.length < 3 then .overread else .flag (eqNoCase (fp.drop 3) (digestHex d))

/-- Does the fingerprint of an entry match a certificate (src/session_server_tls.c:359-463)? -/
def fpMatch (fp : Option Text) (c : Cert) : FpRes :=
  match fp with
  | none => .flag true                                              -- 359-361
  | some t =>
    if t.take 2 = ['0', '1'] then fpCompare t c 1
    else if t.take 2 = ['0', '2'] then fpCompare t c 2
    else if t.take 2 = ['0', '3'] then fpCompare t c 3
    else if t.take 2 = ['0', '4'] then fpCompare t c 4
    else if t.take 2 = ['0', '5'] then fpCompare t c 5
    else if t.take 2 = ['0', '6'] then fpCompare t c 6
    else .unknownAlg                                                -- 460-463

/-- `strstr`: the text from the first occurrence on (src/session_server_tls.c:263). -/
def strstr (pat : Text) : Text → Option Text
  | [] => if pat.isPrefixOf [] then some [] else none
  | h :: t => if pat.isPrefixOf (h :: t) then some (h :: t) else strstr pat t

/-- The separator of the parts of a subject: the macro `HAVE_LIBMEDTLS` is never defined (src/session_server_tls.c:248-252). -/
def rdnSep : Char := '/'

/-- The common name of a printed subject (src/session_server_tls.c:263-276). -/
def commonName (subject : Text) : Option Text :=
  (strstr ['C', 'N', '='] subject).map fun s => (s.drop 3).takeWhile (· ≠ rdnSep)

/-- An IPv4 address, format `%d.%d.%d.%d` (src/session_openssl.c:460). -/
def dotted (o : List Nat) : Text := List.intercalate ['.'] (o.map fun b => (toString b).toList)

/-- `nc_tls_get_san_value_type_wrap` (src/session_openssl.c:428-486): `none` is the result 1 (skipped). `strdup` copies up to a NUL character (448, 453);
the functions of mbedTLS do the same (src/session_mbedtls.c:658-694). -/
def sanValue : San → Option (MapType × Text)
  | .email v => some (.rfc822, v.takeWhile (· ≠ Char.ofNat 0))
  | .dns v => some (.dns, v.takeWhile (· ≠ Char.ofNat 0))
  | .ip o =>
    if o.length = 4 then some (.ip, dotted o)
    else if o.length = 16 then some (.ip, o.flatMap hex2)            -- 465-470
    else none
  | .other => none

/-- The loop over the alternative names (src/session_server_tls.c:286-304). -/
def findSan (mt : MapType) : List San → Option Text
  | [] => none
  | s :: t =>
    match sanValue s with
    | none => findSan mt t
    | some (ty, v) => if mt = .any ∨ mt = ty then some v else findSan mt t

/-- `nc_server_tls_get_username` (src/session_server_tls.c:240-330), memory never running out. -/
def getUsername (c : Cert) (e : Ctn) : Res :=
  match e.mapType with
  | .specified => match e.name with | some n => .name n | none => .no   -- 254-256, the name was checked by the caller (341)
  | .commonName =>
    match c.subject with
    | none => .fatal                                                -- 258-261
    | some s => match commonName s with | none => .no | some u => .name u
  | _ =>
    match c.sans with
    | none => .no                                                   -- 280-283
    | some l => match findSan e.mapType l with | none => .no | some u => .name u

/-- The loop over the certificates of the chain (src/session_server_tls.c:346-476). -/
def chainLoop (e : Ctn) : List Cert → Res
  | [] => .no
  | c :: t =>
    match fpMatch e.fingerprint c with
    | .fatal => .fatal
    | .overread => .overread
    | .unknownAlg => chainLoop e t
    | .flag false => chainLoop e t
    | .flag true =>
      match getUsername c e with
      | .no => chainLoop e t
      | r => r                                                      -- 466-474

/-- `nc_server_tls_cert_to_name` (src/session_server_tls.c:332-480). -/
def certToName (e : Ctn) (chain : List Cert) : Res :=
  if e.mapType = .unknown ∨ (e.mapType = .specified ∧ e.name = none) then .no   -- 340-344
  else chainLoop e chain

/-- The loop over a list of entries (src/session_server_tls.c:489-495, 505-511). -/
def entriesLoop (chain : List Cert) : List Ctn → Res
  | [] => .no
  | e :: t =>
    match certToName e chain with
    | .no => entriesLoop chain t
    | r => r

/-- The TLS options used for authentication: the end-entity certificates (`none`: the truststore reference is broken; an element `none`: data that is not a certificate)
and the cert-to-name entries (`struct nc_server_tls_opts`, src/session_p.h:256-282). -/
structure Opts where
  ee : Option (List (Option Cert))
  ctn : List Ctn

/-- The options of an endpoint and what its reference gives: nothing, a missing endpoint, or that endpoint's options (src/session_server_tls.c:498-503, 566-570). -/
structure Endpt where
  own : Opts
  ref : Option (Option Opts)

/-- `_nc_server_tls_cert_to_name` (src/session_server_tls.c:482-516). -/
def endptName (o : Endpt) (chain : List Cert) : Res :=
  match entriesLoop chain o.own.ctn with
  | .no =>
    match o.ref with
    | none => .no
    | some none => .fatal                                           -- 499-503
    | some (some r) => entriesLoop chain r.ctn
  | r => r

/-- Result of a verification function: 0, 1, -1, or a NULL pointer used by the TLS library, or a read behind the end of a fingerprint
(src/session_server_tls.c:518-647). -/
inductive V where
  | ok | fail | fatal | null | overread
  deriving DecidableEq, Repr

/-- The TLS library the server is built with (src/session_wrapper.h:23-53). -/
inductive Lib where
  | openssl | mbedtls
  deriving DecidableEq, Repr

/-- The loop over the end-entity certificates (src/session_server_tls.c:538-552). A certificate that cannot be imported is passed on as NULL: `X509_cmp` uses it
(src/session_openssl.c:504), with mbedTLS it does not match (src/session_mbedtls.c:735-737). -/
def eeLoop (lib : Lib) (peer : Cert) : List (Option Cert) → V
  | [] => .fail
  | none :: t => match lib with | .openssl => .null | .mbedtls => eeLoop lib peer t
  | some c :: t => if peer.id = c.id then .ok else eeLoop lib peer t

/-- `_nc_server_tls_verify_peer_cert` (src/session_server_tls.c:518-553). -/
def peerIn (lib : Lib) (peer : Cert) (o : Opts) : V :=
  match o.ee with
  | none => .fatal
  | some l => eeLoop lib peer l

/-- `nc_server_tls_verify_peer_cert` (src/session_server_tls.c:555-579). -/
def verifyPeer (lib : Lib) (peer : Cert) (o : Endpt) : V :=
  match peerIn lib peer o.own with
  | .ok => .ok
  | .null => .null
  | _ =>
    match o.ref with
    | none => .fail
    | some none => .fatal
    | some (some r) =>
      match peerIn lib peer r with
      | .ok => .ok
      | .null => .null
      | _ => .fail

/-- What verification changes of the session: `username` and `opts.server.client_cert` (src/session_server_tls.c:590, src/session_openssl.c:367-371). -/
structure Sess where
  username : Option Text
  clientCert : Option Cert

/-- `nc_server_tls_verify_cert` (src/session_server_tls.c:581-647); `names` tells whether the subject and issuer can be printed,
`userOk` what the callback of the application answers (`true` without one), given the user name. -/
def verifyCert (lib : Lib) (o : Endpt) (userOk : Text → Bool) (chain : List Cert) (s : Sess) (cert : Cert) (depth : Nat) (names trusted : Bool) : Sess × V :=
  if s.username.isSome then (s, .ok)                                -- 590-593
  else if names = false then (s, .fatal)                            -- 595-601
  else if depth = 0 then
    match (if trusted then .ok else verifyPeer lib cert o) with     -- 607-616
    | .ok =>
      match endptName o chain with
      | .fatal => (s, .fatal)
      | .overread => (s, .overread)
      | .no => (s, .fail)                                           -- 630-634
      | .name u =>
        if userOk u then ({ s with username := some u }, .ok)
        else ({ s with username := some u }, .fail)                 -- 636-640
    | v => (s, v)
  else (s, .ok)

/-- The errors of OpenSSL the callback tells apart (src/session_openssl.c:339-359). -/
inductive Err where
  | depthZeroSelfSigned | unableToVerifyLeaf | unableToGetIssuer | unableToGetIssuerLocally | selfSignedInChain | other
  deriving DecidableEq, Repr

/-- A call of the verify callback by OpenSSL (src/session_openssl.c:291-328). -/
structure Ev where
  preverify : Bool
  depth : Nat
  err : Err
  cert : Cert
  names : Bool

/-- Outcome of the callback: the session and the result 0 or 1, or a memory error (src/session_openssl.c:362-381). -/
inductive Cb where
  | ret (s : Sess) (v : Bool)
  | bad

/-- The middle part of `nc_server_tls_verify_cb` (src/session_openssl.c:330-359): the value of `ret`. -/
def cbVerify (o : Endpt) (userOk : Text → Bool) (chain : List Cert) (peer : Cert) (s : Sess) (ev : Ev) : Sess × V :=
  if ev.preverify then verifyCert .openssl o userOk chain s ev.cert ev.depth ev.names true
  else if ev.depth = 0 ∧ (ev.err = .depthZeroSelfSigned ∨ ev.err = .unableToVerifyLeaf) then
    verifyCert .openssl o userOk chain s ev.cert ev.depth ev.names false
  else if ev.err = .unableToGetIssuer ∨ ev.err = .unableToGetIssuerLocally then
    verifyCert .openssl o userOk chain s ev.cert ev.depth ev.names false
  else if ev.err = .selfSignedInChain then
    match verifyPeer .openssl peer o with
    | .ok => (s, .ok)
    | .null => (s, .null)
    | _ => (s, .fatal)                                              -- 351-354
  else (s, .fail)

/-- The certificate copied at depth 0 (src/session_openssl.c:327, 350, 367-371). -/
def cbCert (peer : Cert) (ev : Ev) : Cert :=
  if ev.preverify = false ∧ ev.err = .selfSignedInChain then peer else ev.cert

/-- `nc_server_tls_verify_cb` of OpenSSL (src/session_openssl.c:290-383), library calls succeeding. -/
def callback (o : Endpt) (userOk : Text → Bool) (chain : List Cert) (peer : Cert) (s : Sess) (ev : Ev) : Cb :=
  match cbVerify o userOk chain peer s ev with
  | (_, .null) => .bad
  | (_, .overread) => .bad
  | (s, .fatal) => .ret s false
  | (s, .ok) =>
    .ret (if ev.depth = 0 ∧ s.clientCert.isNone then { s with clientCert := some (cbCert peer ev) } else s) true   -- 365-372
  | (s, .fail) => .ret s (decide (ev.depth > 0))                    -- 373-381

/-- The callbacks of one handshake; OpenSSL gives up when one of them returns 0 (`SSL_VERIFY_PEER`, src/session_openssl.c:390).
`none`: refused, otherwise the accepted session (src/session_server_tls.c:907-922: the result of the verification itself is only logged). -/
def run (o : Endpt) (userOk : Text → Bool) (chain : List Cert) (peer : Cert) : Sess → List Ev → Option Sess
  | s, [] => some s
  | s, ev :: t =>
    match callback o userOk chain peer s ev with
    | .ret s' true => run o userOk chain peer s' t
    | _ => none

/-- The verification flags of mbedTLS the callback tells apart (src/session_mbedtls.c:531-543, 575-577). -/
structure Flags where
  notTrusted : Bool
  missing : Bool
  other : Bool
  deriving DecidableEq, Repr

/-- `*flags` being 0 (src/session_mbedtls.c:522, 575). -/
def noFlags : Flags := ⟨false, false, false⟩

/-- A call of the verify callback by mbedTLS (src/session_mbedtls.c:508-509). -/
structure MEv where
  depth : Nat
  flags : Flags
  cert : Cert
  names : Bool

/-- `nc_server_tls_verify_cb` of mbedTLS (src/session_mbedtls.c:508-581): the session and the flags, `none` for a fatal error or worse. `chain` includes the certificate. -/
def mCallback (o : Endpt) (userOk : Text → Bool) (chain : List Cert) (s : Sess) (ev : MEv) : Option (Sess × Flags) :=
  let (r, flags) :=
    if ev.flags = noFlags then (verifyCert .mbedtls o userOk chain s ev.cert ev.depth ev.names true, ev.flags)
    else if ev.depth = 0 ∧ ev.flags = ⟨true, false, false⟩ then
      let r := verifyCert .mbedtls o userOk chain s ev.cert ev.depth ev.names false
      (r, if r.2 = .ok then noFlags else ev.flags)                  -- 531-536
    else if ev.flags = ⟨false, true, false⟩ then
      let r := verifyCert .mbedtls o userOk chain s ev.cert ev.depth ev.names false
      (r, if r.2 = .ok then noFlags else ev.flags)                  -- 537-542
    else ((s, .fail), ev.flags)
  match r with
  | (s, .ok) => some (if ev.depth = 0 ∧ s.clientCert.isNone then { s with clientCert := some ev.cert } else s, flags)
  | (s, .fail) => some (s, if ev.depth = 0 ∧ flags = noFlags then ⟨false, false, true⟩ else flags)   -- 568-579
  | _ => none

/-- The callbacks of one handshake: the chain is built from the certificates seen so far (src/session_mbedtls.c:516); mbedTLS collects the flags and with
`MBEDTLS_SSL_VERIFY_REQUIRED` (src/session_mbedtls.c:586) refuses when one is left. `none`: refused, otherwise the accepted session. -/
def mRun (o : Endpt) (userOk : Text → Bool) : List Cert → Sess → List MEv → Option Sess
  | _, s, [] => some s
  | chain, s, ev :: t =>
    match mCallback o userOk (chain ++ [ev.cert]) s ev with
    | some (s', f) => if f = noFlags then mRun o userOk (chain ++ [ev.cert]) s' t else none
    | none => none

end Verif.TlsAuth
