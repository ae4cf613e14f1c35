/-
Certificate revocation lists: the URIs of the distribution points of
certificates, with OpenSSL and with Mbed TLS, and downloading the lists.

Sources: /repo/src/session_openssl.c, /repo/src/session_mbedtls.c,
/repo/src/session.c.

Simplifications: memory never runs out; the functions of Mbed TLS used on
ASN.1 are written out here (they are part of the trusted base); the
extensions of a certificate are one buffer, and nothing outside of it may be
read; other functions of the libraries are parameters.
-/
import Verif.Model.Bytes

namespace Verif.Crl

/-- What must not happen: a read outside of the buffer of a certificate or of downloaded data, a read outside of a constant, use of freed
memory, use of a NULL pointer or of a wrong type, and loops without end; none of these is an outcome the code foresees
(/repo/src/session_mbedtls.c:1587-1820, /repo/src/session_openssl.c:1307-1384). -/
inductive Fault where
  | buf
  | const
  | freed
  | null
  | type
  | loop
  deriving DecidableEq, Repr

/-- Errors of Mbed TLS as far as they are told apart (/repo/src/session_mbedtls.c:1630, 1651, 1681, 1776); `unavailable` is MBEDTLS_ERR_X509_FEATURE_UNAVAILABLE,
`other` are all others. -/
inductive AErr where
  | outOfData
  | unexpectedTag
  | invalidLength
  | unavailable
  | other
  deriving DecidableEq, Repr

/-- Reading `n` bytes at `p` of the buffer `b` (memory of /repo/src/session_mbedtls.c:1730). -/
def bytes (b : List Byte) (p n : Nat) : Except Fault (List Byte) :=
  if p + n ≤ b.length then .ok ((b.drop p).take n) else .error .buf

/-- A number of bytes, the first is the highest (mbedtls_asn1_get_len called in /repo/src/session_mbedtls.c:1610). -/
def number (l : List Byte) : Nat := l.foldl (fun n c => n * 256 + c) 0

/-- The common end of mbedtls_asn1_get_len (used in /repo/src/session_mbedtls.c:1610-1800): the length must not exceed what is left. -/
def checkLen (len p e : Nat) : Except AErr (Nat × Nat) := if len ≤ e - p then .ok (len, p) else .error .outOfData

/-- mbedtls_asn1_get_len as called by /repo/src/session_mbedtls.c:1610-1800: length and new position. -/
def getLen (b : List Byte) (p e : Nat) : Except Fault (Except AErr (Nat × Nat)) :=
  if e ≤ p then .ok (.error .outOfData)
  else
    match bytes b p 1 with
    | .error f => .error f
    | .ok l =>
      let c := number l
      if c < 128 then .ok (checkLen c (p + 1) e)
      else if c - 128 = 0 ∨ c - 128 > 4 then .ok (.error .invalidLength)
      else if e - p ≤ c - 128 then .ok (.error .outOfData)
      else
        match bytes b (p + 1) (c - 128) with
        | .error f => .error f
        | .ok l => .ok (checkLen (number l) (p + 1 + (c - 128)) e)

/-- mbedtls_asn1_get_tag as called by /repo/src/session_mbedtls.c:1610-1800: length and new position; with a wrong tag the position stays. -/
def getTag (b : List Byte) (p e tag : Nat) : Except Fault (Except AErr (Nat × Nat)) :=
  if e ≤ p then .ok (.error .outOfData)
  else
    match bytes b p 1 with
    | .error f => .error f
    | .ok l => if number l ≠ tag then .ok (.error .unexpectedTag) else getLen b (p + 1) e

/-- mbedtls_asn1_get_bool as called by /repo/src/session_mbedtls.c:1775: the new position. -/
def getBool (b : List Byte) (p e : Nat) : Except Fault (Except AErr Nat) :=
  match getTag b p e 1 with
  | .error f => .error f
  | .ok (.error r) => .ok (.error r)
  | .ok (.ok (len, p)) =>
    if len ≠ 1 then .ok (.error .invalidLength)
    else
      match bytes b p 1 with
      | .error f => .error f
      | .ok _ => .ok (.ok (p + 1))

/-- A GeneralName: the member `buf` of mbedtls_x509_sequence (/repo/src/session_mbedtls.c:1592-1593). -/
structure Name where
  tag : Nat
  data : List Byte
  deriving DecidableEq, Repr

/-- What mbedtls_x509_parse_subject_alt_name makes of names that are no URIs (/repo/src/session_mbedtls.c:1650-1654): a directory name (with more than
one part there is an allocated list), another name, MBEDTLS_ERR_X509_FEATURE_UNAVAILABLE, or an error. -/
inductive Other where
  | dir (more : Bool)
  | other
  | unavailable
  | wrong
  deriving DecidableEq, Repr

/-- The variable `san` (/repo/src/session_mbedtls.c:1594). -/
inductive San where
  | zero
  | uri (u : List Byte)
  | dir (more freed : Bool)
  | other
  deriving DecidableEq, Repr

/-- Whether a tag is that of a URI, context class and number 6 (MBEDTLS_X509_SAN_UNIFORM_RESOURCE_IDENTIFIER, /repo/src/session_mbedtls.c:1656). -/
def isUri (tag : Nat) : Bool := tag / 64 == 2 && tag % 32 == 6

/-- mbedtls_x509_parse_subject_alt_name (/repo/src/session_mbedtls.c:1650): `none` is an error; if the type of name is not available, `san` is left as
it was and the value returned says so. -/
def parseSan (lib : Name → Other) (n : Name) (san : San) : Option (San × Option AErr) :=
  if isUri n.tag then some (.uri n.data, none)
  else
    match lib n with
    | .dir more => some (.dir more false, none)
    | .other => some (.other, none)
    | .unavailable => some (san, some .unavailable)
    | .wrong => none

/-- mbedtls_x509_free_subject_alt_name (/repo/src/session_mbedtls.c:1677): frees the list of a directory name and leaves the structure. -/
def freeSan : San → Except Fault San
  | .dir true true => .error .freed
  | .dir more _ => .ok (.dir more true)
  | s => .ok s

/-- The loop over the names (/repo/src/session_mbedtls.c:1647-1679): the value of `ret`, whether `goto cleanup` was taken, `san`, URIs. -/
def names (lib : Name → Other) : San → Option AErr → List Name → List (List Byte) → Except Fault (Option AErr × Bool × San × List (List Byte))
  | san, ret, [], uris => .ok (ret, false, san, uris)
  | san, _, n :: rest, uris =>
    match parseSan lib n san with
    | none => .ok (some .other, true, san, uris)
    | some (san, ret) =>
      let uris := match san with
        | .uri u => uris ++ [cstr u]
        | _ => uris
      match freeSan san with
      | .error f => .error f
      | .ok san => names lib san ret rest uris

/-- Appending a name in mbedtls_x509_get_subject_alt_name_ext (/repo/src/session_mbedtls.c:1641): `first` says that no name was found in this call yet, so that the current
element of the list is its head; its data are set if it has none, and it must not have a successor. -/
def addName (gn : List Name) (first : Bool) (n : Name) : Option (List Name) :=
  if first ∧ gn.length > 1 then none else some (gn ++ [n])

/-- mbedtls_x509_get_subject_alt_name_ext (/repo/src/session_mbedtls.c:1641): the list of names and the new position. At the end the successor of the current element is set to NULL. -/
def altNames (lib : Name → Other) (b : List Byte) (e : Nat) : Nat → Nat → Bool → List Name → Except Fault (Except AErr (List Name × Nat))
  | 0, _, _, _ => .error .loop
  | fuel + 1, p, first, gn =>
    if p < e then
      match bytes b p 1 with
      | .error f => .error f
      | .ok t =>
        match getLen b (p + 1) e with
        | .error f => .error f
        | .ok (.error r) => .ok (.error r)
        | .ok (.ok (len, p)) =>
          if number t / 64 ≠ 2 then .ok (.error .other)
          else
            match bytes b p len with
            | .error f => .error f
            | .ok d =>
              match parseSan lib ⟨number t, d⟩ .zero with
              | none => .ok (.error .other)
              | some _ =>
                match addName gn first ⟨number t, d⟩ with
                | none => .ok (.error .other)
                | some gn => altNames lib b e fuel (p + len) false gn
    else if p ≠ e then .ok (.error .other)
    else .ok (.ok ((if first then gn.take 1 else gn), p))

/-- `nc_server_tls_parse_crl_dist_points` (/repo/src/session_mbedtls.c:1587-1690): return value, new position, URIs. `gn`, `san` and `ret` are the variables `general_names`, `san` and `ret`, which live as
long as the call. An empty list of names still has one element without data. -/
def distPoints (lib : Name → Other) (b : List Byte) (e : Nat) :
    Nat → Nat → List Name → San → List (List Byte) → Option AErr → Except Fault (Option AErr × Nat × List (List Byte))
  | 0, _, _, _, _, _ => .error .loop
  | fuel + 1, p, gn, san, uris, ret =>
    if p < e then
      match getTag b p e 0x30 with
      | .error f => .error f
      | .ok (.error r) => .ok (some r, p, uris)
      | .ok (.ok (len, p)) =>
        if len = 0 then distPoints lib b e fuel p gn san uris none
        else
          match getTag b p e 0xA0 with
          | .error f => .error f
          | .ok (.error .unexpectedTag) => distPoints lib b e fuel p gn san uris (some .unexpectedTag)
          | .ok (.error r) => .ok (some r, p, uris)
          | .ok (.ok (_, p)) =>
            match getTag b p e 0xA0 with
            | .error f => .error f
            | .ok (.error r) => .ok (some r, p, uris)
            | .ok (.ok (len, p)) =>
              match altNames lib b (p + len) (b.length + 1) p true gn with
              | .error f => .error f
              | .ok (.error r) => .ok (some r, p, uris)
              | .ok (.ok (gn, p)) =>
                match names lib san none (if gn = [] then [⟨0, []⟩] else gn) uris with
                | .error f => .error f
                | .ok (ret, true, _, uris) => .ok (ret, p, uris)
                | .ok (ret, false, san, uris) => distPoints lib b e fuel p gn san uris ret
    else .ok (ret, p, uris)

/-- MBEDTLS_OID_CRL_DISTRIBUTION_POINTS with the byte zero at its end, used in /repo/src/session_mbedtls.c:1766. -/
def crlOid : List Byte := [0x55, 0x1D, 0x1F, 0]

/-- Going on to the next extension or leaving the function by `goto cleanup` with the value of `ret` (/repo/src/session_mbedtls.c:1742-1815). -/
inductive Ext where
  | stop (ret : Option AErr) (uris : List (List Byte))
  | next (p : Nat) (uris : List (List Byte))
  deriving DecidableEq, Repr

/-- The position after the optional `critical` (/repo/src/session_mbedtls.c:1774-1779). -/
def afterBool (p : Nat) : Except AErr Nat → Except AErr Nat
  | .ok p => .ok p
  | .error .unexpectedTag => .ok p
  | .error r => .error r

/-- The value of the extension (/repo/src/session_mbedtls.c:1781-1814). -/
def extValue (lib : Name → Other) (b : List Byte) (p eExt : Nat) (uris : List (List Byte)) : Except Fault Ext :=
  match getTag b p eExt 4 with
  | .error f => .error f
  | .ok (.error r) => .ok (.stop (some r) uris)
  | .ok (.ok (len, p)) =>
    let eOct := p + len
    match getTag b p eOct 0x30 with
    | .error f => .error f
    | .ok (.error r) => .ok (.stop (some r) uris)
    | .ok (.ok (len, p)) =>
      if p + len ≠ eOct then .ok (.stop none uris)
      else if len = 0 then .ok (.stop none uris)
      else
        match distPoints lib b (p + len) (b.length + 1) p [] .zero uris none with
        | .error f => .error f
        | .ok (some r, _, uris) => .ok (.stop (some r) uris)
        | .ok (none, p, uris) => .ok (.next p uris)

/-- One extension (/repo/src/session_mbedtls.c:1743-1779). `memcmp` reads as many bytes of the constant as the extension says. -/
def extension (lib : Name → Other) (b : List Byte) (p e : Nat) (uris : List (List Byte)) : Except Fault Ext :=
  match getTag b p e 0x30 with
  | .error f => .error f
  | .ok (.error r) => .ok (.stop (some r) uris)
  | .ok (.ok (len, p)) =>
    let eExt := p + len
    match getTag b p eExt 6 with
    | .error f => .error f
    | .ok (.error r) => .ok (.stop (some r) uris)
    | .ok (.ok (oidLen, p)) =>
      match bytes b p oidLen with
      | .error f => .error f
      | .ok oid =>
        if crlOid.length < oidLen then .error .const
        else if oid ≠ crlOid.take oidLen then .ok (.next eExt uris)
        else
          let p := p + oidLen
          match getBool b p eExt with
          | .error f => .error f
          | .ok r =>
            match afterBool p r with
            | .error r => .ok (.stop (some r) uris)
            | .ok p => extValue lib b p eExt uris

/-- The loop over the extensions (/repo/src/session_mbedtls.c:1742-1815). -/
def extensions (lib : Name → Other) (b : List Byte) (e : Nat) : Nat → Nat → List (List Byte) → Except Fault Ext
  | 0, _, _ => .error .loop
  | fuel + 1, p, uris =>
    if p < e then
      match extension lib b p e uris with
      | .error f => .error f
      | .ok (.stop r uris) => .ok (.stop r uris)
      | .ok (.next p uris) => extensions lib b e fuel p uris
    else .ok (.next p uris)

/-- The loop over the certificates in `nc_server_tls_get_crl_distpoint_uris_wrap` (/repo/src/session_mbedtls.c:1714-1816): return value and URIs. A certificate is
given by its extensions (`v3_ext`), the first one is `leaf_cert`. -/
def mbedCerts (lib : Name → Other) : List (List Byte) → List (List Byte) → Except Fault (Option AErr × List (List Byte))
  | [], uris => .ok (none, uris)
  | b :: rest, uris =>
    if b = [] then mbedCerts lib rest uris
    else
      match getTag b 0 b.length 0x30 with
      | .error f => .error f
      | .ok (.error r) => .ok (some r, uris)
      | .ok (.ok (_, p)) =>
        match extensions lib b b.length (b.length + 1) p uris with
        | .error f => .error f
        | .ok (.stop r uris) => .ok (r, uris)
        | .ok (.next _ uris) => mbedCerts lib rest uris

/-- `nc_server_tls_get_crl_distpoint_uris_wrap` with Mbed TLS (/repo/src/session_mbedtls.c:1692-1820). -/
def mbedUris (lib : Name → Other) (certs : List (List Byte)) : Except Fault (Option AErr × List (List Byte)) := mbedCerts lib certs []

/-! ## OpenSSL -/

/-- The union in DIST_POINT_NAME as read in /repo/src/session_openssl.c:1359. -/
inductive DpName where
  | full (l : List Name)
  | relative
  deriving DecidableEq, Repr

/-- A distribution point of a decoded extension (/repo/src/session_openssl.c:1355); `none` is a NULL pointer `distpoint`. -/
structure Dp where
  name : Option DpName
  deriving DecidableEq, Repr

/-- The loop over general names (/repo/src/session_openssl.c:1362-1379). -/
def osslNames (l : List Name) (uris : List (List Byte)) : List (List Byte) :=
  l.foldl (fun uris n => if isUri n.tag = false ∨ n.data.length ≤ 6 then uris else uris ++ [cstr n.data]) uris

/-- The loop over distribution points (/repo/src/session_openssl.c:1354-1380). The member `fullname` is read whatever the type is. -/
def osslPoints : List Dp → List (List Byte) → Except Fault (List (List Byte))
  | [], uris => .ok uris
  | d :: rest, uris =>
    match d.name with
    | none => .error .null
    | some .relative => .error .type
    | some (.full l) => osslPoints rest (osslNames l uris)

/-- `nc_server_tls_get_crl_distpoint_uris_wrap` with OpenSSL (/repo/src/session_openssl.c:1307-1384) for the certificate and the store; `none` is an object
that is no certificate, and the decoded extension is empty if there is none or OpenSSL could not decode it. -/
def osslUris : List (Option (List Dp)) → List (List Byte) → Except Fault (List (List Byte))
  | [], uris => .ok uris
  | none :: rest, uris => osslUris rest uris
  | some ds :: rest, uris =>
    match osslPoints ds uris with
    | .error f => .error f
    | .ok uris => osslUris rest uris

/-! ## Downloading -/

/-- One download: whether `curl_easy_perform` succeeded and the data given to `nc_session_curl_cb` (/repo/src/session.c:1569-1614). -/
structure Download where
  ok : Bool
  chunks : List (List Byte)
  deriving DecidableEq, Repr

/-- `nc_session_curl_cb` for all the calls of a download (/repo/src/session.c:1568-1584). -/
def curlData (buf : List Byte) (chunks : List (List Byte)) : List Byte := chunks.foldl (· ++ ·) buf

/-- `nc_server_tls_add_crl_to_store_wrap` with Mbed TLS (/repo/src/session_mbedtls.c:394-416): `none` is failure. Parsing PEM reads the byte after the data
(`size + 1`), and the data are as big as their allocation; without data the pointer is NULL, which the library refuses. -/
def addMbed {C : Type} (der : List Byte → Option C) (buf : List Byte) : Except Fault (Option C) :=
  if buf = [] then .ok none
  else
    match der buf with
    | some c => .ok (some c)
    | none => .error .buf

/-- `nc_server_tls_add_crl_to_store_wrap` with OpenSSL (/repo/src/session_openssl.c:200-244): reading PEM begins where reading DER has stopped (`eaten`). -/
def addOssl {C : Type} (der pem : List Byte → Option C) (eaten : List Byte → Nat) (buf : List Byte) : Except Fault (Option C) :=
  if buf = [] then .ok none
  else
    match der buf with
    | some c => .ok (some c)
    | none => .ok (pem (buf.drop (eaten buf)))

/-- The loop of `nc_session_tls_crl_from_cert_ext_fetch` (/repo/src/session.c:1685-1705): return value and whether the loop was left early, with the store. -/
def fetchLoop {C : Type} (add : List Byte → Except Fault (Option C)) : List Download → List Byte → List C → Nat → Except Fault (Nat × Bool × List C)
  | [], _, store, ret => .ok (ret, false, store)
  | d :: rest, buf, store, _ =>
    let buf := curlData buf d.chunks
    if d.ok = false then fetchLoop add rest buf store 1
    else
      match add buf with
      | .error f => .error f
      | .ok none => .ok (1, true, store)
      | .ok (some c) => fetchLoop add rest [] (store ++ [c]) 0

/-- `nc_session_tls_crl_from_cert_ext_fetch` (/repo/src/session.c:1652-1718): return value and `*crl_store`. `new` says that the store was made, `init` that CURL was
initialized, `urisOk` that the URIs were found; there is one download for each URI. -/
def fetch {C : Type} (add : List Byte → Except Fault (Option C)) (new init urisOk : Bool) (ds : List Download) : Except Fault (Nat × Option (List C)) :=
  if new = false then .ok (0, none)
  else if init = false then .ok (1, none)
  else if urisOk = false then .ok (1, none)
  else if ds = [] then .ok (0, none)
  else
    match fetchLoop add ds [] [] 0 with
    | .error f => .error f
    | .ok (ret, true, _) => .ok (ret, none)
    | .ok (ret, false, store) => .ok (ret, some store)

end Verif.Crl
