import Verif.Model.TlsAuth

/-!
# What TLS client authentication means, without the code
-/

namespace Verif.TlsAuth

/-- The value of a hexadecimal digit of either case. -/
inductive HexVal : Char → Nat → Prop
  | digit (n : Nat) (h : n < 10) : HexVal (Char.ofNat (48 + n)) n
  | lower (n : Nat) (h : 10 ≤ n) (h' : n < 16) : HexVal (Char.ofNat (87 + n)) n
  | upper (n : Nat) (h : 10 ≤ n) (h' : n < 16) : HexVal (Char.ofNat (55 + n)) n

/-- A text of the YANG type `tls-fingerprint` and its octets (modules/ietf-x509-cert-to-name@2014-12-10.yang:65-79): pairs of hexadecimal digits with colons between. -/
inductive FpOctets : Text → List Nat → Prop
  | one {a b x y} (ha : HexVal a x) (hb : HexVal b y) : FpOctets [a, b] [16 * x + y]
  | cons {a b x y t l} (ha : HexVal a x) (hb : HexVal b y) (h : FpOctets t l) : FpOctets (a :: b :: ':' :: t) ((16 * x + y) :: l)

/-- The fingerprint of an entry is that of a certificate: the number of an algorithm and the digest made by it; an entry without a fingerprint fits every certificate. -/
def FpFits (e : Ctn) (c : Cert) : Prop :=
  e.fingerprint = none ∨ ∃ t k d, e.fingerprint = some t ∧ FpOctets t (k :: d) ∧ k ∈ [1, 2, 3, 4, 5, 6] ∧ c.digest k = some d

/-- The lower case hexadecimal text of an octet. -/
def HexText (b : Nat) (t : Text) : Prop := ∃ a c x y, t = [a, c] ∧ HexVal a x ∧ HexVal c y ∧ b = 16 * x + y ∧ ∀ u ∈ t, u.isUpper = false

/-- The text of an alternative name, and its kind. The text ends before a NUL character. -/
inductive SanText : San → MapType → Text → Prop
  | email {v u r} (h : v = u ++ r) (hu : Char.ofNat 0 ∉ u) (hr : r = [] ∨ ∃ r', r = Char.ofNat 0 :: r') : SanText (.email v) .rfc822 u
  | dns {v u r} (h : v = u ++ r) (hu : Char.ofNat 0 ∉ u) (hr : r = [] ∨ ∃ r', r = Char.ofNat 0 :: r') : SanText (.dns v) .dns u
  | ip4 {a b c d} : SanText (.ip [a, b, c, d]) .ip (s!"{a}.{b}.{c}.{d}").toList
  | ip6 {o : List Nat} {ts : List Text} (h : o.length = 16) (hl : ts.length = 16)
      (hts : ∀ i (hi : i < 16), HexText (o[i]'(by omega)) (ts[i]'(by omega))) : SanText (.ip o) .ip ts.flatten

/-- The text `u` follows the first `CN=` of a printed subject and reaches up to a slash or the end. -/
def CnText (s u : Text) : Prop :=
  ∃ pre rest, s = pre ++ 'C' :: 'N' :: '=' :: (u ++ rest) ∧ '/' ∉ u ∧ (rest = [] ∨ ∃ r, rest = '/' :: r) ∧
    ∀ a b, s = a ++ 'C' :: 'N' :: '=' :: b → pre.length ≤ a.length

/-- The name an entry takes from a certificate. -/
def NameOf (e : Ctn) (c : Cert) (u : Text) : Prop :=
  match e.mapType with
  | .unknown => False
  | .specified => e.name = some u
  | .commonName => ∃ s, c.subject = some s ∧ CnText s u
  | mt => ∃ l pre s post ty, c.sans = some l ∧ l = pre ++ s :: post ∧ SanText s ty u ∧ (mt = .any ∨ mt = ty) ∧
      ∀ s' ∈ pre, ∀ ty' u', SanText s' ty' u' → mt ≠ .any ∧ mt ≠ ty'

/-- An entry gives a name for a certificate. -/
def Yields (e : Ctn) (c : Cert) (u : Text) : Prop := FpFits e c ∧ NameOf e c u

/-- The first entry giving a name for some certificate of the chain gives `u`, and that for the first such certificate. -/
def FirstYield (entries : List Ctn) (chain : List Cert) (u : Text) : Prop :=
  ∃ pre e post, entries = pre ++ e :: post ∧ (∀ e' ∈ pre, ∀ c ∈ chain, ∀ v, ¬ Yields e' c v) ∧
    ∃ cpre c cpost, chain = cpre ++ c :: cpost ∧ (∀ c' ∈ cpre, ∀ v, ¬ Yields e c' v) ∧ Yields e c u

/-- A fingerprint the YANG module accepts and that has at least one octet behind that of the algorithm. -/
def FpUsable (e : Ctn) : Prop := ∀ t, e.fingerprint = some t → ∃ k x d, FpOctets t (k :: x :: d)

/-- The TLS library can read a certificate: the digests exist, are not empty and made of octets, the subject can be printed, addresses are made of octets. -/
structure Readable (c : Cert) : Prop where
  digest : ∀ k ∈ [1, 2, 3, 4, 5, 6], ∃ x d, c.digest k = some (x :: d) ∧ ∀ b ∈ x :: d, b < 256
  subject : ∃ s, c.subject = some s
  octets : ∀ l, c.sans = some l → ∀ o, San.ip o ∈ l → ∀ b ∈ o, b < 256

/-- The entries to be searched: those of the endpoint, then those of the referenced one. -/
def allEntries (o : Endpt) : List Ctn :=
  o.own.ctn ++ match o.ref with | some (some r) => r.ctn | _ => []

/-- The client's certificate is one of the configured end-entity certificates, of the endpoint itself or the referenced one. -/
def Configured (o : Endpt) (peer : Cert) : Prop :=
  ∃ l c, some c ∈ l ∧ c.id = peer.id ∧ (o.own.ee = some l ∨ ∃ r, o.ref = some (some r) ∧ r.ee = some l)

end Verif.TlsAuth

namespace Verif.TlsAuth

/-- A subject printed by OpenSSL's `X509_NAME_oneline`: `/name=value` for every attribute. -/
def oneline : List (Text × Text) → Text
  | [] => []
  | (k, v) :: t => '/' :: k ++ '=' :: v ++ oneline t

/-- A subject printed by mbedTLS's `mbedtls_x509_dn_gets`: `name=value` with a comma and a space between. -/
def dnGets : List (Text × Text) → Text
  | [] => []
  | [(k, v)] => k ++ '=' :: v
  | (k, v) :: t => k ++ '=' :: v ++ ',' :: ' ' :: dnGets t

/-- A text occurs in another. -/
def Occurs (pat t : Text) : Prop := ∃ a b, t = a ++ pat ++ b

/-- The name the YANG module wants for an alternative name (modules/ietf-x509-cert-to-name@2014-12-10.yang:105-147): the host part of an email address
and a DNS name in lower case, an IPv4 address as dotted decimal, an IPv6 address as 32 lower case hexadecimal digits. -/
inductive RfcName : San → Text → Prop
  | email {loc host} (h : '@' ∉ host) : RfcName (.email (loc ++ '@' :: host)) (loc ++ '@' :: host.map Char.toLower)
  | dns {v} : RfcName (.dns v) (v.map Char.toLower)
  | ip4 {a b c d} : RfcName (.ip [a, b, c, d]) (s!"{a}.{b}.{c}.{d}").toList
  | ip6 {o : List Nat} {ts : List Text} (h : o.length = 16) (hl : ts.length = 16)
      (hts : ∀ i (hi : i < 16), HexText (o[i]'(by omega)) (ts[i]'(by omega))) : RfcName (.ip o) ts.flatten

/-- An alternative name without NUL characters and upper case letters where the case does not matter; an email address has a host part. -/
def NormalSan : San → Prop
  | .email v => Char.ofNat 0 ∉ v ∧ ∃ loc host, v = loc ++ '@' :: host ∧ '@' ∉ host ∧ host.map Char.toLower = host
  | .dns v => Char.ofNat 0 ∉ v ∧ v.map Char.toLower = v
  | _ => True

end Verif.TlsAuth
