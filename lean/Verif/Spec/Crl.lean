/-
Extensions of certificates by RFC 5280 and their encoding by X.690 (DER),
written without the functions of the model.
-/
import Verif.Model.Crl

deriving instance DecidableEq for Except

namespace Verif.Crl

/-- The lowest `k` bytes of a number, the highest first. -/
def be : Nat → Nat → List Byte
  | 0, _ => []
  | k + 1, n => be k (n / 256) ++ [n % 256]

/-- The length of a value (X.690, 8.1.3 and 10.1). -/
def lenBytes (n : Nat) : List Byte :=
  if n < 128 then [n]
  else if n < 256 then 0x81 :: be 1 n
  else if n < 65536 then 0x82 :: be 2 n
  else if n < 16777216 then 0x83 :: be 3 n
  else 0x84 :: be 4 n

/-- A value with its tag and length. -/
def der (tag : Nat) (c : List Byte) : List Byte := tag :: (lenBytes c.length ++ c)

/-- DistributionPoint of RFC 5280 (4.2.1.13): the names of the point, reasons and issuer. -/
structure Point where
  names : Option (List Name)
  reasons : Option (List Byte)
  issuer : Option (List Byte)
  deriving DecidableEq

/-- Encoding of a GeneralName. -/
def encName (n : Name) : List Byte := der n.tag n.data

/-- Encoding of an optional part. -/
def encOpt (tag : Nat) : Option (List Byte) → List Byte
  | none => []
  | some c => der tag c

/-- Encoding of a DistributionPoint. -/
def encPoint (d : Point) : List Byte :=
  der 0x30 (encOpt 0xA0 (d.names.map (fun l => der 0xA0 (l.flatMap encName))) ++ (encOpt 0x81 d.reasons ++ encOpt 0xA2 d.issuer))

/-- An extension: distribution points or another one. -/
inductive Extn where
  | points (critical : Bool) (l : List Point)
  | other (oid : List Byte) (critical : Bool) (value : List Byte)

/-- Encoding of an Extension; `2.5.29.31` is id-ce-cRLDistributionPoints. -/
def encParts (oid : List Byte) (critical : Bool) (value : List Byte) : List Byte :=
  der 0x30 (der 6 oid ++ ((if critical then der 1 [255] else []) ++ der 4 value))

/-- Encoding of an Extension. -/
def encExt : Extn → List Byte
  | .points critical l => encParts [2 * 40 + 5, 29, 31] critical (der 0x30 (l.flatMap encPoint))
  | .other oid critical value => encParts oid critical value

/-- Encoding of the Extensions of a certificate, which may have none. -/
def encCert (l : List Extn) : List Byte := if l = [] then [] else der 0x30 (l.flatMap encExt)

/-- The URIs of the names of a point, those with tag [6]. -/
def uriNames (l : List Name) : List (List Byte) := (l.filter (fun n => n.tag == 0x86)).map (·.data)

/-- The URIs of an extension. -/
def wantedExt : Extn → List (List Byte)
  | .points _ l => l.flatMap (fun d => uriNames (d.names.getD []))
  | .other _ _ _ => []

/-- The URIs of the distribution points of certificates. -/
def wantedUris (certs : List (List Extn)) : List (List Byte) := certs.flatMap (fun l => l.flatMap wantedExt)

/-- A name Mbed TLS can read: context specific, and of a type it knows. -/
def GoodName (lib : Name → Other) (n : Name) : Prop :=
  (n.tag = 0x86 ∧ 0 ∉ n.data) ∨
  (n.tag ∈ [0x81, 0x82, 0x87, 0xA0, 0xA4] ∧ ((∃ m, lib n = .dir m) ∨ lib n = .other))

/-- A point with nothing but names. -/
def GoodPoint (lib : Name → Other) (d : Point) : Prop :=
  d.reasons = none ∧ d.issuer = none ∧ ∃ l, d.names = some l ∧ l ≠ [] ∧ ∀ n ∈ l, GoodName lib n

/-- An extension that is read correctly: other extensions have short identifiers that do not begin as the wanted one; there is one point, or there are two and the first has one name. -/
def GoodExt (lib : Name → Other) : Extn → Prop
  | .points _ l => (∀ d ∈ l, GoodPoint lib d) ∧
      (l.length = 1 ∨ (l.length = 2 ∧ ∀ d ∈ l.head?, ∀ ns ∈ d.names, ns.length = 1))
  | .other oid _ _ => oid.length ≤ 4 ∧ ¬ oid <+: [0x55, 0x1D, 0x1F, 0]

/-- The URIs of a point decoded by OpenSSL. -/
def dpUris (d : Dp) : List (List Byte) :=
  match d.name with
  | some (.full l) => uriNames l
  | _ => []

/-- The URIs of all certificates among the objects of OpenSSL. -/
def osslWanted (certs : List (Option (List Dp))) : List (List Byte) := certs.flatMap (fun c => (c.getD []).flatMap dpUris)

end Verif.Crl
