import Verif.Spec.ConfUsers
import Verif.Model.ConfTls

/-!
# What the TLS parameters of an endpoint should be

As for the stores (`Spec.ConfStore`) and SSH endpoints (`Spec.ConfUsers`): a configuration, a diff, the configuration it leads to, and
the diff as it is given to the server. The nodes of a diff are in the order of the YANG modules.
-/

namespace Verif.ConfTls
open Verif.ConfTree (Op Meta)
open Verif.ConfStore

/-! ## Identity of the server -/

/-- The identity of the server: a key pair with certificate given there (only the private key is mandatory) or names of a key and a
certificate in the keystore (modules/ietf-keystore@2023-12-28.yang:153-178, 295-331). -/
inductive IdConf where
  | inline (pubFmt pub : Option Nat) (privFmt priv : Nat) (cert : Option Nat)
  | ref (key cert : Nat)
  deriving DecidableEq

/-- Is it valid: the public key must be in the SubjectPublicKeyInfo format (modules/ietf-tls-server@2023-12-28.yang:214-219). -/
def IdConf.valid (spki : Nat → Bool) : IdConf → Bool
  | .inline f p pf _ _ => f.all (fun v => v == 1) && p.all spki && privOk pf
  | .ref _ _ => true

/-- Change of the identity. -/
inductive IdChange where
  | keep
  | leaves (pubFmt pub : LeafEdit) (privFmt priv : Option Nat) (cert : LeafEdit)
  | reref (key cert : Option Nat)
  | toRef (rest : List Tree) (key cert : Nat)
  | toInline (rest : List Tree) (pubFmt pub : Option Nat) (privFmt priv : Nat) (cert : Option Nat)

/-- Apply it. -/
def IdConf.change (spki : Nat → Bool) : IdConf → IdChange → Option IdConf
  | c, .keep => some c
  | .inline f p pf pd c, .leaves ef ep epf epd ec =>
    match ef.apply f, ep.apply p, ec.apply c with
    | some f', some p', some c' =>
      if (IdConf.inline f' p' (epf.getD pf) (epd.getD pd) c').valid spki then some (.inline f' p' (epf.getD pf) (epd.getD pd) c') else none
    | _, _, _ => none
  | .inline .., .toRef _ k c => some (.ref k c)
  | .ref k c, .reref ek ec => some (.ref (ek.getD k) (ec.getD c))
  | .ref _ _, .toInline _ f p pf pd c => if (IdConf.inline f p pf pd c).valid spki then some (.inline f p pf pd c) else none
  | _, _ => none

/-- Children of `inline-definition`. -/
def idTrees (f p : Option Nat) (pf pd : Nat) (c : Option Nat) : List Tree :=
  optLeaf .publicKeyFormat f ++ (optLeaf .publicKey p ++ (leaf .privateKeyFormat pf :: leaf .cleartextPrivateKey pd :: optLeaf .certData c))

/-- Children of `central-keystore-reference`. -/
def refTrees (k c : Nat) : List Tree := [leaf .asymmetricKey k, leaf .certificate c]

/-- The children of `certificate` of the identity. -/
def IdConf.trees : IdConf → List Tree
  | .inline f p pf pd c => [.node .inlineDefinition 0 .absent (idTrees f p pf pd c)]
  | .ref k c => [.node .centralKeystoreReference 0 .absent (refTrees k c)]

/-- Change of the identity as data. -/
def IdChange.trees : IdChange → List Tree
  | .keep => []
  | .leaves f p pf pd c => [.node .inlineDefinition 0 .none (leafTree .publicKeyFormat f ++ (leafTree .publicKey p ++
      (replaced .privateKeyFormat pf ++ (replaced .cleartextPrivateKey pd ++ leafTree .certData c))))]
  | .reref k c => [.node .centralKeystoreReference 0 .none (replaced .asymmetricKey k ++ replaced .certificate c)]
  | .toRef rest k c => [.node .inlineDefinition 0 .delete rest, .node .centralKeystoreReference 0 .create (refTrees k c)]
  | .toInline rest f p pf pd c => [.node .inlineDefinition 0 .create (idTrees f p pf pd c), .node .centralKeystoreReference 0 .delete rest]

/-! ## Trusted certificates -/

/-- Trusted certificates: given there or a bag of the truststore (modules/ietf-truststore@2023-12-28.yang:192-242). -/
inductive CertsConf where
  | inline (m : Map Nat)
  | bag (n : Nat)

/-- The same with a list, to be created. -/
inductive CertsData where
  | inline (l : List (Nat × Nat))
  | bag (n : Nat)

/-- The configuration created, if the names differ. -/
def CertsData.conf : CertsData → Option CertsConf
  | .inline l => (certMap l).map CertsConf.inline
  | .bag n => some (.bag n)

/-- Edits of `ca-certs` or `ee-certs`. -/
inductive CertsEdit where
  | keep
  | create (d : CertsData)
  | delete (rest : List Tree)
  | edit (es : List CertEdit)
  | reref (n : Nat)
  | toBag (rest : List Tree) (n : Nat)
  | toInline (old : Nat) (l : List (Nat × Nat))

/-- Apply them. -/
def CertsEdit.apply : CertsEdit → Option CertsConf → Option (Option CertsConf)
  | .keep, c => some c
  | .create d, none => d.conf.map some
  | .delete _, some _ => some none
  | .edit es, some (.inline m) => (patchCerts m es).map (fun m' => some (.inline m'))
  | .reref n, some (.bag _) => some (some (.bag n))
  | .toBag _ n, some (.inline _) => some (some (.bag n))
  | .toInline o l, some (.bag n) => if n = o then (certMap l).map (fun m => some (.inline m)) else none
  | _, _ => none

/-- Nodes of `inline-definition` with the certificates. -/
def certsTree (l : List (Nat × Nat)) (m : Meta := .absent) : Tree := .node .inlineDefinition 0 m (l.map (fun p => certData p.1 p.2))

/-- The children of `ca-certs` or `ee-certs` created. -/
def CertsData.trees : CertsData → List Tree
  | .inline l => [certsTree l]
  | .bag n => [leaf .centralTruststoreReference n]

/-- Edits of the container called `g` as data. -/
def CertsEdit.trees (g : Label) : CertsEdit → List Tree
  | .keep => []
  | .create d => [.node g 0 .create d.trees]
  | .delete rest => [.node g 0 .delete rest]
  | .edit es => [.node g 0 .none [.node .inlineDefinition 0 .none (es.map certTree)]]
  | .reref n => [.node g 0 .none [leaf .centralTruststoreReference n .replace]]
  | .toBag rest n => [.node g 0 .none [.node .inlineDefinition 0 .delete rest, leaf .centralTruststoreReference n .create]]
  | .toInline o l => [.node g 0 .none [certsTree l .create, leaf .centralTruststoreReference o .delete]]

/-- The container `client-authentication`: CA certificates and end-entity certificates. -/
structure AuthConf where
  ca : Option CertsConf
  ee : Option CertsConf

/-- The same to be created. -/
structure AuthData where
  ca : Option CertsData
  ee : Option CertsData

/-- The configuration created. -/
def AuthData.conf (d : AuthData) : Option AuthConf :=
  match (match d.ca with | none => CertsEdit.keep | some x => .create x).apply none,
        (match d.ee with | none => CertsEdit.keep | some x => .create x).apply none with
  | some a, some b => some ⟨a, b⟩
  | _, _ => none

/-- Edits of `client-authentication`. -/
inductive AuthEdit where
  | keep
  | create (d : AuthData)
  | delete (rest : List Tree)
  | change (ca ee : CertsEdit)

/-- Apply them. -/
def AuthEdit.apply : AuthEdit → Option AuthConf → Option (Option AuthConf)
  | .keep, c => some c
  | .create d, none => d.conf.map some
  | .delete _, some _ => some none
  | .change a b, some c =>
    match a.apply c.ca, b.apply c.ee with
    | some x, some y => some (some ⟨x, y⟩)
    | _, _ => none
  | _, _ => none

/-- Children of a created `client-authentication`. -/
def AuthData.trees (d : AuthData) : List Tree :=
  (match d.ca with
    | none => []
    | some x => [.node .caCerts 0 .absent x.trees]) ++
  (match d.ee with
    | none => []
    | some x => [.node .eeCerts 0 .absent x.trees])

/-- Edits of `client-authentication` as data. -/
def AuthEdit.trees : AuthEdit → List Tree
  | .keep => []
  | .create d => [.node .clientAuthentication 0 .create d.trees]
  | .delete rest => [.node .clientAuthentication 0 .delete rest]
  | .change a b => [.node .clientAuthentication 0 .none (a.trees .caCerts ++ b.trees .eeCerts)]

/-! ## TLS versions -/

/-- Edits of the list of TLS versions, which are numbered 0 (1.0) to 3 (1.3). The list is ordered by the user, so that entries can be
moved. -/
inductive VerEdit where
  | add (v : Nat)
  | remove (v : Nat)
  | move (v : Nat)
  deriving DecidableEq

/-- Apply it to the set of configured versions. -/
def VerEdit.apply (f : Nat → Bool) : VerEdit → Option (Nat → Bool)
  | .add v => if v < 4 ∧ f v = false then some (fun x => x == v || f x) else none
  | .remove v => if f v = true then some (fun x => x != v && f x) else none
  | .move v => if f v = true then some f else none

/-- Apply several edits. -/
def patchVersions : (Nat → Bool) → List VerEdit → Option (Nat → Bool)
  | f, [] => some f
  | f, e :: es => (VerEdit.apply f e).bind (fun f' => patchVersions f' es)

/-- An edit of a version as data. -/
def verTree : VerEdit → Tree
  | .add v => leaf .tlsVersion v .create
  | .remove v => leaf .tlsVersion v .delete
  | .move v => leaf .tlsVersion v .replace

/-! ## TLS parameters of an endpoint -/

/-- Their configuration. -/
structure TlsConf where
  id : IdConf
  auth : Option AuthConf
  versions : Nat → Bool

/-- A diff of them. -/
structure TlsDiff where
  id : IdChange
  auth : AuthEdit
  versions : List VerEdit

/-- Apply it. -/
def patchTls (spki : Nat → Bool) (c : TlsConf) (d : TlsDiff) : Option TlsConf :=
  match c.id.change spki d.id, d.auth.apply c.auth, patchVersions c.versions d.versions with
  | some i, some a, some v => some ⟨i, a, v⟩
  | _, _, _ => none

/-- A diff as data. -/
def tlsTree (d : TlsDiff) : Tree :=
  .node .tlsServerParameters 0 .none
    (.node .serverIdentity 0 .none [.node .certificate 0 .none d.id.trees] ::
     (d.auth.trees ++ [.node .helloParams 0 .none [.node .tlsVersions 0 .none (d.versions.map verTree)]]))

/-- Whole data. -/
structure TlsData where
  id : IdConf
  auth : Option AuthData
  versions : List Nat

/-- Their meaning, if they are valid. -/
def TlsData.conf (spki : Nat → Bool) (d : TlsData) : Option TlsConf :=
  match (if d.id.valid spki then some d.id else none),
        (match d.auth with | none => AuthEdit.keep | some a => .create a).apply none,
        patchVersions (fun _ => false) (d.versions.map VerEdit.add) with
  | some i, some a, some v => some ⟨i, a, v⟩
  | _, _, _ => none

/-- The data without operations. -/
def TlsData.tree (d : TlsData) : Tree :=
  .node .tlsServerParameters 0 .absent
    (.node .serverIdentity 0 .absent [.node .certificate 0 .absent d.id.trees] ::
     ((match d.auth with
        | none => []
        | some a => [.node .clientAuthentication 0 .absent a.trees]) ++
      [.node .helloParams 0 .absent [.node .tlsVersions 0 .absent (d.versions.map (fun v => leaf .tlsVersion v))]]))

/-- Apply several diffs. -/
def patchTlsAll (spki : Nat → Bool) : TlsConf → List TlsDiff → Option TlsConf
  | c, [] => some c
  | c, d :: ds => (patchTls spki c d).bind (fun c' => patchTlsAll spki c' ds)

/-! ## What the server does -/

/-- The server presents the key and the certificate configured. -/
def ShownAs (o : Option Shown) : IdConf → Prop
  | .inline _ _ pf pd c => o = some (.own pf (some pd) c)
  | .ref k c => o = some (.ref k c)

/-- Clients are checked against the configured certificates. -/
def TrustAs (o : Option Trust) : Option CertsConf → Prop
  | none => o = some (.certs [])
  | some (.inline m) => ∃ l, HoldsCerts l m ∧ o = some (.certs l)
  | some (.bag n) => o = some (.bag n)

/-- The endpoint works as configured. -/
def TlsAs (s : Tls) (c : TlsConf) : Prop :=
  ShownAs s.id.shown c.id ∧ TrustAs s.ca.trust (c.auth.bind AuthConf.ca) ∧ TrustAs s.ee.trust (c.auth.bind AuthConf.ee) ∧
  ∀ v, s.versions.getLsbD v = c.versions v

/-! ## Changes that are not followed -/

/-- Changes of the identity after which the server does not present what is configured, now or after further changes: the certificate or
the format of the public key removed, a key of the keystore instead of a key with format of the public key, and a key instead of one of
the keystore, if it is without public key or without certificate. -/
def IdConf.lost : IdConf → IdChange → Bool
  | _, .leaves ef _ _ _ ec =>
    (match ef with | .delete _ => true | _ => false) || (match ec with | .delete _ => true | _ => false)
  | .inline f _ _ _ _, .toRef _ _ _ => f.isSome
  | _, .toInline _ _ p _ _ c => p.isNone || c.isNone
  | _, _ => false

/-- Changes of trusted certificates that are not followed: a bag of the truststore instead of certificates and the other way round. -/
def CertsEdit.lost : CertsEdit → Bool
  | .toBag _ _ => true
  | .toInline _ _ => true
  | _ => false

/-- The same for `client-authentication`. -/
def AuthEdit.lost : AuthEdit → Bool
  | .change a b => a.lost || b.lost
  | _ => false

/-- Apply a diff without changes that are not followed. -/
def patchSafe (spki : Nat → Bool) (c : TlsConf) (d : TlsDiff) : Option TlsConf :=
  if c.id.lost d.id || d.auth.lost then none else patchTls spki c d

/-- Apply several such diffs. -/
def patchSafeAll (spki : Nat → Bool) : TlsConf → List TlsDiff → Option TlsConf
  | c, [] => some c
  | c, d :: ds => (patchSafe spki c d).bind (fun c' => patchSafeAll spki c' ds)

/-! ## cert-to-name -/

/-- A cert-to-name entry: map type (0 is `specified`, the only one with a name), name and fingerprint. -/
structure CtnConf where
  mapType : Nat
  name : Option Nat
  fingerprint : Option Nat

/-- Is it valid. -/
def CtnConf.valid (c : CtnConf) : Bool := decide (c.mapType < 6) && (c.mapType == 0) == c.name.isSome

/-- Change of an entry. -/
structure CtnChange where
  mapType : Option Nat
  name : LeafEdit
  fingerprint : LeafEdit

/-- Apply it. -/
def CtnConf.change (c : CtnConf) (e : CtnChange) : Option CtnConf :=
  match e.name.apply c.name, e.fingerprint.apply c.fingerprint with
  | some n, some f => if (CtnConf.mk (e.mapType.getD c.mapType) n f).valid then some ⟨e.mapType.getD c.mapType, n, f⟩ else none
  | _, _ => none

/-- Edits of entries. -/
abbrev CtnEdit := Edit CtnConf CtnChange

/-- Apply them. -/
def patchCtns : Map CtnConf → List CtnEdit → Option (Map CtnConf) := patchAll (fun c => if c.valid then some c else none) CtnConf.change

/-- The operation and value of an edited leaf. -/
def leafOp : LeafEdit → Op × Nat
  | .keep => (.none, 0)
  | .create v => (.create, v)
  | .replace v => (.replace, v)
  | .delete v => (.delete, v)

/-- An edit as it is given to the server. -/
def ctnEdit : CtnEdit → CtnNode
  | .create k c => .create k c.mapType c.name c.fingerprint
  | .delete k _ => .delete k
  | .change k e => .change k e.mapType (leafOp e.name) (leafOp e.fingerprint)

/-- The server holds the entries, in the order of their ids. -/
def CtnsAs (l : List Ctn.Ctn) (m : Map CtnConf) : Prop :=
  l.Pairwise (fun a b => a.id < b.id) ∧
  ∀ k, OptRel (fun (a : Ctn.Ctn) b => a.mapType = b.mapType ∧ a.name = b.name ∧ a.fingerprint = b.fingerprint) (l.find? (fun c => c.id == k)) (m k)

/-- No edit changes the map type or the name of an entry. -/
def onlyFingerprints (es : List CtnEdit) : Prop := ∀ k e, Edit.change k e ∈ es → e.mapType = none ∧ e.name = .keep

end Verif.ConfTls
