import Verif.Model.ConfStore

/-!
# What the keystore and the truststore should contain

Configuration data are maps from the keys of list entries to their contents, without any order. A diff is a list of edits of entries;
`patch…` says what data it turns given data into (`none` if it does not fit them). `…Tree` is the same diff as a YANG data tree with
`yang:operation` metadata, in the form in which it is given to the server.
-/

namespace Verif.ConfStore
open Verif.ConfTree (Op Meta)

/-- Contents of a YANG list: key to entry. -/
abbrev Map (α : Type) := Nat → Option α

/-- The map with one entry changed. -/
def upd {α : Type} (m : Map α) (k : Nat) (v : Option α) : Map α := fun x => if x = k then v else m x

/-- Edit of a list entry with contents `α` created by `ι`, changed by `ε`; deleted entries may carry any child nodes. -/
inductive Edit (ι ε : Type) where
  | create (k : Nat) (x : ι)
  | delete (k : Nat) (rest : List Tree)
  | change (k : Nat) (e : ε)

/-- Apply an edit of a list entry: only new entries can be created, only existing ones deleted or changed. -/
def patch {ι ε α : Type} (mk : ι → Option α) (ch : α → ε → Option α) (m : Map α) : Edit ι ε → Option (Map α)
  | .create k x => match m k with
    | none => (mk x).map (fun y => upd m k (some y))
    | some _ => none
  | .delete k _ => match m k with
    | none => none
    | some _ => some (upd m k none)
  | .change k e => match m k with
    | none => none
    | some y => (ch y e).map (fun z => upd m k (some z))

/-- Apply several edits. -/
def patchAll {ι ε α : Type} (mk : ι → Option α) (ch : α → ε → Option α) : Map α → List (Edit ι ε) → Option (Map α)
  | m, [] => some m
  | m, e :: es => match patch mk ch m e with
    | none => none
    | some m' => patchAll mk ch m' es

/-- A leaf. -/
def leaf (l : Label) (v : Nat) (m : Meta := .absent) : Tree := .node l v m []

/-! ## Certificates: name and `cert-data` (mandatory) -/

/-- Edits of certificates. -/
abbrev CertEdit := Edit Nat Nat

/-- Apply them. -/
def patchCerts : Map Nat → List CertEdit → Option (Map Nat) := patchAll some (fun _ d => some d)

/-- A certificate as data. -/
def certData (n d : Nat) (m : Meta := .absent) : Tree := .node .certificate 0 m [leaf .name n, leaf .certData d]

/-- An edit of a certificate as data. -/
def certTree : CertEdit → Tree
  | .create n d => certData n d .create
  | .delete n rest => .node .certificate 0 .delete (leaf .name n :: rest)
  | .change n d => .node .certificate 0 .none [leaf .name n, leaf .certData d .replace]

/-! ## Bags of certificates -/

/-- Edits of bags of certificates. -/
abbrev CertBagEdit := Edit (List (Nat × Nat)) (List CertEdit)

/-- A list of certificates as map, if the names differ. -/
def certMap (l : List (Nat × Nat)) : Option (Map Nat) := patchCerts (fun _ => none) (l.map (fun p => .create p.1 p.2))

/-- Apply edits of bags. -/
def patchCertBags : Map (Map Nat) → List CertBagEdit → Option (Map (Map Nat)) := patchAll certMap patchCerts

/-- A bag as data. -/
def certBagData (n : Nat) (l : List (Nat × Nat)) (m : Meta := .absent) : Tree :=
  .node .certificateBag 0 m (leaf .name n :: l.map (fun p => certData p.1 p.2))

/-- An edit of a bag as data. -/
def certBagTree : CertBagEdit → Tree
  | .create n l => certBagData n l .create
  | .delete n rest => .node .certificateBag 0 .delete (leaf .name n :: rest)
  | .change n es => .node .certificateBag 0 .none (leaf .name n :: es.map certTree)

/-! ## Public keys: name, format and data (both mandatory) -/

/-- Change of a public key: new format and new data, if changed. -/
structure PubChange where
  fmt : Option Nat
  data : Option Nat

/-- Edits of public keys. -/
abbrev PubEdit := Edit (Nat × Nat) PubChange

/-- Supported formats. -/
def fmtOk (f : Nat) : Bool := f == 0 || f == 1

/-- Apply them; only supported formats are valid. -/
def patchPubs : Map (Nat × Nat) → List PubEdit → Option (Map (Nat × Nat)) :=
  patchAll (fun p => if fmtOk p.1 then some p else none)
    (fun p c => if fmtOk (c.fmt.getD p.1) then some (c.fmt.getD p.1, c.data.getD p.2) else none)

/-- A public key as data. -/
def pubData (n : Nat) (p : Nat × Nat) (m : Meta := .absent) : Tree :=
  .node .publicKey 0 m [leaf .name n, leaf .publicKeyFormat p.1, leaf .publicKey p.2]

/-- Leaves replaced. -/
def replaced (l : Label) : Option Nat → List Tree
  | none => []
  | some v => [leaf l v .replace]

/-- An edit of a public key as data. -/
def pubTree : PubEdit → Tree
  | .create n p => pubData n p .create
  | .delete n rest => .node .publicKey 0 .delete (leaf .name n :: rest)
  | .change n c => .node .publicKey 0 .none (leaf .name n :: (replaced .publicKeyFormat c.fmt ++ replaced .publicKey c.data))

/-- Edits of bags of public keys. -/
abbrev PubBagEdit := Edit (List (Nat × (Nat × Nat))) (List PubEdit)

/-- A list of public keys as map. -/
def pubMap (l : List (Nat × (Nat × Nat))) : Option (Map (Nat × Nat)) := patchPubs (fun _ => none) (l.map (fun p => .create p.1 p.2))

/-- Apply edits of bags. -/
def patchPubBags : Map (Map (Nat × Nat)) → List PubBagEdit → Option (Map (Map (Nat × Nat))) := patchAll pubMap patchPubs

/-- A bag as data. -/
def pubBagData (n : Nat) (l : List (Nat × (Nat × Nat))) (m : Meta := .absent) : Tree :=
  .node .publicKeyBag 0 m (leaf .name n :: l.map (fun p => pubData p.1 p.2))

/-- An edit of a bag as data. -/
def pubBagTree : PubBagEdit → Tree
  | .create n l => pubBagData n l .create
  | .delete n rest => .node .publicKeyBag 0 .delete (leaf .name n :: rest)
  | .change n es => .node .publicKeyBag 0 .none (leaf .name n :: es.map pubTree)

/-! ## Truststore -/

/-- Configuration of the truststore. -/
structure TsConf where
  certBags : Map (Map Nat)
  pubBags : Map (Map (Nat × Nat))

/-- The empty truststore. -/
def TsConf.empty : TsConf := ⟨fun _ => none, fun _ => none⟩

/-- Diff of the two containers or removal of the whole truststore. -/
inductive TsDiff where
  | edit (cs : List CertBagEdit) (ps : List PubBagEdit)
  | clearCerts (rest : List Tree) (ps : List PubBagEdit)
  | clearPubs (cs : List CertBagEdit) (rest : List Tree)
  | clear (rest : List Tree)

/-- Apply a diff of the truststore. -/
def patchTs (c : TsConf) : TsDiff → Option TsConf
  | .edit cs ps => match patchCertBags c.certBags cs, patchPubBags c.pubBags ps with
    | some a, some b => some ⟨a, b⟩
    | _, _ => none
  | .clearCerts _ ps => match patchPubBags c.pubBags ps with
    | some b => some ⟨fun _ => none, b⟩
    | none => none
  | .clearPubs cs _ => match patchCertBags c.certBags cs with
    | some a => some ⟨a, fun _ => none⟩
    | none => none
  | .clear _ => some TsConf.empty

/-- A diff of the truststore as data. -/
def tsTree : TsDiff → Tree
  | .edit cs ps => .node .truststore 0 .none
      [.node .certificateBags 0 .absent (cs.map certBagTree), .node .publicKeyBags 0 .absent (ps.map pubBagTree)]
  | .clearCerts rest ps => .node .truststore 0 .none
      [.node .certificateBags 0 .delete rest, .node .publicKeyBags 0 .absent (ps.map pubBagTree)]
  | .clearPubs cs rest => .node .truststore 0 .none
      [.node .certificateBags 0 .absent (cs.map certBagTree), .node .publicKeyBags 0 .delete rest]
  | .clear rest => .node .truststore 0 .delete rest

/-- Whole data of a truststore: lists of bags. -/
structure TsData where
  certBags : List (Nat × List (Nat × Nat))
  pubBags : List (Nat × List (Nat × (Nat × Nat)))

/-- Their meaning, if the keys differ. -/
def TsData.conf (d : TsData) : Option TsConf :=
  patchTs TsConf.empty (.edit (d.certBags.map (fun b => .create b.1 b.2)) (d.pubBags.map (fun b => .create b.1 b.2)))

/-- Data without operations. -/
def TsData.tree (d : TsData) : Tree :=
  .node .truststore 0 .absent
    [.node .certificateBags 0 .absent (d.certBags.map (fun b => certBagData b.1 b.2)),
     .node .publicKeyBags 0 .absent (d.pubBags.map (fun b => pubBagData b.1 b.2))]

/-! ## What the server holds -/

/-- Both missing or both there and related. -/
def OptRel {α β : Type} (R : α → β → Prop) : Option α → Option β → Prop
  | none, none => True
  | some a, some b => R a b
  | _, _ => False

/-- The array holds exactly the entries of the map, each key once. -/
def Holds {α β : Type} (key : α → Nat) (R : α → β → Prop) (l : List α) (m : Map β) : Prop :=
  (l.map key).Nodup ∧ ∀ n, OptRel R (l.find? (fun x => key x == n)) (m n)

/-- The array of certificates holds the certificates `m`. -/
def HoldsCerts (l : List Cert) (m : Map Nat) : Prop := Holds Cert.name (fun c d => c.data = some d) l m

/-- The array of public keys holds the public keys `m`. -/
def HoldsPubs (l : List PubKey) (m : Map (Nat × Nat)) : Prop := Holds PubKey.name (fun c p => c.type = p.1 ∧ c.data = some p.2) l m

/-- The truststore of the server is as configured. -/
def HoldsTs (s : Ts) (c : TsConf) : Prop :=
  Holds CertBag.name (fun b m => HoldsCerts b.certs m) s.certBags c.certBags ∧
  Holds PubBag.name (fun b m => HoldsPubs b.keys m) s.pubBags c.pubBags

/-! ## Keystore -/

/-- Configuration of an asymmetric key: the leaves of the public key are optional, those of the private key mandatory with the
features of the server (src/server_config.c:4238, modules/ietf-crypto-types@2023-12-28.yang:866-920). -/
structure KeyConf where
  pubFmt : Option Nat
  pub : Option Nat
  privFmt : Nat
  priv : Nat
  certs : Map Nat

/-- An asymmetric key to create. -/
structure KeyData where
  pubFmt : Option Nat
  pub : Option Nat
  privFmt : Nat
  priv : Nat
  certs : List (Nat × Nat)

/-- Edit of an optional leaf. -/
inductive LeafEdit where
  | keep
  | create (v : Nat)
  | replace (v : Nat)
  | delete (v : Nat)
  deriving DecidableEq

/-- Apply it. -/
def LeafEdit.apply : LeafEdit → Option Nat → Option (Option Nat)
  | .keep, o => some o
  | .create v, none => some (some v)
  | .create _, some _ => none
  | .replace v, some _ => some (some v)
  | .replace _, none => none
  | .delete v, some w => if v = w then some none else none
  | .delete _, none => none

/-- Change of an asymmetric key. -/
structure KeyChange where
  pubFmt : LeafEdit
  pub : LeafEdit
  privFmt : Option Nat
  priv : Option Nat
  certs : List CertEdit

/-- Edits of asymmetric keys. -/
abbrev KeyEdit := Edit KeyData KeyChange

/-- Is the format of a private key supported. -/
def privOk (f : Nat) : Bool := f == 0 || f == 1 || f == 2 || f == 3

/-- The configuration created. -/
def KeyData.conf (d : KeyData) : Option KeyConf :=
  if (d.pubFmt.all fmtOk && privOk d.privFmt) = true then
    (certMap d.certs).map (fun m => ⟨d.pubFmt, d.pub, d.privFmt, d.priv, m⟩)
  else none

/-- The configuration changed. -/
def KeyConf.change (k : KeyConf) (c : KeyChange) : Option KeyConf :=
  match c.pubFmt.apply k.pubFmt, c.pub.apply k.pub, patchCerts k.certs c.certs with
  | some f, some p, some m =>
    if (f.all fmtOk && privOk (c.privFmt.getD k.privFmt)) = true then
      some ⟨f, p, c.privFmt.getD k.privFmt, c.priv.getD k.priv, m⟩
    else none
  | _, _, _ => none

/-- Apply edits of keys. -/
def patchKeys : Map KeyConf → List KeyEdit → Option (Map KeyConf) := patchAll KeyData.conf KeyConf.change

/-- An optional leaf as data. -/
def optLeaf (l : Label) : Option Nat → List Tree
  | none => []
  | some v => [leaf l v]

/-- Edit of an optional leaf as data. -/
def leafTree (l : Label) : LeafEdit → List Tree
  | .keep => []
  | .create v => [leaf l v .create]
  | .replace v => [leaf l v .replace]
  | .delete v => [leaf l v .delete]

/-- An asymmetric key as data. -/
def keyData (n : Nat) (d : KeyData) (m : Meta := .absent) : Tree :=
  .node .asymmetricKey 0 m (leaf .name n :: (optLeaf .publicKeyFormat d.pubFmt ++ (optLeaf .publicKey d.pub ++
    [leaf .privateKeyFormat d.privFmt, leaf .cleartextPrivateKey d.priv,
     .node .other 0 .absent (d.certs.map (fun p => certData p.1 p.2))])))

/-- An edit of an asymmetric key as data. -/
def keyTree : KeyEdit → Tree
  | .create n d => keyData n d .create
  | .delete n rest => .node .asymmetricKey 0 .delete (leaf .name n :: rest)
  | .change n c => .node .asymmetricKey 0 .none (leaf .name n :: (leafTree .publicKeyFormat c.pubFmt ++ (leafTree .publicKey c.pub ++
      (replaced .privateKeyFormat c.privFmt ++ (replaced .cleartextPrivateKey c.priv ++ [.node .other 0 .absent (c.certs.map certTree)])))))

/-- Diff of the keystore or removal of it. -/
inductive KsDiff where
  | edit (ks : List KeyEdit)
  | clearKeys (rest : List Tree)
  | clear (rest : List Tree)

/-- Apply a diff of the keystore. -/
def patchKs (c : Map KeyConf) : KsDiff → Option (Map KeyConf)
  | .edit ks => patchKeys c ks
  | .clearKeys _ => some (fun _ => none)
  | .clear _ => some (fun _ => none)

/-- A diff of the keystore as data. -/
def ksTree : KsDiff → Tree
  | .edit ks => .node .keystore 0 .none [.node .asymmetricKeys 0 .absent (ks.map keyTree)]
  | .clearKeys rest => .node .keystore 0 .none [.node .asymmetricKeys 0 .delete rest]
  | .clear rest => .node .keystore 0 .delete rest

/-- The keystore of the server is as configured (the type of a missing public key does not matter). -/
def HoldsKs (s : Ks) (c : Map KeyConf) : Prop :=
  Holds AsymKey.name (fun k d => (∀ f, d.pubFmt = some f → k.pubType = f) ∧ k.pubData = d.pub ∧ k.privType = d.privFmt ∧
    k.privData = some d.priv ∧ HoldsCerts k.certs d.certs) s.keys c

/-- Whole data of a keystore as tree without operations. -/
def ksDataTree (l : List (Nat × KeyData)) : Tree :=
  .node .keystore 0 .absent [.node .asymmetricKeys 0 .absent (l.map (fun k => keyData k.1 k.2))]

/-- Their meaning. -/
def ksDataConf (l : List (Nat × KeyData)) : Option (Map KeyConf) := patchKeys (fun _ => none) (l.map (fun k => .create k.1 k.2))

/-- No edit of the diff removes a leaf of a public key. -/
def KsDiff.noPubDelete : KsDiff → Prop
  | .edit ks => ∀ k c v, Edit.change k c ∈ ks → c.pub ≠ .delete v
  | _ => True

/-- Apply several diffs of the truststore one after another. -/
def patchTsAll : TsConf → List TsDiff → Option TsConf
  | c, [] => some c
  | c, d :: ds => (patchTs c d).bind (fun c' => patchTsAll c' ds)

/-- Apply several diffs of the keystore one after another. -/
def patchKsAll : Map KeyConf → List KsDiff → Option (Map KeyConf)
  | c, [] => some c
  | c, d :: ds => (patchKs c d).bind (fun c' => patchKsAll c' ds)

end Verif.ConfStore
