import Verif.Model.ConfStoreUse
import Verif.Spec.ConfTlsUse

/-!
# What the application wants that configures the keystore and the truststore by function calls

Only the calls are mentioned.
-/

namespace Verif.ConfStoreUse
open Verif.ConfUtil (Text)
open Verif.ConfStore (TsConf KeyConf Map)
open Verif.ConfTlsUse (privFormats Ident)

/-- The pair of keys of an entry of the keystore. -/
structure Pair where
  pfmt : Text
  pub : Text
  sfmt : Text
  priv : Text

/-- An entry of the keystore: its keys, if they were given, and its certificates by name. -/
structure Key where
  pair : Option Pair
  certs : Text → Option Text

/-- The stores wanted: `bags true` are the bags of certificates, `bags false` those of public keys. -/
structure Store where
  bags : Bool → Text → Option (Text → Option Text)
  keys : Text → Option Key

/-- Nothing was said. -/
def Store.empty : Store := ⟨fun _ _ => none, fun _ => none⟩

/-- Something else under one name. -/
def set {α : Type} (m : Text → Option α) (n : Text) (x : Option α) : Text → Option α := fun k => if k = n then x else m k

/-- Another bag. -/
def Store.setBag (s : Store) (crt : Bool) (b : Text) (x : Option (Text → Option Text)) : Store :=
  { s with bags := fun g => if g = crt then set (s.bags g) b x else s.bags g }

/-- Another key. -/
def Store.setKey (s : Store) (k : Text) (x : Option Key) : Store := { s with keys := set s.keys k x }

/-- What is wanted after a call: a bag or a key is there with the first thing in it; bags stay when they get empty; a key that is given again keeps its
certificates and loses them when it is deleted. -/
def Store.apply (s : Store) : Call → Store
  | .key k pfmt pub sfmt priv => s.setKey k (some ⟨some ⟨pfmt, pub, sfmt, priv⟩, ((s.keys k).map Key.certs).getD (fun _ => none)⟩)
  | .keyCert k c d => s.setKey k (some ⟨(s.keys k).bind Key.pair, set (((s.keys k).map Key.certs).getD (fun _ => none)) c (some d)⟩)
  | .entry crt b k d => s.setBag crt b (some (set ((s.bags crt b).getD (fun _ => none)) k (some d)))
  | .delKey k => s.setKey k none
  | .delKeyCert k c => s.setKey k ((s.keys k).map (fun x => { x with certs := set x.certs c none }))
  | .delEntry crt b k => s.setBag crt b ((s.bags crt b).map (fun m => set m k none))

/-- The stores wanted after the calls. -/
def wanted (cs : List Call) : Store := cs.foldl Store.apply .empty

/-- The calls for the stores. -/
def stores {α : Type} (cs : List (Call ⊕ α)) : List Call := cs.filterMap (fun x => match x with | .inl c => some c | .inr _ => none)

/-- The other calls. -/
def others {α : Type} (cs : List (Call ⊕ α)) : List α := cs.filterMap (fun x => match x with | .inl _ => none | .inr c => some c)

/-- The names of a call. -/
def Call.names : Call → List Text
  | .key k _ _ _ _ | .delKey k => [k]
  | .keyCert k c _ | .delKeyCert k c => [k, c]
  | .entry _ b k _ | .delEntry _ b k => [b, k]

/-- Names can be put between apostrophes. -/
def Call.good (c : Call) : Prop := ∀ x ∈ c.names, '\'' ∉ x

/-- What is to be deleted is there. -/
def Store.possible (s : Store) : Call → Prop
  | .delKey k => ∃ x, s.keys k = some x
  | .delKeyCert k c => ∃ x d, s.keys k = some x ∧ x.certs c = some d
  | .delEntry crt b k => ∃ m d, s.bags crt b = some m ∧ m k = some d
  | _ => True

/-- Formats of public keys, as `nc_server_config_add_keystore_asym_key` gives them, with their numbers. -/
def pubFormats : List String := ["ietf-crypto-types:ssh-public-key-format", "ietf-crypto-types:subject-public-key-info-format"]

/-- Keys given are those read from files: the formats are known. -/
def KeysFromFiles (cs : List Call) : Prop :=
  ∀ k pfmt pub sfmt priv, .key k pfmt pub sfmt priv ∈ cs → pfmt ∈ pubFormats.map String.toList ∧ sfmt ∈ privFormats.map String.toList

/-- Every entry of the keystore has keys. -/
def Store.paired (s : Store) : Prop := ∀ k x, s.keys k = some x → x.pair.isSome

/-- The truststore wanted with numbers for texts: `T` is what they stand for. The format of public keys is that of SSH. -/
def Store.ts (s : Store) (C : Text → Nat) (T : Nat → Text) : TsConf :=
  ⟨fun n => (s.bags true (T n)).map (fun m k => (m (T k)).map C), fun n => (s.bags false (T n)).map (fun m k => (m (T k)).map (fun d => (0, C d)))⟩

/-- The number of a format. -/
def fmtNo (l : List String) (t : Text) : Nat := (l.map String.toList).idxOf t

/-- The keystore wanted with numbers for texts. -/
def Store.ks (s : Store) (C : Text → Nat) (T : Nat → Text) : Map KeyConf := fun n =>
  (s.keys (T n)).bind (fun x => x.pair.map (fun p =>
    ⟨some (fmtNo pubFormats p.pfmt), some (C p.pub), fmtNo privFormats p.sfmt, C p.priv, fun c => (x.certs (T c)).map C⟩))

/-- Format and data of the private key and data of the certificate of an identity: given there, or those in the keystore. -/
inductive IdentIs (s : Store) : Ident → Text → Text → Text → Prop
  | inline (pub pfmt priv crt : Text) : IdentIs s (.inline pub pfmt priv crt) pfmt priv crt
  | stored (k c : Text) (x : Key) (p : Pair) (d : Text) (hk : s.keys k = some x) (hp : x.pair = some p) (hc : x.certs c = some d) :
      IdentIs s (.keystore k c) p.sfmt p.priv d

end Verif.ConfStoreUse
