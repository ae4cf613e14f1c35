import Verif.Model.ConfHostUse
import Verif.Spec.ConfStoreUse
import Verif.Spec.ConfUserUse

/-!
# What the application wants that configures host keys by function calls

Only the calls are mentioned.
-/

namespace Verif.ConfHostUse
open Verif.ConfUtil (Text)
open Verif.ConfTlsUse (privFormats)
open Verif.ConfStoreUse (Store Key Pair)

/-- Where the keys of a host key are: given there, or in the keystore. -/
inductive Where where
  | inline (pub sfmt priv : Text)
  | keystore (k : Text)

/-- The host key that a call is for. -/
def Call.host : Call → Text
  | .key h _ _ _ | .ref h _ | .delKey h | .delRef h => h

/-- What is wanted of its host key after a call: no host key, or a host key whose keys may not be known yet. -/
def Call.apply (w : Option (Option Where)) : Call → Option (Option Where)
  | .key _ pub sfmt priv => some (some (.inline pub sfmt priv))
  | .ref _ k => some (some (.keystore k))
  | .delKey _ => none
  | .delRef _ => w.map (fun x => match x with | some (.keystore _) => none | y => y)

/-- The host keys wanted after the calls. -/
def wanted (cs : List Call) (h : Text) : Option (Option Where) :=
  cs.foldl (fun w c => if c.host = h then c.apply w else w) none

/-- The names can be put between apostrophes. -/
def Call.good (c : Call) : Prop := '\'' ∉ c.host

/-- What is to be deleted is there. -/
def Call.possible (w : Option (Option Where)) : Call → Prop
  | .delKey _ => ∃ x, w = some x
  | .delRef _ => ∃ k, w = some (some (.keystore k))
  | _ => True

/-- The calls for host keys. -/
def forHosts (cs : List (Call ⊕ ConfUserUse.Call)) : List Call := cs.filterMap (fun x => match x with | .inl c => some c | .inr _ => none)

/-- The calls for users. -/
def forUsers (cs : List (Call ⊕ ConfUserUse.Call)) : List ConfUserUse.Call := cs.filterMap (fun x => match x with | .inl _ => none | .inr c => some c)

/-- The names of a call can be put between apostrophes. -/
def goodCall : Call ⊕ ConfUserUse.Call → Prop
  | .inl c => c.good
  | .inr c => c.good

/-- Host keys given are those read from files: the format of the private key is known and the public key is one of SSH. -/
def HostsFromFiles (spki : Nat → Bool) (C : Text → Nat) (cs : List Call) : Prop :=
  ∀ h pub sfmt priv, .key h pub sfmt priv ∈ cs → spki (C pub) = false ∧ sfmt ∈ privFormats.map String.toList

/-- Format and data of the private key of a host key: given there, or those in the keystore, which must not be for TLS only. -/
inductive KeyIs (spki : Nat → Bool) (C : Text → Nat) (s : Store) : Where → Text → Text → Prop
  | inline (pub sfmt priv : Text) : KeyIs spki C s (.inline pub sfmt priv) sfmt priv
  | stored (k : Text) (x : Key) (p : Pair) (hk : s.keys k = some x) (hp : x.pair = some p) (hs : spki (C p.pub) = false) :
      KeyIs spki C s (.keystore k) p.sfmt p.priv

end Verif.ConfHostUse
