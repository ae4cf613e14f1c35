import Verif.Spec.ConfSetup
import Verif.Model.ConfUse

/-!
# What the application wants that configures endpoints by function calls
-/

namespace Verif.ConfUse
open Verif.ConfUtil (Text)
open Verif.ConfEndpt (Ti EndptConf)

/-- Transport, address and port of an endpoint. -/
abbrev Want := Ti × Text × Nat

/-- What is wanted after the calls: the last one for an endpoint counts. -/
def wanted (cs : List Call) (n : Text) : Option Want :=
  (cs.reverse.findSome? (fun
    | .add m t a p => if m = n then some (some (t, a, p)) else none
    | .del m => if m = n then some none else none)).join

/-- The name in a call. -/
def Call.name : Call → Text
  | .add n _ _ _ => n
  | .del n => n

/-- Names can be put between apostrophes, and ports are those of TCP. -/
def Call.good : Call → Prop
  | .add n _ _ p => '\'' ∉ n ∧ 0 < p ∧ p < 65536
  | .del n => '\'' ∉ n

/-- An endpoint that has a transport is not given another one without being deleted before. -/
def Steady (cs : List Call) : Prop :=
  ∀ pre n t a p post, cs = pre ++ .add n t a p :: post → ∀ w, wanted pre n = some w → w.1 = t

/-- An endpoint as configured, with numbers for texts and without keepalives of its own. -/
def confOf (C : Codes) (w : Want) : EndptConf := ⟨w.1, C.addr w.2.1, some w.2.2, ⟨none, none, none⟩⟩

end Verif.ConfUse
