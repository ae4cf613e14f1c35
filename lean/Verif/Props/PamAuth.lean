import Verif.Model.PamAuth

/-!
# Properties: keyboard-interactive authentication by PAM
-/

namespace Verif.Props
open Verif.PamAuth

/-- **C257.** A client is let in exactly if the method is enabled for the user and the callback of the application says so, or, without one, PAM is configured, could be started, has
authenticated the user and has found the account valid or has changed its expired token. -/
theorem pam_accepted (user : Option Bool) (clb : Option Int) (conf handle : Bool) (ask : Call → Int) :
    (kbdint user clb conf handle ask).1 = 0 ↔ user ≠ some false ∧
      (clb = some 0 ∨ (clb = none ∧ conf = true ∧ ask .start = 0 ∧ ask .authenticate = 0 ∧ (ask .acctMgmt = 0 ∨ (ask .acctMgmt = 12 ∧ ask .chauthtok = 0)))) := by
  simp only [kbdint]
  by_cases hu : user = some false
  · simp [hu]
  · rw [if_neg hu]
    cases clb with
    | some r => by_cases hr : r = 0 <;> simp [hu, hr]
    | none =>
      cases conf with
      | false => simp [pam]
      | true =>
        by_cases h1 : ask .start = 0
        · by_cases h2 : ask .authenticate = 0
          · by_cases h3 : ask .acctMgmt = 0
            · simp [pam, newTokenRequired, hu, h1, h2, h3]
            · by_cases h4 : ask .acctMgmt = 12
              · by_cases h5 : ask .chauthtok = 0 <;> simp [pam, newTokenRequired, hu, h1, h2, h4, h5]
              · simp [pam, newTokenRequired, h1, h2, h3, h4]
          · simp [pam, h1, h2]
        · simp [pam, h1]

example : (kbdint (some true) none true true fun c => if c = .acctMgmt then 12 else 0).1 = 0 ∧
    (kbdint none none true true fun c => if c = .acctMgmt then 13 else 0).1 = 1 := by decide

/-- **C257.** PAM is asked in its order, each time only if it has agreed before: for the user only after it was started, for the account only after the user is authenticated, for a
new token only if the account needs one; it is ended after all other calls. -/
theorem pam_order (user : Option Bool) (clb : Option Int) (conf handle : Bool) (ask : Call → Int) (before after : List Call) (c : Call)
    (h : (kbdint user clb conf handle ask).2 = before ++ c :: after) :
    user ≠ some false ∧ clb = none ∧ conf = true ∧
    match c with
    | .start => before = []
    | .authenticate => before = [.start] ∧ ask .start = 0
    | .acctMgmt => before = [.start, .authenticate] ∧ ask .start = 0 ∧ ask .authenticate = 0
    | .chauthtok => before = [.start, .authenticate, .acctMgmt] ∧ ask .authenticate = 0 ∧ ask .acctMgmt = 12
    | .finish => before ≠ [] ∧ after = [] := by
  simp only [kbdint] at h
  by_cases hu : user = some false
  · simp [hu] at h
  · rw [if_neg hu] at h
    refine ⟨hu, ?_⟩
    cases clb with
    | some r => simp at h
    | none =>
      refine ⟨rfl, ?_⟩
      simp only [pam] at h
      cases conf with
      | false => simp at h
      | true =>
        refine ⟨rfl, ?_⟩
        simp only [Bool.true_eq_false, if_false] at h
        split at h
        · cases handle <;> rcases before with _ | ⟨b1, _ | ⟨b2, bs⟩⟩ <;> simp at h <;> grind
        split at h
        · rcases before with _ | ⟨b1, _ | ⟨b2, _ | ⟨b3, bs⟩⟩⟩ <;> simp at h <;> grind
        split at h
        · rcases before with _ | ⟨b1, _ | ⟨b2, _ | ⟨b3, _ | ⟨b4, bs⟩⟩⟩⟩ <;> simp at h <;> grind
        split at h
        · next h4 =>
          simp only [newTokenRequired] at h4
          rcases before with _ | ⟨b1, _ | ⟨b2, _ | ⟨b3, _ | ⟨b4, _ | ⟨b5, bs⟩⟩⟩⟩⟩ <;> simp at h <;> grind
        · rcases before with _ | ⟨b1, _ | ⟨b2, _ | ⟨b3, _ | ⟨b4, bs⟩⟩⟩⟩ <;> simp at h <;> grind

example : (kbdint none none true true fun c => if c = .acctMgmt then 12 else 0).2 = [.start, .authenticate, .acctMgmt, .chauthtok, .finish] := by decide

/-- **C257.** What was started is ended: the last call is that of `pam_end` if PAM was started with success or the handle was set. -/
theorem pam_ended (user : Option Bool) (clb : Option Int) (conf handle : Bool) (ask : Call → Int) (hs : .start ∈ (kbdint user clb conf handle ask).2) :
    .finish ∈ (kbdint user clb conf handle ask).2 ↔ (ask .start = 0 ∨ handle = true) := by
  simp only [kbdint] at hs ⊢
  by_cases hu : user = some false
  · simp [hu] at hs
  · rw [if_neg hu] at hs ⊢
    cases clb with
    | some r => simp at hs
    | none =>
      simp only [pam] at hs ⊢
      cases conf with
      | false => simp at hs
      | true =>
        by_cases h1 : ask .start = 0
        · simp only [h1]
          simp only [Bool.true_eq_false, if_false, ne_eq, not_true, true_or, iff_true]
          split
          · simp
          split
          · simp
          split <;> simp
        · cases handle <;> simp [h1]

example : (kbdint none none true false fun _ => 1).2 = [.start] := by decide

end Verif.Props
