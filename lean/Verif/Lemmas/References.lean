import Verif.Model.References

namespace Verif.References

open Verif.Endpoints (Ti)

theorem firstBad_false (l : List (Option Bool)) : firstBad l = some false ↔ ∀ x ∈ l, x = some false := by
  induction l with
  | nil => simp [firstBad]
  | cons x l ih =>
    match x with
    | none => simp [firstBad]
    | some true => simp [firstBad]
    | some false => simp [firstBad, ih]

theorem firstBad_ne_none (l : List (Option Bool)) (h : ∀ x ∈ l, x ≠ none) : firstBad l ≠ none := by
  induction l with
  | nil => simp [firstBad]
  | cons x l ih =>
    match x, h x (by simp) with
    | some true, _ => simp [firstBad]
    | some false, _ => simpa [firstBad] using ih (fun y hy => h y (by simp [hy]))

theorem lookup_some {eps : List Ep} {n j : Nat} (h : lookup eps n = some j) : ∃ d, eps[j]? = some d ∧ d ∈ eps ∧ d.name = n := by
  obtain ⟨hj, hp, _⟩ := List.findIdx?_eq_some_iff_getElem.mp h
  exact ⟨eps[j], List.getElem?_eq_getElem hj, List.getElem_mem hj, by simpa using hp⟩

theorem lookup_none {eps : List Ep} {n : Nat} (h : lookup eps n = none) : ∀ d ∈ eps, d.name ≠ n := by
  intro d hd
  simpa using List.findIdx?_eq_none_iff.mp h d hd

theorem name_unique {eps : List Ep} (hu : (eps.map (·.name)).Nodup) {a b : Ep} (ha : a ∈ eps) (hb : b ∈ eps) (h : a.name = b.name) : a = b := by
  induction eps with
  | nil => cases ha
  | cons z l ih =>
    simp only [List.map_cons, List.nodup_cons] at hu
    rcases List.mem_cons.mp ha with ha' | ha' <;> rcases List.mem_cons.mp hb with hb' | hb'
    · rw [ha', hb']
    · exact absurd (by rw [← ha', h]; exact List.mem_map.mpr ⟨b, hb', rfl⟩) hu.1
    · exact absurd (by rw [← hb', ← h]; exact List.mem_map.mpr ⟨a, ha', rfl⟩) hu.1
    · exact ih hu.2 ha' hb'

theorem cycle_mono (eps : List Ep) (o : Nat) : ∀ (f : Nat) (d : Ep) (b : Bool), cycle eps o f d = some b → ∀ n, cycle eps o (f + n) d = some b := by
  intro f
  induction f with
  | zero => intro d b h; simp [cycle] at h
  | succ f ih =>
    intro d b h n
    rw [Nat.add_right_comm]
    unfold cycle at h ⊢
    split
    · rename_i hr; simp only [hr] at h; exact h
    · rename_i r hr
      simp only [hr] at h
      split
      · rename_i ho; simp only [ho, if_true] at h; exact h
      · rename_i ho
        simp only [ho, if_false] at h
        split
        · rename_i hl; simp only [hl] at h; exact h
        · rename_i j hl
          simp only [hl] at h
          split
          · rename_i he; simp only [he] at h; exact h
          · rename_i e he
            simp only [he] at h
            exact ih e b h n

/-- The shape of a successful check of a listening endpoint. -/
theorem checkListen_false {eps : List Ep} {fuel i : Nat} {e : Ep} (h : checkListen eps fuel i e = some false) :
    e.ref = none ∨ ∃ r j d, e.ref = some r ∧ lookup eps r = some j ∧ eps[j]? = some d ∧ i ≠ j ∧ d.ti = e.ti ∧ (e.ti = .ssh ∨ e.ti = .tls) ∧
      cycle eps e.name fuel d = some false := by
  unfold checkListen at h
  cases hr : e.ref with
  | none => exact Or.inl rfl
  | some r =>
    right
    simp only [hr] at h
    cases hl : lookup eps r with
    | none => simp [hl] at h
    | some j =>
      simp only [hl] at h
      cases he : eps[j]? with
      | none => simp [he] at h
      | some d =>
        simp only [he] at h
        split at h
        · simp at h
        · rename_i hij
          split at h
          · simp at h
          · rename_i ht
            split at h
            · simp at h
            · rename_i hs
              simp only [ne_eq, Decidable.not_not] at ht
              refine ⟨r, j, d, rfl, hl, he, hij, ht.symm, ?_, h⟩
              rw [ht]
              cases hd : d.ti <;> simp [hd] at hs ⊢

/-- The shape of a successful check of a Call Home endpoint. -/
theorem checkCh_false {eps : List Ep} {fuel : Nat} {e : Ep} (h : checkCh eps fuel e = some false) :
    e.ref = none ∨ ∃ r j d, e.ref = some r ∧ lookup eps r = some j ∧ eps[j]? = some d ∧ d.ti = e.ti ∧ (e.ti = .ssh ∨ e.ti = .tls) ∧
      cycle eps d.name fuel d = some false := by
  unfold checkCh at h
  cases hr : e.ref with
  | none => exact Or.inl rfl
  | some r =>
    right
    simp only [hr] at h
    cases hl : lookup eps r with
    | none => simp [hl] at h
    | some j =>
      simp only [hl] at h
      cases he : eps[j]? with
      | none => simp [he] at h
      | some d =>
        simp only [he] at h
        split at h
        · simp at h
        · rename_i ht
          split at h
          · simp at h
          · rename_i hs
            simp only [ne_eq, Decidable.not_not] at ht
            refine ⟨r, j, d, rfl, hl, he, ht.symm, ?_, h⟩
            rw [ht]
            cases hd : d.ti <;> simp [hd] at hs ⊢

end Verif.References
