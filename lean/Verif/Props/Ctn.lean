import Verif.Lemmas.Ctn

namespace Verif.Props

open Verif.Ctn

/-! ## C28: cert-to-name entries -/

/-- Configuration operations: creating or replacing an entry, deleting it, setting or deleting its fingerprint. -/
inductive CtnOp where
  | create (id : Nat) (name : Option Nat) (mt : Nat)
  | delete (id : Nat)
  | fingerprint (id : Nat) (fp : Option Nat)
  deriving DecidableEq, Repr

/-- One operation on the list; a failing one leaves the list as it is. -/
def ctnStep (l : List Ctn) : CtnOp → List Ctn
  | .create id name mt => create l id name mt
  | .delete id => (delete l id).getD l
  | .fingerprint id fp => (setFp l id fp).getD l

/-- Specification: a map from ids to fingerprint, map type and name. -/
def ctnSpecStep (m : Nat → Option (Option Nat × Nat × Option Nat)) : CtnOp → Nat → Option (Option Nat × Nat × Option Nat)
  | .create id name mt => fun j => if j = id then some ((m id).bind (·.1), mt, name) else m j
  | .delete id => fun j => if j = id then none else m j
  | .fingerprint id fp => fun j => if j = id then (m id).map (fun e => (fp, e.2)) else m j

/-- C28: after any sequence of operations the entries are in strictly increasing order of ids, and the entry with an id is the last one configured
(replacing an entry keeps its fingerprint). -/
theorem ctn_sorted_map (ops : List CtnOp) :
    (ops.foldl ctnStep []).Pairwise (fun a b => a.id < b.id) ∧
    ∀ id, ((ops.foldl ctnStep []).find? (fun c => c.id == id)).map (fun c => (c.fingerprint, c.mapType, c.name)) =
      ops.foldl ctnSpecStep (fun _ => none) id := by
  suffices h : ∀ (l : List Ctn) (m : Nat → Option (Option Nat × Nat × Option Nat)), Sorted l →
      (∀ id, (l.find? (fun c => c.id == id)).map (fun c => (c.fingerprint, c.mapType, c.name)) = m id) →
      Sorted (ops.foldl ctnStep l) ∧
      ∀ id, ((ops.foldl ctnStep l).find? (fun c => c.id == id)).map (fun c => (c.fingerprint, c.mapType, c.name)) = ops.foldl ctnSpecStep m id from
    h [] _ (by simp [Sorted]) (by simp)
  induction ops with
  | nil => intro l m hs hm; exact ⟨hs, hm⟩
  | cons op ops ih =>
    intro l m hs hm
    rw [List.foldl_cons, List.foldl_cons]
    cases op with
    | create id name mt =>
      obtain ⟨h1, h2⟩ := create_spec l hs id name mt
      refine ih _ _ h1 (fun j => ?_)
      simp only [ctnStep, ctnSpecStep]
      rw [h2]
      by_cases hj : j = id
      · simp only [hj, if_true]
        rw [← hm id, made]
        cases l.find? (fun c => c.id == id) <;> simp
      · simp only [hj, if_false]; exact hm j
    | delete id =>
      cases hg : get l id with
      | none =>
        refine ih _ _ (by simpa [ctnStep, delete, hg] using hs) (fun j => ?_)
        simp only [ctnStep, ctnSpecStep, delete, hg, Option.map_none, Option.getD_none]
        rw [hm j]
        by_cases hj : j = id
        · rw [if_pos hj, ← hm j, hj]
          have : l.find? (fun c => c.id == id) = none := by
            rw [List.find?_eq_none]
            intro x hx
            simpa using List.findIdx?_eq_none_iff.mp hg x hx
          simp [this]
        · rw [if_neg hj]
      | some i =>
        refine ih _ _ (by simpa [ctnStep, delete, hg] using sorted_erase hs i) (fun j => ?_)
        simp only [ctnStep, ctnSpecStep, delete, hg, Option.map_some, Option.getD_some]
        rw [find_erase l hs id i hg j]
        by_cases hj : j = id
        · simp [hj]
        · simp only [hj, if_false]; exact hm j
    | fingerprint id fp =>
      cases hg : get l id with
      | none =>
        refine ih _ _ (by simpa [ctnStep, setFp, hg] using hs) (fun j => ?_)
        simp only [ctnStep, ctnSpecStep, setFp, hg, Option.map_none, Option.getD_none]
        rw [hm j]
        by_cases hj : j = id
        · have : l.find? (fun c => c.id == id) = none := by
            rw [List.find?_eq_none]
            intro x hx
            simpa using List.findIdx?_eq_none_iff.mp hg x hx
          rw [if_pos hj, ← hm id, this, ← hm j, hj, this]
          rfl
        · rw [if_neg hj]
      | some i =>
        refine ih _ _ ?_ (fun j => ?_)
        · simp only [ctnStep, setFp, hg, Option.map_some, Option.getD_some]
          exact sorted_map_id (modify_map_id l i fp).symm hs
        · simp only [ctnStep, ctnSpecStep, setFp, hg, Option.map_some, Option.getD_some]
          rw [find_modify l id i fp hg j]
          by_cases hj : j = id
          · simp only [hj, if_true]
            rw [← hm id]
            cases l.find? (fun c => c.id == id) <;> simp
          · simp only [hj, if_false]
            rw [← hm j]
            cases l.find? (fun c => c.id == j) <;> simp

/-- Entries configured out of order, one replaced (keeping its fingerprint), one deleted. -/
example : [CtnOp.create 5 none 1, .create 2 none 1, .fingerprint 5 (some 77), .create 9 none 1, .create 5 (some 3) 2, .delete 2, .create 7 none 4].foldl ctnStep [] =
    [⟨5, some 77, 2, some 3⟩, ⟨7, none, 4, none⟩, ⟨9, none, 1, none⟩] := by decide

/-- Deleting an id that is not configured is an error, and only that. -/
theorem ctn_delete_error (ops : List CtnOp) (id : Nat) :
    delete (ops.foldl ctnStep []) id = none ↔ ops.foldl ctnSpecStep (fun _ => none) id = none := by
  rw [← (ctn_sorted_map ops).2 id, Option.map_eq_none_iff]
  simp [delete, Ctn.get, List.findIdx?_eq_none_iff, List.find?_eq_none]

example : delete ([CtnOp.create 5 none 1].foldl ctnStep []) 5 = some [] ∧ delete ([CtnOp.create 5 none 1].foldl ctnStep []) 6 = none := by decide

end Verif.Props
