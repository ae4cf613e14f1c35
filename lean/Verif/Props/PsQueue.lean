import Verif.Lemmas.PsQueue

/-!
# Property C16: the lock of a poll structure
-/

namespace Verif.Props

open Verif.PsQueue

/-- Spec side: whenever the lock is called, fewer than 256 calls were made since the call of each thread still present. -/
def fewCalls : Sys → List Ev → Prop
  | _, [] => True
  | s, e :: es => (e = .enter → ∀ t ∈ s.thr, s.calls < t.call + 256) ∧ fewCalls (step s e).2 es

instance decFewCalls : (s : Sys) → (es : List Ev) → Decidable (fewCalls s es)
  | _, [] => inferInstanceAs (Decidable True)
  | s, e :: es =>
    have := decFewCalls (step s e).2 es
    inferInstanceAs (Decidable ((e = .enter → ∀ t ∈ s.thr, s.calls < t.call + 256) ∧ fewCalls (step s e).2 es))

/-- Spec side: the threads that own the structure. -/
def owners (s : Sys) : List Thr := s.thr.filter (fun t => decide (t.st = .owner))

theorem step_inv (s : Sys) (e : Ev) (h : Inv s) (hf : e = .enter → ∀ t ∈ s.thr, s.calls < t.call + 256) :
    Inv (step s e).2 := by
  have h7 : ∀ t l, s.thr = t :: l → t.st ≠ .asleep ∧ ∀ u ∈ l, u.st ≠ .owner := by
    obtain ⟨L, -, -, -, -, -, -, h7⟩ := h; exact h7
  cases e with
  | enter => exact enter_inv s h (fun t l he => hf rfl t (by rw [he]; simp))
  | wake c =>
    simp only [step]
    split
    · rename_i t hfind
      obtain ⟨hm, rfl⟩ := find_mem hfind
      split
      · rename_i hst
        split
        · rename_i hh
          exact setSt_inv s h t hm _ (fun t0 l0 he => ⟨fun _ => by simp, fun hne => absurd ((h.head_eq t0 l0 he t hm).mp hh) hne⟩)
        · rename_i hh
          exact setSt_inv s h t hm _ (fun t0 l0 he => ⟨fun heq => absurd ((h.head_eq t0 l0 he t hm).mpr heq) hh, fun _ => by simp⟩)
      · exact h
    · exact h
  | spurious c =>
    simp only [step]
    split
    · rename_i t hfind
      obtain ⟨hm, rfl⟩ := find_mem hfind
      split
      · exact setSt_inv s h t hm _ (fun t0 l0 he => ⟨fun _ => by simp, fun _ => by simp⟩)
      · exact h
    · exact h
  | timeout c =>
    simp only [step]
    split
    · rename_i t hfind
      obtain ⟨hm, rfl⟩ := find_mem hfind
      split
      · exact h
      · split
        · rename_i hh
          exact setSt_inv s h t hm _ (fun t0 l0 he => ⟨fun _ => by simp, fun hne => absurd ((h.head_eq t0 l0 he t hm).mp hh) hne⟩)
        · rename_i hh
          have := remove_inv s h t hm id (fun _ => rfl) (fun _ => rfl) (fun u _ _ => Or.inr (by
            intro he
            cases hs : s.thr with
            | nil => rw [hs] at he; simp at he
            | cons t0 l0 =>
              rw [hs] at he
              simp only [List.head?_cons, Option.some.injEq] at he
              exact hh ((h.head_eq t0 l0 hs t hm).mpr he.symm))) (fun u => ⟨id, id⟩)
          simpa using this
    · exact h
  | unlock c =>
    simp only [step]
    split
    · rename_i t hfind
      obtain ⟨hm, rfl⟩ := find_mem hfind
      split
      · rename_i hst
        have hfirst : ∀ t0 l0, s.thr = t0 :: l0 → t = t0 := by
          intro t0 l0 he
          rw [he] at hm
          rcases List.mem_cons.mp hm with e | e
          · exact e
          · exact absurd hst ((h7 _ _ he).2 t e)
        split
        · rename_i hh
          exfalso
          cases hs : s.thr with
          | nil => rw [hs] at hm; simp at hm
          | cons t0 l0 => exact hh ((h.head_eq t0 l0 hs t hm).mpr (hfirst _ _ hs))
        · exact remove_inv s h t hm _ (fun t => by split <;> rfl) (fun t => by split <;> rfl)
            (fun u _ _ => Or.inl (by split <;> simp_all)) (fun u => ⟨by split <;> simp_all, by split <;> simp_all⟩)
      · exact h
    · exact h

theorem run_inv (s : Sys) (evs : List Ev) (h : Inv s) (hf : fewCalls s evs) : Inv (run s evs) := by
  induction evs generalizing s with
  | nil => exact h
  | cons e es ih => exact ih _ (step_inv s e h hf.1) hf.2

/-- **C16 (part).**  In every execution (any number of threads, any interleaving of calls, wake-ups, spurious wake-ups, timeouts and
unlocks) in which fewer than 256 calls happen during the stay of any one thread:
at most one thread owns the structure; an owner is the oldest thread present; the oldest thread is never left sleeping
(no lost wake-up) and gets the lock as soon as it runs, even when its wait times out; no other thread gets
the lock; and the owner's unlock succeeds, removes only the owner and wakes everybody.
Missing: executions with more calls during one stay, see `ps_lock_false`. -/
theorem ps_lock_partial (evs : List Ev) (hf : fewCalls init evs) :
    let s := run init evs
    (owners s).length ≤ 1 ∧
    (∀ t ∈ s.thr, t.st = .owner → ∀ u ∈ s.thr, t.call ≤ u.call) ∧
    (∀ t ∈ s.thr, (∀ u ∈ s.thr, t.call ≤ u.call) → t.st ≠ .asleep ∧
      (t.st = .awake → (step s (.wake t.call)).1 = .acquired ∧ (step s (.timeout t.call)).1 = .acquired)) ∧
    (∀ t ∈ s.thr, ∀ u ∈ s.thr, u.call < t.call →
      (step s (.wake t.call)).1 ≠ .acquired ∧ (step s (.timeout t.call)).1 ≠ .acquired) ∧
    (s.thr ≠ [] → (∀ t ∈ s.thr, s.calls < t.call + 256) → (step s .enter).1 ≠ .acquired) ∧
    (∀ t ∈ s.thr, t.st = .owner → (step s (.unlock t.call)).1 = .released ∧
      (step s (.unlock t.call)).2.thr.map (·.call) = (s.thr.map (·.call)).erase t.call ∧
      ∀ u ∈ (step s (.unlock t.call)).2.thr, u.st = .awake) := by
  intro s
  have h : Inv s := run_inv init evs init_inv hf
  have hc := h.calls
  have h7 : ∀ t l, s.thr = t :: l → t.st ≠ .asleep ∧ ∀ u ∈ l, u.st ≠ .owner := by
    obtain ⟨L, -, -, -, -, -, -, h7⟩ := h; exact h7
  have hmin : ∀ t ∈ s.thr, ∀ t0 l0, s.thr = t0 :: l0 → ((∀ u ∈ s.thr, t.call ≤ u.call) → t = t0) ∧ (t ≠ t0 → t0.call < t.call) := by
    intro t ht t0 l0 he
    rw [he] at ht hc
    rcases List.mem_cons.mp ht with e | e
    · exact ⟨fun _ => e, fun hne => absurd e hne⟩
    · have := List.rel_of_pairwise_cons hc e
      refine ⟨fun hall => ?_, fun _ => this⟩
      have := hall t0 (by rw [he]; simp)
      omega
  have howner : ∀ t ∈ s.thr, t.st = .owner → ∀ t0 l0, s.thr = t0 :: l0 → t = t0 := by
    intro t ht hst t0 l0 he
    rw [he] at ht
    rcases List.mem_cons.mp ht with e | e
    · exact e
    · exact absurd hst ((h7 _ _ he).2 t e)
  refine ⟨?_, ?_, ?_, ?_, ?_, ?_⟩
  · unfold owners
    cases hs : s.thr with
    | nil => simp
    | cons t0 l0 =>
      have : l0.filter (fun t => decide (t.st = .owner)) = [] := by
        rw [List.filter_eq_nil_iff]
        intro u hu; simpa using (h7 _ _ hs).2 u hu
      rw [List.filter_cons, this]
      split <;> simp
  · intro t ht hst u hu
    cases hs : s.thr with
    | nil => rw [hs] at ht; simp at ht
    | cons t0 l0 =>
      have e := howner t ht hst t0 l0 hs
      subst e
      by_cases hu' : u = t
      · rw [hu']; exact Nat.le_refl _
      · exact Nat.le_of_lt ((hmin u hu t l0 hs).2 hu')
  · intro t ht hall
    cases hs : s.thr with
    | nil => rw [hs] at ht; simp at ht
    | cons t0 l0 =>
      have e := (hmin t ht t0 l0 hs).1 hall
      subst e
      refine ⟨(h7 _ _ hs).1, ?_⟩
      intro haw
      have hh := (h.head_eq t l0 hs t ht).mpr rfl
      simp only [step, find_of_mem h ht, haw, hh, ↓reduceIte]
      simp
  · intro t ht u hu hlt
    cases hs : s.thr with
    | nil => rw [hs] at ht; simp at ht
    | cons t0 l0 =>
      have hne : t ≠ t0 := by
        rintro rfl
        by_cases e : u = t
        · subst e; omega
        · have := (hmin u hu t l0 hs).2 e; omega
      have hh : ¬ head s.ring = t.id := fun hx => hne ((h.head_eq t0 l0 hs t ht).mp hx)
      simp only [step, find_of_mem h ht, hh, ↓reduceIte]
      constructor
      · split <;> simp
      · split <;> simp
  · intro hne hsp
    by_cases hfull : s.ring.len = qsize
    · simp [step, hfull]
    · -- apply the invariant after the call
      intro hacq
      have hi := enter_inv s h (fun t l he => hsp t (by rw [he]; simp))
      have h7' : ∀ t l, (step s .enter).2.thr = t :: l → t.st ≠ .asleep ∧ ∀ u ∈ l, u.st ≠ .owner := by
        obtain ⟨L, -, -, -, -, -, -, h7⟩ := hi; exact h7
      cases hs : s.thr with
      | nil => exact hne hs
      | cons t0 l0 =>
        simp only [step, hfull, ↓reduceIte] at hacq h7'
        split at hacq
        · rename_i hh
          simp only [hh, ↓reduceIte, hs, List.cons_append] at h7'
          exact (h7' _ _ rfl).2 ⟨s.calls, (addId s.ring).1, .owner⟩ (by simp) rfl
        · cases hacq
  · intro t ht hst
    cases hs : s.thr with
    | nil => rw [hs] at ht; simp at ht
    | cons t0 l0 =>
      have e := howner t ht hst t0 l0 hs
      subst e
      have hh := (h.head_eq t l0 hs t ht).mpr rfl
      have hfil : s.thr.filter (·.call != t.call) = l0 := by
        rw [hs] at hc ⊢
        rw [List.filter_cons_of_neg (by simp), List.filter_eq_self]
        intro a ha
        have := List.rel_of_pairwise_cons hc ha
        simp only [bne_iff_ne, ne_eq]; omega
      simp only [step, find_of_mem h ht, hst, hh, ↓reduceIte, ne_eq, not_true_eq_false, hfil, true_and]
      constructor
      · rw [List.map_cons, List.erase_cons_head, List.map_map]
        congr 1
        funext u
        simp only [Function.comp]
        split <;> rfl
      · intro u hu
        obtain ⟨v, hv, rfl⟩ := List.mem_map.mp hu
        have := (h7 _ _ hs).2 v hv
        split
        · rfl
        · cases hvs : v.st <;> simp_all

/-- Three threads: the second gives up, the third gets the lock after the first releases it. -/
def sample : List Ev := [.enter, .enter, .enter, .timeout 1, .unlock 0, .wake 2]

/-- C16 is not vacuous: `sample` meets the condition and ends with the third call owning the lock. -/
example : fewCalls init sample ∧ (run init sample).thr = [⟨2, 2, .owner⟩] :=
  by decide +kernel

/-- While call 0 owns the lock, 255 threads arrive and all but the youngest give up one after another; then one more arrives. -/
def wrapRun : List Ev := [.enter, .enter] ++ (List.range 254).flatMap (fun i => [.enter, .timeout (i + 1)]) ++ [.enter]

/-- C16 does not hold in general: tickets have 8 bits, and if 256 calls are made during one stay, a thread gets the
owner's ticket and enters as a second owner. -/
theorem ps_lock_false : (owners (run init wrapRun)).map (·.call) = [0, 256] := by decide +kernel

end Verif.Props
