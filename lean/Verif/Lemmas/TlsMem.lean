import Mathlib.Data.List.Perm.Subperm
import Verif.Spec.TlsMem

/-! # Lemmas about the memory of the Mbed TLS wrappers -/

namespace Verif.TlsMem

theorem gives_some {α : Type} (a : α) (h : Heap) (P : α → Heap → Prop) : Gives (some (a, h)) P ↔ P a h := by
  simp only [Gives, Option.some.injEq, Prod.mk.injEq]
  constructor
  · rintro ⟨a', h', ⟨rfl, rfl⟩, hp⟩; exact hp
  · intro hp; exact ⟨a, h, ⟨rfl, rfl⟩, hp⟩

theorem gives_bind {α β : Type} {x : Option (α × Heap)} {f : α × Heap → Option (β × Heap)} {P : α → Heap → Prop} {Q : β → Heap → Prop}
    (h1 : Gives x P) (h2 : ∀ a h, P a h → Gives (f (a, h)) Q) : Gives (x.bind f) Q := by
  obtain ⟨a, h, rfl, hp⟩ := h1
  exact h2 a h hp

theorem ne12 (n : Nat) : (n = n + 1 + 1) = False := eq_false (by omega)
theorem ne02 (n : Nat) : (n + 1 + 1 = n) = False := eq_false (by omega)

theorem newObj_gives (mem : Nat → Bool) (h : Heap) (hs : h.Sound) :
    Gives (newObj mem h) fun p h' => Leaves h p.toList h' ∧ (p.isSome = mem h.calls) := by
  have hd := hs
  unfold Heap.Sound at hd
  cases hm : mem h.calls
  · simp [newObj, malloc, hm, Leaves, Heap.Sound, gives_some]; assumption
  · simp [newObj, malloc, hm, initObj, Heap.set, Leaves, Heap.Sound, gives_some]
    grind

theorem newFilled_gives (mem : Nat → Bool) (l : Lib) (h : Heap) (hs : h.Sound) :
    Gives (newFilled mem l h) fun p h' => Leaves h p.toList h' ∧ (p.isSome = (l.ok && mem h.calls)) := by
  have hd := hs
  unfold Heap.Sound at hd
  obtain ⟨lo, ll⟩ := l
  cases hm : mem h.calls <;> cases lo <;>
    simp [newFilled, newObj, malloc, hm, initObj, fill, destroy, release, free, Heap.set, Leaves, Heap.Sound, gives_some] <;> grind

theorem newCert_gives (mem : Nat → Bool) (l : Lib) (h : Heap) (hs : h.Sound) :
    Gives (newCert mem l h) fun p h' => Leaves h p.toList h' ∧ (p.isSome = (l.ok && mem h.calls)) := by
  have hd := hs
  unfold Heap.Sound at hd
  obtain ⟨lo, ll⟩ := l
  cases hm : mem h.calls <;> cases lo <;>
    simp [newCert, newObj, malloc, hm, initObj, fill, certDestroy, freeRest, free, Heap.set, Leaves, Heap.Sound, gives_some] <;> grind

theorem isDer_gives (mem : Nat → Bool) (l : Lib) (h : Heap) (hs : h.Sound) :
    Gives (isDer mem l h) fun r h' => Leaves h [] h' ∧ r = if mem h.calls then (if l.ok then 1 else 0) else -1 := by
  have hd := hs
  unfold Heap.Sound at hd
  obtain ⟨lo, ll⟩ := l
  cases hm : mem h.calls <;> cases lo <;>
    simp [isDer, newObj, malloc, hm, initObj, fill, destroy, release, free, Heap.set, Leaves, Heap.Sound, gives_some] <;> grind

theorem pemToKey_gives (mem : Nat → Bool) (seed l : Lib) (h : Heap) (hs : h.Sound) (hm : ¬ (mem h.calls = true ∧ mem (h.calls + 1) = false)) :
    Gives (pemToKey mem seed l h) fun p h' => Leaves h p.toList h' ∧
      (p.isSome = (seed.ok && l.ok && mem h.calls && mem (h.calls + 2))) := by
  have hd := hs
  unfold Heap.Sound at hd
  obtain ⟨so, sl⟩ := seed
  obtain ⟨lo, ll⟩ := l
  cases h0 : mem h.calls <;> cases h1 : mem (h.calls + 1) <;> cases h2 : mem (h.calls + 1 + 1) <;> cases so <;> cases lo <;> simp [h0, h1] at hm <;>
    simp [pemToKey, rngNew, newObj, malloc, h0, h1, h2, initObj, fill, destroy, rngDestroy, release, releaseEntropy, free, Heap.set, Leaves, Heap.Sound,
      gives_some, ne12, ne02] <;> grind

theorem keyFromFile_gives (mem : Nat → Bool) (seed l : Lib) (h : Heap) (hs : h.Sound)
    (hm : ¬ (mem h.calls = true ∧ mem (h.calls + 1) = false)) :
    Gives (keyFromFile mem seed l h) fun p h' => Leaves h p.toList h' ∧
      (p.isSome = (seed.ok && l.ok && mem h.calls && mem (h.calls + 2))) := by
  have hd := hs
  unfold Heap.Sound at hd
  obtain ⟨so, sl⟩ := seed
  obtain ⟨lo, ll⟩ := l
  cases h0 : mem h.calls <;> cases h1 : mem (h.calls + 1) <;> cases h2 : mem (h.calls + 1 + 1) <;> cases so <;> cases lo <;> simp [h0, h1] at hm <;>
    simp [keyFromFile, rngNew, newObj, malloc, h0, h1, h2, initObj, fill, destroy, rngDestroy, release, releaseEntropy, free, Heap.set, Leaves,
      Heap.Sound, gives_some, ne12, ne02] <;> grind

theorem keys_ub (mem : Nat → Bool) (seed l : Lib) (h : Heap) (h0 : mem h.calls = true) (h1 : mem (h.calls + 1) = false) :
    pemToKey mem seed l h = none ∧ keyFromFile mem seed l h = none := by
  simp [pemToKey, keyFromFile, rngNew, malloc, h0, h1, rngDestroy, release, releaseEntropy, free, Heap.set]

theorem leaves_drop {h h1 h2 : Heap} {a : Nat} {ret : List Nat} (ha : Leaves h [a] h1) (hk : Leaves h1 ret h2) :
    Leaves h (a :: ret) h2 := by
  obtain ⟨s1, l1, n1, t1, c1, i1⟩ := ha
  obtain ⟨s2, l2, n2, t2, c2, i2⟩ := hk
  have hat : a < h1.top := by
    apply Decidable.byContradiction
    intro hc
    have := s1 a (by omega)
    obtain ⟨o, ho⟩ := i1 a (by simp)
    rw [ho] at this
    cases this
  have ht : h.top ≤ h1.top := by
    have := t1 a (by simp)
    omega
  have hna : a ∉ ret := fun hc => by have := t2 a hc; omega
  refine ⟨s2, l2.trans l1, List.nodup_cons.mpr ⟨hna, n2⟩, ?_, ?_, ?_⟩
  · intro i hi
    rcases List.mem_cons.mp hi with rfl | hi
    · exact t1 _ (by simp)
    · have := t2 i hi; omega
  · intro i hi
    simp at hi
    rw [c2 i hi.2, c1 i (by simp [hi.1])]
  · intro i hi
    rcases List.mem_cons.mp hi with rfl | hi
    · obtain ⟨o, ho⟩ := i1 i (by simp)
      exact ⟨o, by rw [c2 i hna, ho]⟩
    · exact i2 i hi

theorem certDestroy_leaves {h h1 : Heap} {a : Nat} (ha : Leaves h [a] h1) (htop : h.cell a = .dead) :
    ∃ h2, certDestroy (some a) h1 = some h2 ∧ Leaves h [] h2 := by
  obtain ⟨s1, l1, n1, t1, c1, i1⟩ := ha
  obtain ⟨o, ho⟩ := i1 a (by simp)
  simp only [certDestroy, ho, freeRest, Option.bind_some, free, Heap.set, if_pos, Option.some.injEq, exists_eq_left']
  refine ⟨?_, l1, List.nodup_nil, by simp, ?_, by simp⟩
  · intro i hi
    simp only at hi ⊢
    split
    · rfl
    · exact s1 i hi
  · intro i _
    simp only
    split
    · next he => rw [he, htop]
    · next he => exact c1 i (by simpa using he)

theorem destroy_leaves {h h1 : Heap} {a : Nat} (ha : Leaves h [a] h1) (hd : h.cell a = .dead) :
    ∃ h2, destroy (some a) h1 = some h2 ∧ configDestroy (some a) h1 = some h2 ∧ Leaves h [] h2 := by
  obtain ⟨s1, l1, n1, t1, c1, i1⟩ := ha
  obtain ⟨o, ho⟩ := i1 a (by simp)
  refine ⟨(h1.set a .raw).set a .dead, by simp [destroy, release, ho, free, Heap.set], by simp [configDestroy, release, ho, free, Heap.set],
    ?_, l1, List.nodup_nil, by simp, ?_, by simp⟩
  · intro i hi
    simp only [Heap.set]
    split
    · rfl
    · exact s1 i hi
  · intro i _
    simp only [Heap.set]
    split
    · next he => rw [he, hd]
    · next he => exact c1 i (by simpa using he)

/-- What was returned can be destroyed; then everything is as before. -/
theorem destroys {h h1 : Heap} {p : Ptr} (hs : h.Sound) (ha : Leaves h p.toList h1) :
    ∃ h2 h3, destroy p h1 = some h2 ∧ configDestroy p h1 = some h2 ∧ certDestroy p h1 = some h3 ∧ Leaves h [] h2 ∧ Leaves h [] h3 := by
  cases p with
  | none => exact ⟨h1, h1, rfl, rfl, rfl, ha, ha⟩
  | some a =>
    have hd : h.cell a = .dead := hs a (ha.2.2.2.1 a (by simp))
    obtain ⟨h2, e1, e2, l2⟩ := destroy_leaves ha hd
    obtain ⟨h3, e3, l3⟩ := certDestroy_leaves ha hd
    exact ⟨h2, h3, e1, e2, e3, l2, l3⟩

theorem loadCertKey_gives (mem : Nat → Bool) (lc seed lk : Lib) (h : Heap) (hs : h.Sound)
    (hm : ¬ (mem h.calls = true ∧ lc.ok = true ∧ mem (h.calls + 1) = true ∧ mem (h.calls + 2) = false)) :
    Gives (loadCertKey mem lc seed lk h) fun r h' => Leaves h (both r) h' ∧
      (r.isSome = (lc.ok && seed.ok && lk.ok && mem h.calls && mem (h.calls + 1) && mem (h.calls + 3))) ∧
      ∀ x, r = some x → x.1.isSome ∧ x.2.isSome := by
  have hd := hs
  unfold Heap.Sound at hd
  obtain ⟨co, cl⟩ := lc
  cases h0 : mem h.calls
  · simp [loadCertKey, newObj, malloc, h0, gives_some, Leaves, Heap.Sound, both]
    exact hd
  · cases co
    · simp [loadCertKey, newObj, malloc, h0, gives_some, Leaves, Heap.Sound, both, initObj, fill, certDestroy, freeRest, free, Heap.set]
      grind
    · have hl : ∀ h1 : Heap, h1 = ({ ((h.set h.top .raw).set h.top (.init false none)).set h.top (.init true none) with
          top := h.top + 1, calls := h.calls + 1 } : Heap) → Leaves h [h.top] h1 := by
        rintro h1 rfl
        simp [Leaves, Heap.Sound, Heap.set]
        grind
      have hk := keyFromFile_gives mem seed lk { ((h.set h.top .raw).set h.top (.init false none)).set h.top (.init true none) with
          top := h.top + 1, calls := h.calls + 1 } (by intro i hi; simp [Heap.set] at hi ⊢; have := hd i (by omega); grind)
          (by simp only [h0] at hm; simpa using hm)
      obtain ⟨p, h2, hk1, hk2, hk3⟩ := hk
      have hl' := hl _ rfl
      simp [Heap.set] at hk1 hl' hk2 hk3
      simp [loadCertKey, newObj, malloc, h0, initObj, fill, Heap.set]
      rw [hk1]
      cases p with
      | none =>
        obtain ⟨h3, e3, l3⟩ := certDestroy_leaves (h := h) (a := h.top) (h1 := h2)
          (by obtain ⟨a1, a2, a3, a4, a5, a6⟩ := hk2
              obtain ⟨b1, b2, b3, b4, b5, b6⟩ := hl'
              refine ⟨a1, a2.trans b2, by simp, by simp, ?_, ?_⟩
              · intro i hi
                rw [a5 i (by simp), b5 i hi]
              · intro i hi
                obtain ⟨o, ho⟩ := b6 i hi
                exact ⟨o, by rw [a5 i (by simp), ho]⟩) (hd _ (Nat.le_refl _))
        simp [e3, gives_some, both]
        refine ⟨l3, ?_⟩
        simp at hk3
        grind
      | some k =>
        simp [certDestroy, gives_some, both]
        refine ⟨leaves_drop hl' hk2, ?_⟩
        simp at hk3
        grind

theorem rsaParams_gives (mem : Nat → Bool) (l : Lib) (h : Heap) (hs : h.Sound) (hm : mem h.calls = mem (h.calls + 1)) :
    Gives (rsaParams mem l h) fun r h' => Leaves h (both r) h' ∧ (r.isSome = (l.ok && mem h.calls)) ∧ ∀ x, r = some x → x.1.isSome ∧ x.2.isSome := by
  have hd := hs
  unfold Heap.Sound at hd
  obtain ⟨lo, ll⟩ := l
  cases h0 : mem h.calls <;> cases lo <;> rw [h0] at hm <;> replace hm := hm.symm <;>
    simp [rsaParams, malloc, h0, hm, initObj, fill, release, free, Heap.set, Leaves, Heap.Sound, gives_some, both] <;> grind

theorem rsaParams_ub (mem : Nat → Bool) (l : Lib) (h : Heap) (hm : mem h.calls ≠ mem (h.calls + 1)) : rsaParams mem l h = none := by
  cases h0 : mem h.calls <;> cases h1 : mem (h.calls + 1) <;> simp [h0, h1] at hm <;>
    simp [rsaParams, malloc, h0, h1, release, free, Heap.set]

theorem ecParams_gives (mem : Nat → Bool) (l : Lib) (h : Heap) (hs : h.Sound) (hm : mem h.calls = mem (h.calls + 1))
    (hm2 : mem h.calls = mem (h.calls + 2)) :
    Gives (ecParams mem l h) fun r h' => Leaves h (both r) h' ∧ (r.isSome = (l.ok && mem h.calls)) ∧ ∀ x, r = some x → x.1.isSome ∧ x.2.isSome := by
  have hd := hs
  unfold Heap.Sound at hd
  obtain ⟨lo, ll⟩ := l
  have hm2' : mem h.calls = mem (h.calls + 1 + 1) := hm2
  cases h0 : mem h.calls <;> cases lo <;> rw [h0] at hm hm2' <;> replace hm := hm.symm <;> replace hm2' := hm2'.symm <;>
    simp [ecParams, malloc, h0, hm, hm2', initObj, fill, destroy, release, free, Heap.set, Leaves, Heap.Sound, gives_some, both, ne12, ne02] <;> grind

theorem ecParams_ub (mem : Nat → Bool) (l : Lib) (h : Heap) (hm : ¬ (mem h.calls = mem (h.calls + 1) ∧ mem h.calls = mem (h.calls + 2))) :
    ecParams mem l h = none := by
  have hm' : ¬ (mem h.calls = mem (h.calls + 1) ∧ mem h.calls = mem (h.calls + 1 + 1)) := hm
  cases h0 : mem h.calls <;> cases h1 : mem (h.calls + 1) <;> cases h2 : mem (h.calls + 1 + 1) <;> simp [h0, h1, h2] at hm' <;>
    simp [ecParams, malloc, h0, h1, h2, destroy, release, free, Heap.set]

/-! ## The chain of certificates -/

/-- The certificates of a list in their order. -/
def Linked (cell : Nat → Cell) : Ptr → List Nat → Prop
  | p, [] => p = none
  | p, j :: t => p = some j ∧ ∃ o m, cell j = .init o m ∧ Linked cell m t

theorem Linked.congr {c c' : Nat → Cell} {p : Ptr} {ns : List Nat} (hl : Linked c p ns) (h : ∀ i, i ∈ ns → c' i = c i) : Linked c' p ns := by
  induction ns generalizing p with
  | nil => exact hl
  | cons j t ih =>
    obtain ⟨rfl, o, m, hc, ht⟩ := hl
    exact ⟨rfl, o, m, by rw [h j (by simp), hc], ih ht (fun i hi => h i (by simp [hi]))⟩

theorem lastCert_linked {h : Heap} {k i : Nat} {ns : List Nat} (hl : Linked h.cell (some i) ns) (hk : ns.length ≤ k) :
    ∃ pre j o, ns = pre ++ [j] ∧ lastCert k i h = some j ∧ h.cell j = .init o none := by
  induction ns generalizing i k with
  | nil => cases hl
  | cons j t ih =>
    obtain ⟨hij, o, m, hc, ht⟩ := hl
    cases hij
    cases k with
    | zero => simp at hk
    | succ k =>
      cases t with
      | nil =>
        cases ht
        exact ⟨[], j, o, rfl, by simp [lastCert, hc], hc⟩
      | cons j' t' =>
        have ht' := ht
        obtain ⟨hm, _⟩ := ht
        subst hm
        obtain ⟨pre, j2, o', e, hr, hcj⟩ := ih ht' (by simpa using hk)
        exact ⟨j :: pre, j2, o', by rw [e]; rfl, by simp [lastCert, hc, hr], hcj⟩

theorem Linked.append {c c' : Nat → Cell} {p : Ptr} {pre : List Nat} {j k : Nat} {o o' : Bool} (hl : Linked c p (pre ++ [j]))
    (hn : (pre ++ [j]).Nodup) (hj : c' j = .init o (some k)) (hk : c' k = .init o' none) (h : ∀ i, i ∈ pre → c' i = c i) :
    Linked c' p (pre ++ [j] ++ [k]) := by
  induction pre generalizing p with
  | nil =>
    obtain ⟨rfl, _⟩ := hl
    exact ⟨rfl, o, some k, hj, rfl, o', none, hk, rfl⟩
  | cons a t ih =>
    obtain ⟨rfl, oa, m, hc, ht⟩ := hl
    have hn' : (t ++ [j]).Nodup := by
      rw [List.cons_append] at hn
      exact (List.nodup_cons.mp hn).2
    exact ⟨rfl, oa, m, by rw [h a (by simp), hc], ih ht hn' (fun i hi => h i (by simp [hi]))⟩

theorem freeRest_linked {h : Heap} {k : Nat} {p : Ptr} {ns : List Nat} (hl : Linked h.cell p ns) (hn : ns.Nodup) (hk : ns.length ≤ k) :
    ∃ h', freeRest k p h = some h' ∧ h'.top = h.top ∧ h'.calls = h.calls ∧ h'.lost = h.lost ∧
      ∀ i, h'.cell i = if i ∈ ns then .dead else h.cell i := by
  induction ns generalizing p k h with
  | nil =>
    cases hl
    exact ⟨h, by cases k <;> rfl, rfl, rfl, rfl, by simp⟩
  | cons j t ih =>
    obtain ⟨rfl, o, m, hc, ht⟩ := hl
    cases k with
    | zero => simp at hk
    | succ k =>
      have hn' := List.nodup_cons.mp hn
      have hl' : Linked (h.set j .dead).cell m t :=
        ht.congr (fun i hi => by
          have : i ≠ j := fun e => hn'.1 (e ▸ hi)
          simp [Heap.set, this])
      obtain ⟨h', e, h1, h2, h3, h4⟩ := ih hl' hn'.2 (by simpa using hk)
      refine ⟨h', by simp [freeRest, hc, e], h1, h2, h3, ?_⟩
      intro i
      rw [h4 i]
      by_cases hi : i ∈ t
      · simp [hi]
      · by_cases hj : i = j
        · simp [hj, Heap.set]
        · simp [hi, hj, Heap.set]

theorem certDestroy_linked {h : Heap} {p : Ptr} {ns : List Nat} (hl : Linked h.cell p ns) (hn : ns.Nodup) (hk : ns.length ≤ h.top) :
    ∃ h', certDestroy p h = some h' ∧ h'.top = h.top ∧ h'.calls = h.calls ∧ h'.lost = h.lost ∧
      ∀ i, h'.cell i = if i ∈ ns then .dead else h.cell i := by
  cases ns with
  | nil =>
    cases hl
    exact ⟨h, rfl, rfl, rfl, rfl, by simp⟩
  | cons j t =>
    obtain ⟨rfl, o, m, hc, ht⟩ := hl
    have hn' := List.nodup_cons.mp hn
    have hl' : Linked (h.set j .raw).cell m t :=
      ht.congr (fun i hi => by
        have : i ≠ j := fun e => hn'.1 (e ▸ hi)
        simp [Heap.set, this])
    obtain ⟨h', e, h1, h2, h3, h4⟩ := freeRest_linked (k := h.top) hl' hn'.2 (by simp at hk; omega)
    have hj : h'.cell j = .raw := by rw [h4 j]; simp [hn'.1, Heap.set]
    refine ⟨h'.set j .dead, by simp [certDestroy, hc, e, free, hj], h1, h2, h3, ?_⟩
    intro i
    by_cases hi : i = j
    · simp [hi, Heap.set]
    · simp only [Heap.set, hi, if_false, List.mem_cons, false_or]
      rw [h4 i]
      simp [Heap.set, hi]

theorem certDup_gives (mem : Nat → Bool) (ok : Bool) (h : Heap) (hs : h.Sound) :
    Gives (certDup mem ok h) fun p h' => Leaves h p.toList h' ∧ h.top ≤ h'.top ∧ (p.isSome = (ok && mem h.calls)) ∧
      ∀ i, p = some i → h'.cell i = .init true none := by
  have hd := hs
  unfold Heap.Sound at hd
  cases hm : mem h.calls <;> cases ok <;>
    simp [certDup, newObj, malloc, hm, initObj, fill, free, Heap.set, Leaves, Heap.Sound, gives_some] <;> grind

/-- What holds while the chain is being built: `ns` are its certificates, all allocated since `h0`. -/
structure Building (h0 h : Heap) (chain : Ptr) (ns : List Nat) : Prop where
  sound : h.Sound
  lost : h.lost = h0.lost
  top : h0.top ≤ h.top
  linked : Linked h.cell chain ns
  nodup : ns.Nodup
  range : ∀ i, i ∈ ns → h0.top ≤ i ∧ i < h.top
  others : ∀ i, i ∉ ns → h.cell i = h0.cell i

theorem Building.len {h0 h : Heap} {chain : Ptr} {ns : List Nat} (b : Building h0 h chain ns) : ns.length ≤ h.top := by
  have hsub : ns ⊆ List.range h.top := fun i hi => List.mem_range.mpr (b.range i hi).2
  have := (List.subperm_of_subset b.nodup hsub).length_le
  simpa using this

/-- Freeing the chain leaves nothing behind. -/
theorem Building.destroy {h0 h : Heap} {chain : Ptr} {ns : List Nat} (b : Building h0 h chain ns) (hs0 : h0.Sound) :
    ∃ h', certDestroy chain h = some h' ∧ Leaves h0 [] h' ∧ h0.top ≤ h'.top ∧ h'.calls = h.calls := by
  obtain ⟨h', e, h1, h2, h3, h4⟩ := certDestroy_linked b.linked b.nodup b.len
  refine ⟨h', e, ⟨?_, h3.trans b.lost, List.nodup_nil, by simp, ?_, by simp⟩, by rw [h1]; exact b.top, h2⟩
  · intro i hi
    rw [h4 i]
    split
    · rfl
    · exact b.sound i (by omega)
  · intro i _
    rw [h4 i]
    split
    · next hm => exact (hs0 i (b.range i hm).1).symm
    · next hm => exact b.others i hm

theorem appendCert_building (mem : Nat → Bool) (ok : Bool) {h0 h : Heap} {chain : Ptr} {ns : List Nat} (b : Building h0 h chain ns) :
    Gives (appendCert mem ok chain h) fun r h' => ∃ ns', Building h0 h' r.2 ns' ∧ r.1 = (ok && mem h.calls) := by
  obtain ⟨p, h1, e, lv, htop, hp, hnew⟩ := certDup_gives mem ok h b.sound
  obtain ⟨l1, l2, l3, l4, l5, l6⟩ := lv
  cases p with
  | none =>
    simp only [appendCert, e, Option.bind_some, gives_some]
    refine ⟨ns, ⟨l1, l2.trans b.lost, by have := b.top; omega, b.linked.congr (fun i _ => l5 i (by simp)), b.nodup, ?_, ?_⟩, by simpa using hp⟩
    · intro i hi
      have := b.range i hi
      exact ⟨this.1, by omega⟩
    · intro i hi
      rw [l5 i (by simp), b.others i hi]
  | some c =>
    have hc := hnew c rfl
    have hct : h.top ≤ c := l4 c (by simp)
    have hc1 : c < h1.top := by
      apply Decidable.byContradiction
      intro hx
      rw [l1 c (by omega)] at hc
      cases hc
    have hb := b.top
    have hcn : c ∉ ns := fun hx => by have := (b.range c hx).2; omega
    have hsame : ∀ i, i ≠ c → h1.cell i = h.cell i := fun i hi => l5 i (by simpa using hi)
    cases chain with
    | none =>
      have hns : ns = [] := by
        cases ns with
        | nil => rfl
        | cons a t => cases b.linked.1
      subst hns
      simp only [appendCert, e, Option.bind_some, gives_some]
      refine ⟨[c], ⟨l1, l2.trans b.lost, by omega, ⟨rfl, true, none, hc, rfl⟩, by simp, ?_, ?_⟩, by simpa using hp⟩
      · intro i hi
        simp at hi
        subst hi
        omega
      · intro i hi
        simp at hi
        rw [hsame i hi, b.others i (by simp)]
    | some a =>
      have hl1 : Linked h1.cell (some a) ns := b.linked.congr (fun i hi => hsame i (fun hx => hcn (hx ▸ hi)))
      have hlen := b.len
      obtain ⟨pre, j, o, en, hlast, hcj⟩ := lastCert_linked (k := h1.top) hl1 (by omega)
      simp only [appendCert, e, Option.bind_some, hlast, setNext, hcj, Option.map_some, gives_some]
      have hjn : j ∈ ns := by rw [en]; simp
      have hjc : j ≠ c := fun hx => hcn (hx ▸ hjn)
      have hnd := b.nodup
      rw [en] at hnd
      have hjpre : ∀ i, i ∈ pre → i ≠ j := by
        intro i hi hx
        subst hx
        rw [List.nodup_append] at hnd
        exact hnd.2.2 i hi i (by simp) rfl
      refine ⟨ns ++ [c], ⟨?_, l2.trans b.lost, by simp [Heap.set]; omega, ?_, ?_, ?_, ?_⟩, by simpa using hp⟩
      · intro i hi
        have hij : i ≠ j := by
          have := (b.range j hjn).2
          have : h1.top ≤ i := hi
          omega
        simp [Heap.set, hij]
        exact l1 i hi
      · rw [en]
        rw [en] at hl1
        refine hl1.append hnd (o := o) (o' := true) (by simp [Heap.set]) (by simp [Heap.set, Ne.symm hjc, hc]) ?_
        intro i hi
        simp [Heap.set, hjpre i hi]
      · rw [List.nodup_append]
        refine ⟨b.nodup, by simp, ?_⟩
        intro x hx y hy
        simp at hy
        subst hy
        exact fun hxy => hcn (hxy ▸ hx)
      · intro i hi
        rcases List.mem_append.mp hi with hi | hi
        · have := b.range i hi
          exact ⟨this.1, by simp [Heap.set]; omega⟩
        · simp at hi
          subst hi
          exact ⟨by omega, hc1⟩
      · intro i hi
        simp at hi
        have hij : i ≠ j := fun hx => hi.1 (hx ▸ hjn)
        simp [Heap.set, hij]
        rw [hsame i hi.2, b.others i hi.1]

theorem errStr_building (mem : Nat → Bool) (info : Int) (hi : info ≠ 0 ∧ info ≤ 256) {h0 h : Heap} {chain : Ptr} {ns : List Nat}
    (b : Building h0 h chain ns) :
    ∃ e h1 h2, errStr mem info h = some (e, h1) ∧ free e h1 = some h2 ∧ Building h0 h2 chain ns := by
  have hx : ¬ (info = 0 ∨ info > 256) := by omega
  have key : ∀ h2 : Heap, h2.top = h.top ∨ h2.top = h.top + 1 → h2.lost = h.lost → (∀ i, h2.cell i = if i = h.top then .dead else h.cell i) →
      Building h0 h2 chain ns := by
    intro h2 ht hl hc
    have hb := b.top
    refine ⟨?_, hl.trans b.lost, by omega, b.linked.congr ?_, b.nodup, ?_, ?_⟩
    · intro i hi
      rw [hc i]
      split
      · rfl
      · exact b.sound i (by omega)
    · intro i hi
      rw [hc i, if_neg]
      have := (b.range i hi).2
      omega
    · intro i hi
      have := b.range i hi
      exact ⟨this.1, by omega⟩
    · intro i hi
      rw [hc i]
      split
      · next he => rw [← b.others i hi, he, b.sound _ (Nat.le_refl _)]
      · exact b.others i hi
  cases hm : mem h.calls
  · refine ⟨none, { h with calls := h.calls + 1 }, { h with calls := h.calls + 1 }, by simp [errStr, malloc, hm], rfl, key _ (Or.inl rfl) rfl ?_⟩
    intro i
    simp only
    split
    · next he => rw [he, b.sound _ (Nat.le_refl _)]
    · rfl
  · by_cases hn : info < 0
    · refine ⟨none, { ((h.set h.top .raw).set h.top .dead) with top := h.top + 1, calls := h.calls + 1 },
        { ((h.set h.top .raw).set h.top .dead) with top := h.top + 1, calls := h.calls + 1 }, by simp [errStr, malloc, hm, hn, free, Heap.set], rfl,
        key _ (Or.inr rfl) rfl ?_⟩
      intro i
      simp only [Heap.set]
      split <;> simp_all
    · refine ⟨some h.top, { (h.set h.top .raw) with top := h.top + 1, calls := h.calls + 1 },
        { ((h.set h.top .raw).set h.top .dead) with top := h.top + 1, calls := h.calls + 1 }, by simp [errStr, malloc, hm, hn, hx],
        by simp [free, Heap.set], key _ (Or.inr rfl) rfl ?_⟩
      intro i
      simp only [Heap.set]
      split <;> simp_all

/-- What the callbacks leave behind when they are over. -/
def Done (h0 : Heap) (cc : Ptr) (d : CbData) (h : Heap) : Prop :=
  (cc = none → Leaves h0 d.clientCert.toList h) ∧ (cc ≠ none → d.clientCert = cc ∧ Leaves h0 [] h)

theorem Leaves.done {h0 h : Heap} {cc chain : Ptr} (l : Leaves h0 [] h) : Done h0 cc ⟨chain, cc⟩ h := by
  refine ⟨?_, fun _ => ⟨rfl, l⟩⟩
  rintro rfl
  exact l

theorem leaves_nil_trans {h0 h1 h2 : Heap} {ret : List Nat} (a : Leaves h0 [] h1) (ht : h0.top ≤ h1.top) (b : Leaves h1 ret h2) : Leaves h0 ret h2 := by
  obtain ⟨a1, a2, a3, a4, a5, a6⟩ := a
  obtain ⟨b1, b2, b3, b4, b5, b6⟩ := b
  refine ⟨b1, b2.trans a2, b3, ?_, ?_, b6⟩
  · intro i hi
    have := b4 i hi
    omega
  · intro i hi
    rw [b5 i hi, a5 i (by simp)]

theorem cbEnd_stop (mem : Nat → Bool) (c : Call) (fatal good : Bool) {h0 h : Heap} {chain cc : Ptr} {ns : List Nat} (hs0 : h0.Sound)
    (b : Building h0 h chain ns) (hstop : fatal = true ∨ c.depth = 0) :
    Gives (cbEnd mem c fatal good ⟨chain, cc⟩ h) fun r h' => Done h0 cc r.2 h' ∧ (fatal = true → r.1 = false) ∧
      (r.1 = true → good = true → c.depth = 0 → r.2.clientCert.isSome) := by
  obtain ⟨h1, e, l1, t1, _⟩ := b.destroy hs0
  have hif : (fatal || c.depth == 0) = true := by
    rcases hstop with h | h <;> simp [h]
  simp only [cbEnd, hif, if_true, e, Option.bind_some]
  cases fatal with
  | true =>
    simp only [if_true, gives_some]
    exact ⟨l1.done, by simp⟩
  | false =>
    simp only [Bool.false_eq_true, if_false, false_implies, true_and]
    by_cases hg : (good && c.depth == 0 && cc.isNone) = true
    · obtain ⟨p, h2, e2, l2, _, _, _⟩ := certDup_gives mem c.dup2 h1 l1.1
      simp only [hg, if_true, e2, Option.map_some, gives_some]
      have hcc : cc = none := by
        simp at hg
        exact hg.2
      subst hcc
      exact ⟨⟨fun _ => leaves_nil_trans l1 t1 l2, fun hx => absurd rfl hx⟩, fun hp _ _ => hp⟩
    · rw [if_neg hg, gives_some]
      refine ⟨l1.done, fun _ hgood hd => ?_⟩
      simp [hgood, hd] at hg
      cases cc <;> simp_all

theorem cbEnd_go (mem : Nat → Bool) (c : Call) (good : Bool) {h : Heap} {d : CbData} (hd : c.depth ≠ 0) :
    cbEnd mem c false good d h = some ((true, d), h) := by
  have : (c.depth == 0) = false := by simp [hd]
  simp [cbEnd, this]

theorem verifyCb_step (mem : Nat → Bool) (c : Call) (hi : ∀ info, c.verdict = .printed info → info ≠ 0 ∧ info ≤ 256) {h0 h : Heap} {chain cc : Ptr}
    {ns : List Nat} (hs0 : h0.Sound) (b : Building h0 h chain ns) :
    Gives (verifyCb mem c ⟨chain, cc⟩ h) fun r h' =>
      (r.1 = true ∧ c.depth ≠ 0 ∧ c.verdict ≠ .fatal ∧ r.2.clientCert = cc ∧ ∃ ns', Building h0 h' r.2.chain ns') ∨
      ((r.1 = false ∨ c.depth = 0) ∧ Done h0 cc r.2 h' ∧ (r.1 = true → c.verdict ≠ .fatal ∧ (c.verdict = .ok → r.2.clientCert.isSome))) := by
  obtain ⟨⟨ok, ch⟩, h1, e, ns', b', _⟩ := appendCert_building mem c.dup1 b
  simp only at b'
  cases ok with
  | false =>
    obtain ⟨h2, e2, l2, _, _⟩ := b'.destroy hs0
    simp only [verifyCb, e, Option.bind_some, e2, Option.map_some, gives_some]
    exact Or.inr ⟨Or.inl trivial, l2.done, by simp⟩
  | true =>
    have fin : ∀ (good : Bool) (h2 : Heap) (ns2 : List Nat), Building h0 h2 ch ns2 → c.verdict ≠ .fatal → (c.verdict = .ok → good = true) →
        Gives (cbEnd mem c false good ⟨ch, cc⟩ h2) fun r h' =>
          (r.1 = true ∧ c.depth ≠ 0 ∧ c.verdict ≠ .fatal ∧ r.2.clientCert = cc ∧ ∃ ns', Building h0 h' r.2.chain ns') ∨
          ((r.1 = false ∨ c.depth = 0) ∧ Done h0 cc r.2 h' ∧ (r.1 = true → c.verdict ≠ .fatal ∧ (c.verdict = .ok → r.2.clientCert.isSome))) := by
      intro good h2 ns2 b2 hv hg
      by_cases hd : c.depth = 0
      · obtain ⟨r, h3, e3, hdone, _, hcc⟩ := cbEnd_stop mem c false good (cc := cc) hs0 b2 (Or.inr hd)
        exact ⟨r, h3, e3, Or.inr ⟨Or.inr hd, hdone, fun hr => ⟨hv, fun hok => hcc hr (hg hok) hd⟩⟩⟩
      · rw [cbEnd_go mem c good hd, gives_some]
        exact Or.inl ⟨rfl, hd, hv, rfl, ns2, b2⟩
    simp only [verifyCb, e, Option.bind_some]
    cases hv : c.verdict with
    | ok =>
      have hfin := fin true h1 ns' b' (by simp [hv]) (by simp)
      rw [hv] at hfin
      exact hfin
    | fail =>
      have hfin := fin false h1 ns' b' (by simp [hv]) (by simp [hv])
      rw [hv] at hfin
      exact hfin
    | fatal =>
      obtain ⟨r, h3, e3, hdone, hf, _⟩ := cbEnd_stop mem c true false (cc := cc) hs0 b' (Or.inl rfl)
      exact ⟨r, h3, e3, Or.inr ⟨Or.inl (hf rfl), hdone, fun hr => absurd hr (by rw [hf rfl]; simp)⟩⟩
    | printed info =>
      obtain ⟨p, h2, h3, e2, e3, b3⟩ := errStr_building mem info (hi info hv) b'
      simp only [e2, Option.bind_some, e3]
      have hfin := fin false h3 ns' b3 (by simp [hv]) (by simp [hv])
      rw [hv] at hfin
      exact hfin

theorem verifyRun_gives (mem : Nat → Bool) {h0 : Heap} (hs0 : h0.Sound) (pre : List Call) (last : Call) (hl : last.depth = 0)
    (hpre : ∀ c, c ∈ pre → c.depth ≠ 0)
    (hi : ∀ c, c ∈ pre ++ [last] → ∀ info, c.verdict = .printed info → info ≠ 0 ∧ info ≤ 256) {h : Heap} {chain cc : Ptr} {ns : List Nat}
    (b : Building h0 h chain ns) :
    Gives (verifyRun mem (pre ++ [last]) ⟨chain, cc⟩ h) fun r h' => Done h0 cc r.2 h' ∧
      (r.1 = true → (∀ c, c ∈ pre ++ [last] → c.verdict ≠ .fatal) ∧ (last.verdict = .ok → r.2.clientCert.isSome)) := by
  induction pre generalizing h chain ns with
  | nil =>
    obtain ⟨⟨ok, d⟩, h1, e, hr⟩ := verifyCb_step mem last (hi last (by simp)) (cc := cc) hs0 b
    have hdone : Done h0 cc d h1 ∧ (ok = true → last.verdict ≠ .fatal ∧ (last.verdict = .ok → d.clientCert.isSome)) := by
      rcases hr with hr | hr
      · exact absurd hl hr.2.1
      · exact hr.2
    simp only [List.nil_append, verifyRun, e, Option.bind_some]
    cases ok with
    | false =>
      rw [gives_some]
      exact ⟨hdone.1, by simp⟩
    | true =>
      rw [gives_some]
      exact ⟨hdone.1, fun _ => ⟨by simpa using (hdone.2 rfl).1, (hdone.2 rfl).2⟩⟩
  | cons c t ih =>
    obtain ⟨⟨ok, d⟩, h1, e, hr⟩ := verifyCb_step mem c (hi c (by simp)) (cc := cc) hs0 b
    simp only [List.cons_append, verifyRun, e, Option.bind_some]
    rcases hr with ⟨h1t, _, hv, hcc, ns', b'⟩ | ⟨hs, hdone, _⟩
    · simp only at h1t hcc b'
      subst h1t
      obtain ⟨dch, dcc⟩ := d
      simp only at hcc b'
      subst hcc
      obtain ⟨r, h2, e2, hd2, hr2⟩ := ih (fun x hx => hpre x (by simp [hx])) (fun x hx => hi x (by rw [List.cons_append]; exact List.mem_cons_of_mem _ hx)) b'
      refine ⟨r, h2, e2, hd2, fun hr => ⟨?_, (hr2 hr).2⟩⟩
      intro x hx
      rcases List.mem_cons.mp hx with rfl | hx
      · exact hv
      · exact (hr2 hr).1 x hx
    · have hok : ok = false := hs.resolve_right (hpre c (by simp))
      subst hok
      simp only [gives_some]
      exact ⟨hdone, by simp⟩

theorem certDup_all {mem : Nat → Bool} (hm : ∀ k, mem k = true) {h h' : Heap} {p : Ptr} (e : certDup mem true h = some (p, h')) : p.isSome := by
  unfold certDup newObj malloc at e
  rw [if_pos (hm _)] at e
  obtain ⟨⟨q, h1⟩, e1, e2⟩ := Option.bind_eq_some_iff.mp e
  obtain ⟨h2, -, e3⟩ := Option.map_eq_some_iff.mp e1
  cases e3
  obtain ⟨h3, -, e4⟩ := Option.bind_eq_some_iff.mp e2
  cases e4
  rfl

theorem cbEnd_all {mem : Nat → Bool} (hm : ∀ k, mem k = true) {c : Call} (hc : c.dup2 = true) {good : Bool} {d : CbData} {h h' : Heap}
    {r : Bool × CbData} (e : cbEnd mem c false good d h = some (r, h')) : r.1 = true := by
  unfold cbEnd at e
  obtain ⟨h1, -, e1⟩ := Option.bind_eq_some_iff.mp e
  simp only [Bool.false_eq_true, if_false] at e1
  split at e1
  · obtain ⟨⟨p, h2⟩, e2, e3⟩ := Option.map_eq_some_iff.mp e1
    cases e3
    rw [hc] at e2
    exact certDup_all hm e2
  · cases e1; rfl

theorem verifyCb_all {mem : Nat → Bool} (hm : ∀ k, mem k = true) {c : Call} (h1 : c.dup1 = true) (h2 : c.dup2 = true) (hv : c.verdict ≠ .fatal)
    {d : CbData} {h h' : Heap} {r : Bool × CbData} (e : verifyCb mem c d h = some (r, h')) : r.1 = true := by
  unfold verifyCb at e
  obtain ⟨⟨⟨ok, chain⟩, g⟩, e1, e2⟩ := Option.bind_eq_some_iff.mp e
  have hok : ok = true := by
    unfold appendCert at e1
    obtain ⟨⟨p, g1⟩, e3, e4⟩ := Option.bind_eq_some_iff.mp e1
    rw [h1] at e3
    obtain ⟨q, rfl⟩ := Option.isSome_iff_exists.mp (certDup_all hm e3)
    dsimp only at e4
    split at e4
    · cases e4; rfl
    · obtain ⟨j, -, e5⟩ := Option.bind_eq_some_iff.mp e4
      obtain ⟨g2, -, e6⟩ := Option.map_eq_some_iff.mp e5
      cases e6; rfl
  subst hok
  dsimp only at e2
  split at e2
  · exact cbEnd_all hm h2 e2
  · exact cbEnd_all hm h2 e2
  · rename_i hf; exact absurd hf hv
  · obtain ⟨⟨p, g1⟩, -, e3⟩ := Option.bind_eq_some_iff.mp e2
    obtain ⟨g2, -, e4⟩ := Option.bind_eq_some_iff.mp e3
    exact cbEnd_all hm h2 e4

/-- With enough memory and certificates that can be parsed again, only a fatal error ends the handshake. -/
theorem verifyRun_all {mem : Nat → Bool} (hm : ∀ k, mem k = true) {calls : List Call} (hc : ∀ c ∈ calls, c.dup1 = true ∧ c.dup2 = true ∧ c.verdict ≠ .fatal)
    {d : CbData} {h h' : Heap} {r : Bool × CbData} (e : verifyRun mem calls d h = some (r, h')) : r.1 = true := by
  induction calls generalizing d h with
  | nil => cases e; rfl
  | cons c t ih =>
    obtain ⟨⟨⟨ok, d1⟩, g⟩, e1, e2⟩ := Option.bind_eq_some_iff.mp e
    obtain ⟨c1, c2, c3⟩ := hc c (.head _)
    have : ok = true := verifyCb_all hm c1 c2 c3 e1
    subst this
    exact ih (fun x hx => hc x (.tail _ hx)) e2

end Verif.TlsMem
