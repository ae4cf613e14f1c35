import Verif.Model.TransCfg

/-! # Lemmas about the parameters of the transport -/

namespace Verif.TransCfg

theorem range_some (m : BitVec 32) (hm : m ≠ 0) (h4 : ∀ i, m.getLsbD i = true → i ≤ 3) :
    ∃ a b, ConfTls.opensslRange m = (some a, some b) ∧ m.getLsbD a = true ∧ m.getLsbD b = true ∧
      ∀ i, m.getLsbD i = true → a ≤ i ∧ i ≤ b := by
  have hne : ∃ i, m.getLsbD i = true := by
    apply Classical.byContradiction
    intro hn
    apply hm
    apply BitVec.eq_of_getLsbD_eq
    intro i hi
    cases hb : m.getLsbD i with
    | false => simp
    | true => exact absurd ⟨i, hb⟩ hn
  obtain ⟨i, hi⟩ := hne
  have hi3 := h4 i hi
  have hcase : ∀ j, m.getLsbD j = true → j = 0 ∨ j = 1 ∨ j = 2 ∨ j = 3 := fun j hj => by have := h4 j hj; omega
  unfold ConfTls.opensslRange ConfTls.has
  cases h0 : m.getLsbD 0 <;> cases h1 : m.getLsbD 1 <;> cases h2 : m.getLsbD 2 <;> cases h3 : m.getLsbD 3 <;>
    first
    | (exfalso
       rcases hcase i hi with r | r | r | r <;> subst r <;> simp_all; done)
    | (refine ⟨_, _, rfl, ?_, ?_, fun j hj => ?_⟩
       · assumption
       · assumption
       · rcases hcase j hj with r | r | r | r <;> subst r <;> first | (constructor <;> decide) | (simp_all))

theorem setAlgs_in {known : Kind → List Nat} {k : Kind} {l : List Nat} {b b' : Kind → List Nat} (h : setAlgs known k (some l) b = some b') (x : Nat)
    (hx : x ∈ b' k) : x ∈ l := by
  simp only [setAlgs] at h
  split at h
  · cases h
  · cases h
    simp only [if_true] at hx
    exact (List.mem_filter.1 hx).1

theorem setAlgs_other {known : Kind → List Nat} {k k' : Kind} {l : Option (List Nat)} {b b' : Kind → List Nat} (h : setAlgs known k l b = some b')
    (hk : k' ≠ k) : b' k' = b k' := by
  cases l with
  | none => cases h; rfl
  | some l =>
    simp only [setAlgs] at h
    split at h
    · cases h
    · cases h
      simp [hk]

theorem setAlgs_none {known : Kind → List Nat} {k : Kind} {b b' : Kind → List Nat} (h : setAlgs known k none b = some b') : b' = b := by
  cases h
  rfl

theorem setAlgs_has {known : Kind → List Nat} {k : Kind} {l : Option (List Nat)} {b : Kind → List Nat} (h : ∀ ls, l = some ls → ∃ x ∈ ls, x ∈ known k) :
    ∃ b', setAlgs known k l b = some b' ∧ ∀ ls, l = some ls → b' k = ls.filter (fun x => (known k).contains x) := by
  cases l with
  | none => exact ⟨b, rfl, fun _ h => nomatch h⟩
  | some ls =>
    obtain ⟨x, hx, hk⟩ := h ls rfl
    have hne : ls.filter (fun x => (known k).contains x) ≠ [] :=
      List.ne_nil_of_mem (List.mem_filter.2 ⟨hx, by simpa using hk⟩)
    refine ⟨_, by simp only [setAlgs]; exact if_neg hne, fun ls' hl => ?_⟩
    cases hl
    simp

theorem chosen_in {c s : List Nat} {x : Nat} (h : chosen c s = some x) : x ∈ c ∧ x ∈ s :=
  ⟨List.mem_of_find?_eq_some h, by have := List.find?_some h; simpa using this⟩

/-- The lists announced. -/
theorem bindAlgs_parts {known defs : Kind → List Nat} {o : Algs} {b : Kind → List Nat} (h : bindAlgs known defs o = some b) :
    (∀ l, o.hostKey = some l → ∀ x ∈ b .hostKey, x ∈ l) ∧ (∀ l, o.encryption = some l → ∀ x ∈ b .cipherSC, x ∈ l) ∧
      (∀ l, o.kex = some l → ∀ x ∈ b .kex, x ∈ l) ∧ (∀ l, o.mac = some l → ∀ x ∈ b .macSC, x ∈ l) ∧ b .cipherCS = defs .cipherCS ∧
      b .macCS = defs .macCS := by
  unfold bindAlgs at h
  split at h
  · cases h
  rename_i b1 h1
  split at h
  · cases h
  rename_i b2 h2
  split at h
  · cases h
  rename_i b3 h3
  refine ⟨fun l hl x hx => ?_, fun l hl x hx => ?_, fun l hl x hx => ?_, fun l hl x hx => ?_, ?_, ?_⟩
  · rw [setAlgs_other h (by decide), setAlgs_other h3 (by decide), setAlgs_other h2 (by decide)] at hx
    rw [hl] at h1
    exact setAlgs_in h1 x hx
  · rw [setAlgs_other h (by decide), setAlgs_other h3 (by decide)] at hx
    rw [hl] at h2
    exact setAlgs_in h2 x hx
  · rw [setAlgs_other h (by decide)] at hx
    rw [hl] at h3
    exact setAlgs_in h3 x hx
  · rw [hl] at h
    exact setAlgs_in h x hx
  · rw [setAlgs_other h (by decide), setAlgs_other h3 (by decide), setAlgs_other h2 (by decide), setAlgs_other h1 (by decide)]
  · rw [setAlgs_other h (by decide), setAlgs_other h3 (by decide), setAlgs_other h2 (by decide), setAlgs_other h1 (by decide)]

/-- With a known algorithm in each list the server announces the known ones. -/
theorem bindAlgs_ok {known defs : Kind → List Nat} {o : Algs} (h1 : ∀ l, o.hostKey = some l → ∃ x ∈ l, x ∈ known .hostKey)
    (h2 : ∀ l, o.encryption = some l → ∃ x ∈ l, x ∈ known .cipherSC) (h3 : ∀ l, o.kex = some l → ∃ x ∈ l, x ∈ known .kex)
    (h4 : ∀ l, o.mac = some l → ∃ x ∈ l, x ∈ known .macSC) :
    ∃ b, bindAlgs known defs o = some b ∧ (∀ l, o.hostKey = some l → b .hostKey = l.filter (fun x => (known .hostKey).contains x)) ∧
      (∀ l, o.encryption = some l → b .cipherSC = l.filter (fun x => (known .cipherSC).contains x)) ∧
      (∀ l, o.kex = some l → b .kex = l.filter (fun x => (known .kex).contains x)) ∧
      ∀ l, o.mac = some l → b .macSC = l.filter (fun x => (known .macSC).contains x) := by
  obtain ⟨b1, e1, f1⟩ := setAlgs_has (b := defs) h1
  obtain ⟨b2, e2, f2⟩ := setAlgs_has (b := b1) h2
  obtain ⟨b3, e3, f3⟩ := setAlgs_has (b := b2) h3
  obtain ⟨b4, e4, f4⟩ := setAlgs_has (b := b3) h4
  refine ⟨b4, by simp only [bindAlgs, e1, e2, e3, e4], fun l hl => ?_, fun l hl => ?_, fun l hl => ?_, f4⟩
  · rw [setAlgs_other e4 (by decide), setAlgs_other e3 (by decide), setAlgs_other e2 (by decide), f1 l hl]
  · rw [setAlgs_other e4 (by decide), setAlgs_other e3 (by decide), f2 l hl]
  · rw [setAlgs_other e4 (by decide), f3 l hl]

end Verif.TransCfg
