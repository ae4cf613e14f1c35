import Verif.Model.Bytes

namespace Verif

theorem digitsVal_dec (n : Nat) : ∀ acc suf, ∃ k, digitsVal acc (dec n ++ suf) = digitsVal (acc * 10 ^ k + n) suf := by
  induction n using Nat.strongRecOn with
  | ind n ih =>
    intro acc suf
    unfold dec
    split
    · rename_i h
      refine ⟨1, ?_⟩
      have hd : isDigit (48 + n) = true := by simp [isDigit]; omega
      simp [digitsVal, hd]
    · rename_i h
      obtain ⟨k, hk⟩ := ih (n / 10) (by omega) acc ([48 + n % 10] ++ suf)
      refine ⟨k + 1, ?_⟩
      rw [List.append_assoc, hk]
      have hd : isDigit (48 + n % 10) = true := by simp [isDigit]; omega
      simp only [List.cons_append, List.nil_append, digitsVal, hd, if_true]
      congr 1
      rw [Nat.pow_succ, Nat.add_mul, Nat.mul_assoc]
      omega

theorem dec_ne_nil (n : Nat) : dec n ≠ [] := by
  unfold dec; split <;> simp

theorem dec_isDigit (n : Nat) : ∀ b ∈ dec n, isDigit b = true := by
  induction n using Nat.strongRecOn with
  | ind n ih =>
    intro b hb
    unfold dec at hb
    split at hb
    · rename_i h
      simp at hb; subst hb; simp [isDigit]; omega
    · rename_i h
      rw [List.mem_append] at hb
      rcases hb with hb | hb
      · exact ih _ (by omega) b hb
      · simp at hb; subst hb; simp [isDigit]; omega

theorem isDigit_range {b : Byte} (h : isDigit b = true) : 48 ≤ b ∧ b ≤ 57 := by
  simpa [isDigit] using h

theorem cstr_of_no_nul {b : List Byte} (h : 0 ∉ b) : cstr b = b := by
  unfold cstr
  induction b with
  | nil => rfl
  | cons x xs ih =>
    rw [List.mem_cons, not_or] at h
    rw [List.takeWhile_cons, if_pos (by simpa using fun hx => h.1 hx.symm), ih h.2]

theorem cstr_no_nul (b : List Byte) : 0 ∉ cstr b := by
  unfold cstr
  induction b with
  | nil => simp
  | cons x xs ih =>
    simp only [List.takeWhile_cons]
    split
    · rename_i h
      simp only [bne_iff_ne, ne_eq] at h
      rw [List.mem_cons]
      rintro (h0 | h0)
      · exact h h0.symm
      · exact ih h0
    · simp

theorem strtoul_dec (n : Nat) (hn : n < 2 ^ 64) (c : Byte) (hc : isDigit c = false) (suf : List Byte) :
    strtoul (dec n ++ c :: suf) = n := by
  obtain ⟨d, ds, hd⟩ := List.exists_cons_of_ne_nil (dec_ne_nil n)
  have hdig : ∀ b ∈ dec n, isDigit b = true := dec_isDigit n
  have hd1 : isDigit d = true := hdig d (by simp [hd])
  have hr := isDigit_range hd1
  have hcs : ∃ t, cstr (dec n ++ c :: suf) = dec n ++ t ∧ (t = [] ∨ ∃ t', t = c :: t') := by
    unfold cstr
    rw [List.takeWhile_append_of_pos]
    · refine ⟨_, rfl, ?_⟩
      simp only [List.takeWhile_cons]
      split
      · exact Or.inr ⟨_, rfl⟩
      · exact Or.inl rfl
    · intro b hb
      have := isDigit_range (hdig b hb)
      simp; omega
  obtain ⟨t, ht, ht'⟩ := hcs
  have hval : digitsVal 0 (dec n ++ t) = n := by
    obtain ⟨k, hk⟩ := digitsVal_dec n 0 t
    rw [hk]; simp
    rcases ht' with rfl | ⟨t', rfl⟩
    · rfl
    · simp [digitsVal, hc]
  have hds : (dec n ++ t).dropWhile isSpace = dec n ++ t := by
    rw [hd]; simp only [List.cons_append, List.dropWhile_cons]
    rw [if_neg]; simp [isSpace]; omega
  unfold strtoul
  rw [ht, hds]
  rw [hd] at hval ⊢
  simp only [List.cons_append] at hval ⊢
  split
  · rename_i heq; injection heq with h1 _; omega
  · rename_i heq; injection heq with h1 _; omega
  · rw [hval]; omega

end Verif
