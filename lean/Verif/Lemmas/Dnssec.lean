import Verif.Spec.Dnssec

/-! # Lemmas for host key fingerprints in DNS -/

namespace Verif.Dnssec

theorem compare_true : ∀ (n : Nat) (a b : List Byte), compare n a b = .ok true → n ≤ a.length ∧ n ≤ b.length ∧ a.take n = b.take n
  | 0, _, _, _ => by simp
  | n + 1, [], _, h => by simp [compare] at h
  | n + 1, _ :: _, [], h => by simp [compare] at h
  | n + 1, x :: a, y :: b, h => by
    unfold compare at h
    split at h
    · cases h
    · rename_i hxy
      obtain ⟨h1, h2, h3⟩ := compare_true n a b h
      have hxy : x = y := Classical.not_not.1 hxy
      refine ⟨by simp; omega, by simp; omega, by simp [hxy, h3]⟩

theorem compare_same : ∀ (n : Nat) (a b : List Byte), n ≤ a.length → n ≤ b.length → a.take n = b.take n → compare n a b = .ok true
  | 0, _, _, _, _, _ => rfl
  | n + 1, [], _, h, _, _ => by simp at h
  | n + 1, _ :: _, [], _, h, _ => by simp at h
  | n + 1, x :: a, y :: b, h1, h2, h3 => by
    simp only [List.take_succ_cons, List.cons.injEq] at h3
    unfold compare
    rw [if_neg (by simp [h3.1])]
    exact compare_same n a b (by simpa using h1) (by simpa using h2) h3.2

theorem compare_no_ub : ∀ (n : Nat) (a b : List Byte), n ≤ a.length → n ≤ b.length → compare n a b ≠ .ub
  | 0, _, _, _, _ => by simp [compare]
  | n + 1, [], _, h, _ => by simp at h
  | n + 1, _ :: _, [], _, h => by simp at h
  | n + 1, x :: a, y :: b, h1, h2 => by
    unfold compare
    split
    · simp
    · exact compare_no_ub n a b (by simpa using h1) (by simpa using h2)

/-- How the loop finds a match: at a record of that type and algorithm. -/
theorem loop_found (hash : List Byte) (type alg ret : Nat) (hr : ret ≠ 2) : ∀ rrs : List Rr, answerLoop hash type alg ret rrs = .ok ret →
    ∃ rr ∈ rrs, rr.type = 44 ∧ ∃ fp, rr.rdata = type :: alg :: fp ∧ compare 20 fp hash = .ok true
  | [], h => by injection h with h; exact absurd h.symm hr
  | rr :: rrs, h => by
    have hrec : answerLoop hash type alg ret rrs = .ok ret → ∃ x ∈ rr :: rrs, x.type = 44 ∧ ∃ fp, x.rdata = type :: alg :: fp ∧ compare 20 fp hash = .ok true := by
      intro h
      obtain ⟨x, hx, h'⟩ := loop_found hash type alg ret hr rrs h
      exact ⟨x, List.mem_cons_of_mem _ hx, h'⟩
    unfold answerLoop at h
    split at h
    · exact hrec h
    · rename_i ht
      have ht : rr.type = 44 := Classical.not_not.1 ht
      cases hd : rr.rdata with
      | nil => rw [hd] at h; cases h
      | cons t d =>
        rw [hd] at h
        simp only at h
        split at h
        · exact hrec h
        · rename_i htt
          have htt : t = type := Classical.not_not.1 htt
          cases d with
          | nil => cases h
          | cons a fp =>
            simp only at h
            split at h
            · exact hrec h
            · rename_i haa
              have haa : a = alg := Classical.not_not.1 haa
              cases hc : compare 20 fp hash with
              | ub => rw [hc] at h; cases h
              | ok b =>
                rw [hc] at h
                cases b with
                | false => injection h with h; exact absurd h.symm hr
                | true => exact ⟨rr, List.mem_cons_self, ht, fp, by rw [hd, htt, haa], hc⟩

/-- The results of the loop. -/
theorem loop_values (hash : List Byte) (type alg ret : Nat) : ∀ (rrs : List Rr) (n : Nat), answerLoop hash type alg ret rrs = .ok n → n = ret ∨ n = 2
  | [], n, h => by injection h with h; exact .inr h.symm
  | rr :: rrs, n, h => by
    unfold answerLoop at h
    split at h
    · exact loop_values hash type alg ret rrs n h
    · cases hd : rr.rdata with
      | nil => rw [hd] at h; cases h
      | cons t d =>
        rw [hd] at h
        simp only at h
        split at h
        · exact loop_values hash type alg ret rrs n h
        · cases d with
          | nil => cases h
          | cons a fp =>
            simp only at h
            split at h
            · exact loop_values hash type alg ret rrs n h
            · cases hc : compare 20 fp hash with
              | ub => rw [hc] at h; cases h
              | ok b =>
                rw [hc] at h
                cases b with
                | false => injection h with h; exact .inr h.symm
                | true => injection h with h; exact .inl h.symm

theorem loop_no_ub (hash : List Byte) (hh : hash.length = 20) (type ret : Nat) : ∀ (rrs : List Rr), (∀ rr ∈ rrs, WellFormed rr) → answerLoop hash type 1 ret rrs ≠ .ub
  | [], _ => by simp [answerLoop]
  | rr :: rrs, hw => by
    have hrec := loop_no_ub hash hh type ret rrs (fun x hx => hw x (List.mem_cons_of_mem _ hx))
    unfold answerLoop
    split
    · exact hrec
    · rename_i ht
      obtain ⟨t, a, fp, hd, hl⟩ := hw rr List.mem_cons_self (Classical.not_not.1 ht)
      rw [hd]
      simp only
      split
      · exact hrec
      · split
        · exact hrec
        · rename_i ha
          have := compare_no_ub 20 fp hash (by rw [hl (Classical.not_not.1 ha)]; exact Nat.le_refl _) (by rw [hh]; exact Nat.le_refl _)
          cases hc : compare 20 fp hash with
          | ub => exact absurd hc this
          | ok b => cases b <;> simp

/-- Records of other types and algorithms, well formed, are skipped. -/
theorem loop_skip (hash : List Byte) (type ret : Nat) (rest : List Rr) : ∀ (pre : List Rr), (∀ rr ∈ pre, WellFormed rr) →
    (∀ rr ∈ pre, ¬ (rr.type = 44 ∧ ∃ fp, rr.rdata = type :: 1 :: fp)) → answerLoop hash type 1 ret (pre ++ rest) = answerLoop hash type 1 ret rest
  | [], _, _ => rfl
  | rr :: pre, hw, hn => by
    have hrec := loop_skip hash type ret rest pre (fun x hx => hw x (List.mem_cons_of_mem _ hx)) (fun x hx => hn x (List.mem_cons_of_mem _ hx))
    rw [List.cons_append]
    conv => lhs; unfold answerLoop
    split
    · exact hrec
    · rename_i ht
      have ht := Classical.not_not.1 ht
      obtain ⟨t, a, fp, hd, _⟩ := hw rr List.mem_cons_self ht
      rw [hd]
      simp only
      split
      · exact hrec
      · rename_i htt
        split
        · exact hrec
        · rename_i haa
          exact absurd ⟨ht, fp, by rw [hd, Classical.not_not.1 htt, Classical.not_not.1 haa]⟩ (hn rr List.mem_cons_self)

theorem check_answers {hostname : List Char} {r : Reply} {hash : List Byte} {type alg n : Nat} (h : check hostname r hash type alg = .ok n) (hn : n ≠ 2) :
    Answers hostname r ∧ answerLoop hash type alg (if r.ad then 0 else 1) r.answers = .ok n := by
  unfold check at h
  split at h
  · injection h with h; exact absurd h.symm hn
  · rename_i h1
    split at h
    · injection h with h; exact absurd h.symm hn
    · rename_i h2
      split at h
      · injection h with h; exact absurd h.symm hn
      · rename_i h3
        cases hq : r.question with
        | none => rw [hq] at h; injection h with h; exact absurd h.symm hn
        | some q =>
          obtain ⟨name, qt, qc⟩ := q
          rw [hq] at h
          simp only at h
          split at h
          · injection h with h; exact absurd h.symm hn
          · rename_i h4
            simp only [not_or, Decidable.not_not, ne_eq] at h1 h3 h4
            obtain ⟨e1, e2, e3⟩ := h4
            exact ⟨⟨by simpa using h1.1, by simpa using h1.2, by simpa using h2, h3, by rw [hq, e1, e2, e3]⟩, h⟩

theorem check_of_answers {hostname : List Char} {r : Reply} (ha : Answers hostname r) (hash : List Byte) (type alg : Nat) :
    check hostname r hash type alg = answerLoop hash type alg (if r.ad then 0 else 1) r.answers := by
  unfold check
  rw [if_neg (by simp [ha.came, ha.trusted]), if_neg (by simp [ha.parsed]), if_neg (by simp [ha.rcode]), ha.question]
  simp only
  rw [if_neg (by simp)]

/-- The check by algorithm number. -/
theorem sshfp_eq (key : KeyType) (hostname : List Char) (r : Reply) (hash : List Byte) :
    sshfpCheck key hostname r hash = match algNumber key with
      | none => .ok (1, false)
      | some t => match check hostname r hash t 1 with | .ub => .ub | .ok n => .ok (n, decide (n = 0)) := by
  cases key <;> rfl

end Verif.Dnssec
