import Verif.Model.TtyPrompt

/-! # Lemmas about asking the user -/

namespace Verif.TtyPrompt

/-- First length of a line that the buffer cannot hold. -/
def tooLong (int : Bool) : Nat := if int = true then 2 ^ 30 else 2 ^ 31

theorem grow_small {int : Bool} {cap k : Nat} (h : cap * 2 ^ (k + 1) = tooLong int) : grow int cap = some (2 * cap) := by
  have hle : 2 * cap ≤ tooLong int := by
    rw [← h, Nat.pow_succ, Nat.mul_comm 2 cap, Nat.mul_comm (2 ^ k) 2, ← Nat.mul_assoc]
    exact Nat.le_mul_of_pos_right _ (Nat.two_pow_pos k)
  cases int
  · simp only [tooLong, Bool.false_eq_true, if_false] at hle
    simp only [grow, Bool.false_eq_true, if_false]
    rw [Nat.mod_eq_of_lt (Nat.lt_of_le_of_lt hle (by decide))]
  · simp only [tooLong, if_true] at hle
    simp only [grow, if_true]
    rw [if_pos (Nat.lt_of_le_of_lt hle (by decide))]

theorem readLine_short (int : Bool) (alloc : Nat → Bool) : ∀ (input acc : List Nat) (cap k : Nat), cap * 2 ^ k = tooLong int → acc.length < cap →
    acc.length + (input.takeWhile (· != 10)).length < tooLong int →
    readLine int alloc cap acc input = .text (acc ++ input.takeWhile (· != 10)) ∨
      (readLine int alloc cap acc input = .nomem ∧ ∃ n, alloc n = false)
  | [], acc, cap, k, hk, ha, ht => by simp [readLine, put, ha]
  | c :: cs, acc, cap, k, hk, ha, ht => by
    rw [readLine]
    by_cases hc : c = 10
    · simp [hc, put, ha]
    · have htw : (c :: cs).takeWhile (· != 10) = c :: cs.takeWhile (· != 10) := by simp [hc]
      rw [htw] at ht ⊢
      simp only [List.length_cons] at ht
      rw [if_neg hc, if_neg (show ¬cap = 0 by omega)]
      have hlen : (acc ++ [c]).length + (cs.takeWhile (· != 10)).length < tooLong int := by simp; omega
      by_cases hf : cap - 1 ≤ acc.length
      · rw [if_pos hf]
        cases k with
        | zero => simp at hk; omega
        | succ k =>
          rw [grow_small hk]
          have hk' : 2 * cap * 2 ^ k = tooLong int := by rw [← hk, Nat.pow_succ, Nat.mul_comm 2 cap, Nat.mul_comm (2 ^ k) 2, Nat.mul_assoc]
          have hz : ¬2 * cap = 0 := by omega
          simp only [hz, if_false]
          by_cases hal : alloc (2 * cap) = true
          · rw [if_pos hal, put, if_pos (by omega)]
            have := readLine_short int alloc cs (acc ++ [c]) (2 * cap) k hk' (by simp; omega) hlen
            simpa using this
          · rw [if_neg hal]
            exact Or.inr ⟨rfl, 2 * cap, by simpa using hal⟩
      · rw [if_neg hf, put, if_pos ha]
        have := readLine_short int alloc cs (acc ++ [c]) cap k hk (by simp; omega) hlen
        simpa using this

theorem readLine_long (int : Bool) (alloc : Nat → Bool) (hall : ∀ n, alloc n = true) : ∀ (input acc : List Nat) (cap k : Nat), cap * 2 ^ k = tooLong int →
    acc.length < cap → tooLong int ≤ acc.length + (input.takeWhile (· != 10)).length → readLine int alloc cap acc input = .undefined
  | [], acc, cap, k, hk, ha, ht => by
    have : cap ≤ tooLong int := by rw [← hk]; exact Nat.le_mul_of_pos_right _ (Nat.two_pow_pos k)
    simp at ht; omega
  | c :: cs, acc, cap, k, hk, ha, ht => by
    have hle : cap ≤ tooLong int := by rw [← hk]; exact Nat.le_mul_of_pos_right _ (Nat.two_pow_pos k)
    rw [readLine]
    by_cases hc : c = 10
    · simp [hc] at ht; omega
    · have htw : (c :: cs).takeWhile (· != 10) = c :: cs.takeWhile (· != 10) := by simp [hc]
      rw [htw] at ht
      simp only [List.length_cons] at ht
      rw [if_neg hc, if_neg (show ¬cap = 0 by omega)]
      have hlen : tooLong int ≤ (acc ++ [c]).length + (cs.takeWhile (· != 10)).length := by simp; omega
      by_cases hf : cap - 1 ≤ acc.length
      · rw [if_pos hf]
        cases k with
        | zero =>
          simp at hk
          subst hk
          cases int <;> simp [grow, tooLong]
        | succ k =>
          rw [grow_small hk]
          have hk' : 2 * cap * 2 ^ k = tooLong int := by rw [← hk, Nat.pow_succ, Nat.mul_comm 2 cap, Nat.mul_comm (2 ^ k) 2, Nat.mul_assoc]
          have hz : ¬2 * cap = 0 := by omega
          simp only [hz, if_false]
          rw [if_pos (hall _), put, if_pos (by omega)]
          exact readLine_long int alloc hall cs (acc ++ [c]) (2 * cap) k hk' (by simp; omega) hlen
      · rw [if_neg hf, put, if_pos ha]
        exact readLine_long int alloc hall cs (acc ++ [c]) cap k hk (by simp; omega) hlen

theorem cap_pow (a : Ask) : ∃ k, a.cap * 2 ^ k = tooLong a.int := by
  cases a
  · exact ⟨20, (Nat.pow_add 2 10 20).symm⟩
  · exact ⟨25, (Nat.pow_add 2 6 25).symm⟩
  · exact ⟨20, (Nat.pow_add 2 10 20).symm⟩

/-! ## Terminals -/

/-- What opening the input did: nothing, or one file more, with echo of its device off if asked. -/
def Opened (e : Env) (echo : Bool) (s : St) : Option (Path × Term) × St → Prop
  | (none, s1) => s1 = s
  | (some (p, old), s1) => old = s.terms (e.dev p) ∧ s1.files = p :: s.files ∧
      s1.terms = if echo = true then s.terms else setTerm (e.dev p) { old with echo := false } s.terms

theorem openOne_spec (e : Env) (echo : Bool) (p : Path) (s : St) :
    (openOne e echo p s = (none, s)) ∨
      (openOne e echo p s = (some (s.terms (e.dev p)), ⟨if echo = true then s.terms else setTerm (e.dev p) { s.terms (e.dev p) with echo := false } s.terms, p :: s.files⟩)) := by
  cases echo <;> cases h1 : e.canRead p <;> cases h2 : e.getAttr p <;> cases h3 : e.setAttr p <;>
    simp [openOne, openPlain, openNoEcho, h1, h2, h3]

theorem openIn_spec (e : Env) (echo : Bool) (s : St) : Opened e echo s (openIn e echo s) := by
  unfold openIn
  rcases openOne_spec e echo .tty s with h | h
  · rw [h]
    simp only
    cases e.nameIn
    · simp [Opened]
    · simp only [Bool.true_eq_false, if_false]
      rcases openOne_spec e echo .stdin s with h' | h'
      · rw [h']; simp [Opened]
      · rw [h']; simp [Opened]
  · rw [h]; simp [Opened]

theorem openOut_spec (e : Env) (s : St) : openOut e s = (none, s) ∨ ∃ p, openOut e s = (some p, { s with files := p :: s.files }) := by
  unfold openOut
  cases e.canWrite .tty <;> cases e.nameOut <;> cases e.canWrite .stdout <;> simp

theorem setTerm_back (d : Nat) (t : Term) (terms : Nat → Term) : setTerm d (terms d) (setTerm d t terms) = terms := by
  funext x
  by_cases h : x = d <;> simp [setTerm, h]

theorem erase_two (i o : Path) (l : List Path) : ((o :: i :: l).erase i).erase o = l := by
  cases i <;> cases o <;> simp

end Verif.TtyPrompt
