import Verif.Model.FixBuf

/-! Lemmas about printing numbers and texts into arrays. -/

namespace Verif.FixBuf

/-- Decimal value of a text, `none` if a character is no digit or the text is empty (independent of printing). -/
def valueOf (t : Text) : Option Nat :=
  if t = [] then none else
  t.foldl (fun a c => a.bind fun v => if 48 ≤ c.toNat ∧ c.toNat ≤ 57 then some (v * 10 + (c.toNat - 48)) else none) (some 0)

theorem digit_toNat {d : Nat} (h : d < 10) : (digit d).toNat = 48 + d := by
  have : ∀ d < 10, (digit d).toNat = 48 + d := by decide
  exact this d h

theorem dec_ne (n : Nat) : dec n ≠ [] := by
  rw [dec]; split <;> simp

theorem dec_value (n : Nat) : valueOf (dec n) = some n := by
  induction n using dec.induct with
  | case1 n h =>
    rw [dec, if_pos h]
    simp only [valueOf, List.foldl, digit_toNat h, Option.bind]
    simp; omega
  | case2 n h ih =>
    have hd : n % 10 < 10 := by omega
    rw [dec, if_neg h]
    unfold valueOf at ih ⊢
    rw [if_neg (dec_ne _)] at ih
    rw [if_neg (by simp), List.foldl_append, ih]
    simp only [List.foldl, digit_toNat hd, Option.bind]
    rw [if_pos (by omega)]
    congr 1; omega

theorem dec_len (k n : Nat) (h : n < 10 ^ (k + 1)) : (dec n).length ≤ k + 1 := by
  induction k generalizing n with
  | zero => rw [dec, if_pos (by simpa using h)]; simp
  | succ k ih =>
    rw [dec]
    split
    · simp
    · have : n / 10 < 10 ^ (k + 1) := by rw [Nat.div_lt_iff_lt_mul (by omega)]; rw [Nat.pow_succ] at h; exact h
      have := ih _ this
      simp; omega

theorem dec_len32 {n : Nat} (h : n < 4294967296) : (dec n).length ≤ 10 := dec_len 9 n (by omega)

theorem dec_len16 {n : Nat} (h : n < 65536) : (dec n).length ≤ 5 := dec_len 4 n (by omega)

theorem sprintf_fits {size : Nat} {t : Text} (h : t.length + 1 ≤ size) : sprintf size t = some t := if_pos h

theorem sprintf_isSome (size : Nat) (t : Text) : (sprintf size t).isSome ↔ t.length + 1 ≤ size := by
  unfold sprintf; split <;> simp_all

theorem pollMsg_ssh (t : Text) : pollMsg (.sshError t) = sprintf 256 (tSsh ++ t ++ [')']) := rfl

theorem pollMsg_internal (f : Text) (l : Nat) :
    pollMsg (.internal f l) = sprintf 256 (tInternal ++ f ++ [':'] ++ dec l ++ [')']) := rfl

theorem pollMsg_poll (e : Text) : pollMsg (.poll e) = sprintf 256 (tPoll ++ e ++ [')']) := rfl

theorem sprintf_pre (size : Nat) (pre t : Text) (k : Nat) (h : pre.length = k) :
    (sprintf size (pre ++ t)).isSome ↔ k + t.length + 1 ≤ size := by
  rw [sprintf_isSome, List.length_append, h]

end Verif.FixBuf
