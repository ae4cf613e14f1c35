import Verif.Model.TlsWrap
import Verif.Props.Codec

/-!
# Lemmas about growing buffers and Base64 of Mbed TLS
-/

namespace Verif.TlsWrap

open Verif.TlsIo

theorem mbedClose_errors (left : Nat) (h : 0 < left) (s : List (Except Errno Nat))
    (hs : ∀ r ∈ s, ∃ e, r = .error e) : mbedClose left s = none := by
  obtain ⟨m, rfl⟩ : ∃ m, left = m + 1 := ⟨left - 1, by omega⟩
  induction s with
  | nil => rfl
  | cons r s ih =>
    obtain ⟨e, rfl⟩ := hs r (by simp)
    simpa [mbedClose, ioStep] using ih (fun r hr => hs r (by simp [hr]))

/-- A call of `send` that takes something. -/
def takes : Except Errno Nat → Bool
  | .ok n => 0 < n
  | .error _ => false

theorem mbedClose_takes (s : List (Except Errno Nat)) : ∀ left,
    left ≤ (s.filter takes).length → (mbedClose left s).isSome = true := by
  induction s with
  | nil =>
    intro left h
    have : left = 0 := by simpa using h
    subst this; rfl
  | cons r s ih =>
    intro left h
    cases left with
    | zero => rfl
    | succ m =>
      cases r with
      | error e =>
        simp only [List.filter_cons, takes, Bool.false_eq_true, if_false] at h
        simpa [mbedClose, ioStep] using ih (m + 1) h
      | ok n =>
        by_cases hn : n = 0
        · simp [mbedClose, ioStep, hn]
        · have hp : 0 < n := by omega
          simp only [List.filter_cons, takes, hp, decide_true, if_true, List.length_cons] at h
          simpa [mbedClose, ioStep, hn] using ih (m + 1 - n) (by omega)

theorem grow_enough (mem : Nat → Bool) (hm : ∀ n, mem n = true) (need size : Nat) (hs : 0 < size) :
    ∃ n, grow mem need size = some n ∧ need ≤ n ∧ n ≤ max size (2 * need) := by
  induction size using grow.induct mem need with
  | case1 => omega
  | case2 size h h0 h1 ih =>
    obtain ⟨n, e, h2, h3⟩ := ih (by omega)
    refine ⟨n, ?_, h2, by omega⟩
    rw [grow, if_pos h, if_neg h0, if_pos h1, e]
  | case3 size h h0 h1 => exact absurd (hm _) h1
  | case4 size h => exact ⟨size, by rw [grow, if_neg h], by omega, by omega⟩

theorem grow_some (mem : Nat → Bool) (need size n : Nat) (h : grow mem need size = some n) : need ≤ n := by
  induction size using grow.induct mem need with
  | case1 h0 => rw [grow, if_pos h0, if_pos rfl] at h; simp at h
  | case2 size h0 h1 h2 ih => rw [grow, if_pos h0, if_neg h1, if_pos h2] at h; exact ih h
  | case3 size h0 h1 h2 => rw [grow, if_pos h0, if_neg h1, if_neg h2] at h; simp at h
  | case4 size h0 => rw [grow, if_neg h0] at h; simp only [Option.some.injEq] at h; omega

theorem digit_facts : ∀ d, d < 64 → Codec.digit d ≠ ' ' ∧ Codec.digit d ≠ '\n' ∧ Codec.digit d ≠ '\r' ∧
    Codec.digit d ≠ '=' ∧ digitValue (Codec.digit d) = some d := by decide

theorem scan_digit (d : Nat) (hd : d < 64) (r : List Char) :
    scan false 0 (Codec.digit d :: r) = (scan false 0 r).map (Codec.digit d :: ·) := by
  obtain ⟨h1, h2, h3, h4, h5⟩ := digit_facts d hd
  cases r with
  | nil => simp [scan, h1, h2, h4, h5]
  | cons c r => simp [scan, h1, h2, h3, h4, h5]

theorem scan_encode (bin : List Nat) (hb : ∀ x ∈ bin, x < 256) :
    scan false 0 (Codec.encodeBlock bin) = some (Codec.encodeBlock bin) := by
  induction bin using Codec.encodeBlock.induct with
  | case1 => rfl
  | case2 a =>
    have ha := hb a (by simp)
    rw [Codec.encodeBlock, scan_digit _ (by omega), scan_digit _ (by omega)]; simp [scan]
  | case3 a b =>
    have ha := hb a (by simp)
    have hb' := hb b (by simp)
    rw [Codec.encodeBlock, scan_digit _ (by omega), scan_digit _ (by omega), scan_digit _ (by omega)]; simp [scan]
  | case4 a b c r ih =>
    have ha := hb a (by simp)
    have hb' := hb b (by simp)
    have hc := hb c (by simp)
    rw [Codec.encodeBlock, scan_digit _ (by omega), scan_digit _ (by omega), scan_digit _ (by omega),
      scan_digit _ (by omega), ih (fun x hx => hb x (by simp [hx]))]
    rfl

theorem encode_pad (bin : List Nat) (hb : ∀ x ∈ bin, x < 256) :
    (Codec.encodeBlock bin).length * 3 = (bin.length + ((Codec.encodeBlock bin).filter (· = '=')).length) * 4 := by
  induction bin using Codec.encodeBlock.induct with
  | case1 => rfl
  | case2 a =>
    have ha := hb a (by simp)
    obtain ⟨-, -, -, h1, -⟩ := digit_facts (a / 4) (by omega)
    obtain ⟨-, -, -, h2, -⟩ := digit_facts (a % 4 * 16) (by omega)
    simp [Codec.encodeBlock, h1, h2]
  | case3 a b =>
    have ha := hb a (by simp)
    have hb' := hb b (by simp)
    obtain ⟨-, -, -, h1, -⟩ := digit_facts (a / 4) (by omega)
    obtain ⟨-, -, -, h2, -⟩ := digit_facts (a % 4 * 16 + b / 16) (by omega)
    obtain ⟨-, -, -, h3, -⟩ := digit_facts (b % 16 * 4) (by omega)
    simp [Codec.encodeBlock, h1, h2, h3]
  | case4 a b c r ih =>
    have ha := hb a (by simp)
    have hb' := hb b (by simp)
    have hc := hb c (by simp)
    obtain ⟨-, -, -, h1, -⟩ := digit_facts (a / 4) (by omega)
    obtain ⟨-, -, -, h2, -⟩ := digit_facts (a % 4 * 16 + b / 16) (by omega)
    obtain ⟨-, -, -, h3, -⟩ := digit_facts (b % 16 * 4 + c / 64) (by omega)
    obtain ⟨-, -, -, h4, -⟩ := digit_facts (c % 64) (by omega)
    have := ih (fun x hx => hb x (by simp [hx]))
    simp only [Codec.encodeBlock, List.filter_cons, h1, h2, h3, h4, decide_false, Bool.false_eq_true, if_false,
      List.length_cons]
    omega

theorem emit_encode (bin : List Nat) (hb : ∀ x ∈ bin, x < 256) : emit 0 (Codec.encodeBlock bin) = bin := by
  induction bin using Codec.encodeBlock.induct with
  | case1 => rfl
  | case2 a =>
    have ha := hb a (by simp)
    obtain ⟨-, -, -, h1, g1⟩ := digit_facts (a / 4) (by omega)
    obtain ⟨-, -, -, h2, g2⟩ := digit_facts (a % 4 * 16) (by omega)
    have e : digitValue '=' = none := rfl
    simp only [Codec.encodeBlock, emit, List.filter_cons, h1, h2, g1, g2, e, decide_false, Bool.false_eq_true,
      if_false, decide_true, if_true, List.filter_nil, List.length_cons, List.length_nil, Option.getD_some,
      Option.getD_none]
    simp
    omega
  | case3 a b =>
    have ha := hb a (by simp)
    have hb' := hb b (by simp)
    obtain ⟨-, -, -, h1, g1⟩ := digit_facts (a / 4) (by omega)
    obtain ⟨-, -, -, h2, g2⟩ := digit_facts (a % 4 * 16 + b / 16) (by omega)
    obtain ⟨-, -, -, h3, g3⟩ := digit_facts (b % 16 * 4) (by omega)
    have e : digitValue '=' = none := rfl
    simp only [Codec.encodeBlock, emit, List.filter_cons, h1, h2, h3, g1, g2, g3, e, decide_false, Bool.false_eq_true,
      if_false, decide_true, if_true, List.filter_nil, List.length_cons, List.length_nil, Option.getD_some,
      Option.getD_none]
    simp
    omega
  | case4 a b c r ih =>
    have ha := hb a (by simp)
    have hb' := hb b (by simp)
    have hc := hb c (by simp)
    obtain ⟨-, -, -, h1, g1⟩ := digit_facts (a / 4) (by omega)
    obtain ⟨-, -, -, h2, g2⟩ := digit_facts (a % 4 * 16 + b / 16) (by omega)
    obtain ⟨-, -, -, h3, g3⟩ := digit_facts (b % 16 * 4 + c / 64) (by omega)
    obtain ⟨-, -, -, h4, g4⟩ := digit_facts (c % 64) (by omega)
    have := ih (fun x hx => hb x (by simp [hx]))
    simp only [Codec.encodeBlock, emit, List.filter_cons, h1, h2, h3, h4, g1, g2, g3, g4, decide_false,
      Bool.false_eq_true, if_false, List.filter_nil, List.length_nil, Option.getD_some, Nat.add_zero,
      Nat.zero_le, if_true, this, List.cons_append, List.nil_append, List.cons.injEq, and_true]
    omega

theorem scan_cons (sp : Bool) (eq : Nat) (c : Char) (r : List Char) :
    scan sp eq (c :: r) =
      if c = ' ' then scan true eq r
      else if (c = '\r' ∧ r.head? = some '\n') ∨ c = '\n' then scan false eq r
      else if sp then none
      else if c = '=' then if 2 < eq + 1 then none else (scan false (eq + 1) r).map (c :: ·)
      else if eq ≠ 0 then none
      else if (digitValue c).isSome then (scan false eq r).map (c :: ·) else none := by
  cases r with
  | nil => simp [scan]
  | cons d r =>
    by_cases h1 : c = ' '
    · simp [scan, h1]
    · by_cases h2 : c = '\r' ∧ d = '\n'
      · simp [scan, h2]
      · by_cases h3 : c = '\n'
        · simp [scan, h3]
        · simp [scan, h1, h2, h3]

/-- Texts that pass the first pass: digits followed by at most two padding
characters; `eq` of them were seen before. -/
theorem scan_shape (t : List Char) : ∀ sp eq ds, scan sp eq t = some ds →
    (∃ p k, ds = p ++ List.replicate k '=' ∧ (k = 0 ∨ eq + k ≤ 2) ∧ (eq ≠ 0 → p = []) ∧ ∀ c ∈ p, c ≠ '=') ∧
    ∀ c ∈ t, c = ' ' ∨ c = '\r' ∨ c = '\n' ∨ (Codec.value c).isSome = true := by
  induction t with
  | nil =>
    intro sp eq ds h
    simp only [scan, Option.some.injEq] at h
    exact ⟨⟨[], 0, by simp [← h], by simp, by simp, by simp⟩, by simp⟩
  | cons c r ih =>
    intro sp eq ds h
    rw [scan_cons] at h
    by_cases h1 : c = ' '
    · rw [if_pos h1] at h
      obtain ⟨hs, hr⟩ := ih _ _ _ h
      exact ⟨hs, by simpa [h1] using hr⟩
    rw [if_neg h1] at h
    by_cases h2 : (c = '\r' ∧ r.head? = some '\n') ∨ c = '\n'
    · rw [if_pos h2] at h
      obtain ⟨hs, hr⟩ := ih _ _ _ h
      refine ⟨hs, ?_⟩
      intro x hx
      rcases List.mem_cons.1 hx with e | e
      · rw [e]; rcases h2 with h2 | h2
        · exact .inr (.inl h2.1)
        · exact .inr (.inr (.inl h2))
      · exact hr x e
    rw [if_neg h2] at h
    by_cases h3 : sp = true
    · simp [h3] at h
    rw [if_neg h3] at h
    by_cases h4 : c = '='
    · rw [if_pos h4] at h
      by_cases h5 : 2 < eq + 1
      · simp [h5] at h
      rw [if_neg h5] at h
      obtain ⟨ds', e1, e2⟩ := Option.map_eq_some_iff.1 h
      obtain ⟨⟨p, k, hd, hk, hp, _⟩, hr⟩ := ih _ _ _ e1
      have hp' := hp (by omega)
      refine ⟨⟨[], k + 1, ?_, ?_, by simp, by simp⟩, ?_⟩
      · rw [← e2, hd, hp', h4, List.replicate_succ]; rfl
      · omega
      · intro x hx
        rcases List.mem_cons.1 hx with e | e
        · rw [e, h4]; right; right; right; rfl
        · exact hr x e
    rw [if_neg h4] at h
    by_cases h5 : eq ≠ 0
    · rw [if_pos h5] at h; simp at h
    rw [if_neg h5] at h
    by_cases h6 : (digitValue c).isSome = true
    · rw [if_pos h6] at h
      obtain ⟨ds', e1, e2⟩ := Option.map_eq_some_iff.1 h
      obtain ⟨⟨p, k, hd, hk, _, hc⟩, hr⟩ := ih _ _ _ e1
      refine ⟨⟨c :: p, k, ?_, hk, fun he => absurd he h5, ?_⟩, ?_⟩
      · rw [← e2, hd]; rfl
      · intro x hx
        rcases List.mem_cons.1 hx with e | e
        · rw [e]; exact h4
        · exact hc x e
      · intro x hx
        rcases List.mem_cons.1 hx with e | e
        · rw [e]; right; right; right
          simpa [digitValue, h4] using h6
        · exact hr x e
    · rw [if_neg h6] at h; simp at h

/-- The size computed for `l` characters, without padding. -/
def sizeFor (l : Nat) : Nat := 6 * (l / 8) + (6 * (l % 8) + 7) / 8

theorem sizeFor_add (l : Nat) : sizeFor (l + 4) = sizeFor l + 3 := by
  unfold sizeFor; omega

theorem emit_length (k : Nat) (hk : k ≤ 2) (p : List Char) (hp : ∀ c ∈ p, c ≠ '=') :
    (emit 0 (p ++ List.replicate k '=')).length + k ≤ sizeFor (p.length + k) := by
  induction hn : p.length using Nat.strongRecOn generalizing p with
  | ind n ih =>
    have hk' : k = 0 ∨ k = 1 ∨ k = 2 := by omega
    match p, hp with
    | [], _ => rcases hk' with rfl | rfl | rfl <;> subst hn <;> decide
    | [a], hp =>
      subst hn
      rcases hk' with rfl | rfl | rfl <;> simp [emit, List.replicate, sizeFor]
    | [a, b], hp =>
      have ha := hp a (by simp)
      have hb := hp b (by simp)
      subst hn
      rcases hk' with rfl | rfl | rfl <;> simp [emit, List.replicate, sizeFor, ha, hb]
    | [a, b, c], hp =>
      have ha := hp a (by simp)
      have hb := hp b (by simp)
      have hc := hp c (by simp)
      subst hn
      rcases hk' with rfl | rfl | rfl <;> simp [emit, List.replicate, sizeFor, ha, hb, hc]
    | a :: b :: c :: d :: r, hp =>
      have ha := hp a (by simp)
      have hb := hp b (by simp)
      have hc := hp c (by simp)
      have hd := hp d (by simp)
      have := ih r.length (by subst hn; simp; omega) r (fun x hx => hp x (by simp [hx])) rfl
      have e : n + k = r.length + k + 4 := by subst hn; simp; omega
      rw [e, sizeFor_add]
      simp only [List.cons_append, emit, List.filter_cons, ha, hb, hc, hd, decide_false, Bool.false_eq_true,
        if_false, List.filter_nil, List.length_nil, Nat.add_zero, Nat.zero_le, if_true, List.length_cons,
        List.nil_append]
      omega

end Verif.TlsWrap
