import Verif.Model.Codec
import Verif.Spec.Chars

/-!
# Base64, reasons of failures of TLS, and messages (C191, C192, C193)
-/

namespace Verif.Props

open Verif.Codec
open Verif.Spec (b64Alphabet bits)

/-! ## Base64 -/

theorem b64_value_digit : ∀ d, d < 64 → value (digit d) = some d := by decide

theorem b64_digit_plain : ∀ d, d < 64 → blank (digit d) = false ∧ tailChar (digit d) = false := by decide

theorem b64_value_char {c : Char} (h : (value c).isSome) : c ∈ b64Alphabet ∨ c = '=' := by
  have key : ∀ n, n < 123 → (value (Char.ofNat n)).isSome → Char.ofNat n ∈ b64Alphabet ∨ Char.ofNat n = '=' := by decide +kernel
  by_cases hn : c.toNat < 123
  · have := key c.toNat hn
    rw [Char.ofNat_toNat] at this
    exact this h
  · have h1 : c ≠ '+' := by rintro rfl; exact hn (by decide)
    have h2 : c ≠ '/' := by rintro rfl; exact hn (by decide)
    have h3 : c ≠ '=' := by rintro rfl; exact hn (by decide)
    unfold value at h
    simp only at h
    rw [if_neg (by omega), if_neg (by omega), if_neg (by omega), if_neg h1, if_neg h2, if_neg h3] at h
    cases h

theorem b64_quads_length (t : List Char) : (decodeQuads t).1.length ≤ t.length / 4 * 3 := by
  induction t using decodeQuads.induct with
  | case1 => simp [decodeQuads]
  | case2 a b c d r a' b' c' d' ha hb hc hd w ok heq ih =>
    simp only [decodeQuads, ha, hb, hc, hd, List.length_cons]
    omega
  | case3 a b c d r hn =>
    unfold decodeQuads
    split
    · rename_i h1 h2 h3 h4; exact absurd h4 (hn _ _ _ _ h1 h2 h3)
    · simp
  | case4 t h1 h2 =>
    unfold decodeQuads
    split
    · simp
    · exact (h2 _ _ _ _ _ rfl).elim
    · simp

/-- Accepted text has characters with values only, and three bytes come from
four of them. -/
theorem b64_quads_ok (t : List Char) : (decodeQuads t).2 = true →
    (∀ c ∈ t, (value c).isSome) ∧ (decodeQuads t).1.length * 4 = t.length * 3 := by
  induction t using decodeQuads.induct with
  | case1 => simp [decodeQuads]
  | case2 a b c d r a' b' c' d' ha hb hc hd w ok heq ih =>
    simp only [decodeQuads, ha, hb, hc, hd, List.length_cons, List.mem_cons]
    intro h
    obtain ⟨h1, h2⟩ := ih h
    refine ⟨?_, by omega⟩
    rintro x (e | e | e | e | e)
    · rw [e, hd]; rfl
    · rw [e, hc]; rfl
    · rw [e, hb]; rfl
    · rw [e, ha]; rfl
    · exact h1 x e
  | case3 a b c d r hn =>
    unfold decodeQuads
    split
    · rename_i h1 h2 h3 h4; exact absurd h4 (hn _ _ _ _ h1 h2 h3)
    · simp
  | case4 t h1 h2 =>
    unfold decodeQuads
    split
    · exact (h1 rfl).elim
    · exact (h2 _ _ _ _ _ rfl).elim
    · simp

theorem b64_trimRev (t : List Char) : ∃ pre, t = pre ++ trimRev t ∧ ∀ c ∈ pre, tailChar c = true := by
  induction t with
  | nil => exact ⟨[], by simp [trimRev]⟩
  | cons c r ih =>
    by_cases h : 2 < r.length ∧ tailChar c = true
    · obtain ⟨pre, hp, ha⟩ := ih
      refine ⟨c :: pre, ?_, ?_⟩
      · simp only [trimRev, if_pos h, List.cons_append]; rw [← hp]
      · intro x hx
        rcases List.mem_cons.1 hx with e | e
        · rw [e]; exact h.2
        · exact ha x e
    · exact ⟨[], by simp [trimRev, h]⟩

theorem b64_split (t : List Char) : ∃ pre post,
    t = pre ++ (trimRev (t.dropWhile blank).reverse).reverse ++ post ∧
    (∀ c ∈ pre, blank c = true) ∧ ∀ c ∈ post, tailChar c = true := by
  obtain ⟨post, hp, ha⟩ := b64_trimRev (t.dropWhile blank).reverse
  refine ⟨t.takeWhile blank, post.reverse, ?_, ?_, ?_⟩
  · have := congrArg List.reverse hp
    rw [List.reverse_reverse, List.reverse_append] at this
    rw [List.append_assoc, ← this, List.takeWhile_append_dropWhile]
  · intro c hc
    have := List.all_takeWhile (p := blank) (l := t)
    rw [List.all_eq_true] at this
    exact this c hc
  · intro c hc; exact ha c (List.mem_reverse.1 hc)

/-- C191: neither way of converting writes behind its buffer, whatever the text
or bytes are. -/
theorem base64_fits (mem : Bool) (t : List Char) (bin : List Nat) :
    decodeWrap mem t ≠ .ub ∧ encodeWrap mem bin ≠ .ub := by
  constructor
  · cases mem with
    | false => simp [decodeWrap]
    | true =>
      have hlen : (decodeBlock t).1.length ≤ t.length / 4 * 3 := by
        obtain ⟨pre, post, h, _, _⟩ := b64_split t
        have hl := congrArg List.length h
        simp only [List.length_append] at hl
        unfold decodeBlock
        simp only
        split
        · have := b64_quads_length (trimRev (List.dropWhile blank t).reverse).reverse
          omega
        · simp
      simp only [decodeWrap, if_true]
      rw [if_neg (by omega)]
      split <;> simp
  · cases mem with
    | false => simp [encodeWrap]
    | true =>
      have hlen : (encodeBlock bin).length + 1 ≤ encodeSize bin.length := by
        induction bin using encodeBlock.induct with
        | case1 => decide
        | case2 a => simp [encodeBlock, encodeSize]
        | case3 a b => simp [encodeBlock, encodeSize]
        | case4 a b c r ih =>
          simp only [encodeBlock, List.length_cons]
          unfold encodeSize at ih ⊢
          split at ih <;> split <;> omega
      simp only [encodeWrap, if_true]
      rw [if_neg (by omega)]
      simp

/-- C191: text is accepted only if, apart from blanks around it, it consists of
groups of four characters of Base64, and each gives three bytes. -/
theorem base64_strict (mem : Bool) (t : List Char) (w : List Nat) (h : decodeWrap mem t = .ok w) :
    ∃ pre mid post, t = pre ++ mid ++ post ∧ (∀ c ∈ pre, c = ' ' ∨ c = '\t') ∧ (∀ c ∈ post, c ∈ [' ', '\t', '\n', '\r', '-']) ∧
      (∀ c ∈ mid, c ∈ b64Alphabet ∨ c = '=') ∧ w.length * 4 = mid.length * 3 := by
  suffices ∃ pre mid post, t = pre ++ mid ++ post ∧ (∀ c ∈ pre, blank c = true) ∧ (∀ c ∈ post, tailChar c = true) ∧
      (∀ c ∈ mid, (value c).isSome) ∧ w.length * 4 = mid.length * 3 by
    obtain ⟨pre, mid, post, h1, h2, h3, h4, h5⟩ := this
    exact ⟨pre, mid, post, h1, fun c hc => by simpa [blank] using h2 c hc, fun c hc => by simpa [tailChar, or_assoc] using h3 c hc,
      fun c hc => b64_value_char (h4 c hc), h5⟩
  cases mem with
  | false => simp [decodeWrap] at h
  | true =>
    obtain ⟨pre, post, hs, h1, h2⟩ := b64_split t
    refine ⟨pre, _, post, hs, h1, h2, ?_⟩
    simp only [decodeWrap, if_true] at h
    split at h
    · cases h
    · split at h
      · rename_i hok
        simp only [Res.ok.injEq] at h
        unfold decodeBlock at hok h
        simp only at hok h
        split at hok
        · rename_i h4
          rw [if_pos h4] at h
          have := b64_quads_ok _ hok
          rw [h] at this
          exact this
        · cases hok
      · cases h

/-- Bytes of padding. -/
def b64Pad (n : Nat) : Nat := (3 - n % 3) % 3

theorem b64_quads_encode (bin : List Nat) (hb : ∀ x ∈ bin, x < 256) :
    decodeQuads (encodeBlock bin) = (bin ++ List.replicate (b64Pad bin.length) 0, true) := by
  have veq : value '=' = some 0 := by decide
  induction bin using encodeBlock.induct with
  | case1 => rfl
  | case2 a =>
    have ha : a < 256 := hb a (by simp)
    simp only [encodeBlock, decodeQuads, b64_value_digit _ (show a / 4 < 64 by omega),
      b64_value_digit _ (show a % 4 * 16 < 64 by omega), veq]
    have h1 : a / 4 * 4 + a % 4 * 16 / 16 = a := by omega
    have h2 : a % 4 * 16 % 16 * 16 = 0 := by omega
    simp only [h1, h2]
    rfl
  | case3 a b =>
    have ha : a < 256 := hb a (by simp)
    have hb' : b < 256 := hb b (by simp)
    simp only [encodeBlock, decodeQuads, b64_value_digit _ (show a / 4 < 64 by omega),
      b64_value_digit _ (show a % 4 * 16 + b / 16 < 64 by omega),
      b64_value_digit _ (show b % 16 * 4 < 64 by omega), veq]
    have h1 : a / 4 * 4 + (a % 4 * 16 + b / 16) / 16 = a := by omega
    have h2 : (a % 4 * 16 + b / 16) % 16 * 16 + b % 16 * 4 / 4 = b := by omega
    have h3 : b % 16 * 4 % 4 * 64 = 0 := by omega
    simp only [h1, h2, h3]
    rfl
  | case4 a b c r ih =>
    have ha : a < 256 := hb a (by simp)
    have hb' : b < 256 := hb b (by simp)
    have hc : c < 256 := hb c (by simp)
    simp only [encodeBlock, decodeQuads, b64_value_digit _ (show a / 4 < 64 by omega),
      b64_value_digit _ (show a % 4 * 16 + b / 16 < 64 by omega),
      b64_value_digit _ (show b % 16 * 4 + c / 64 < 64 by omega),
      b64_value_digit _ (show c % 64 < 64 by omega), ih (fun x hx => hb x (by simp [hx]))]
    have h1 : a / 4 * 4 + (a % 4 * 16 + b / 16) / 16 = a := by omega
    have h2 : (a % 4 * 16 + b / 16) % 16 * 16 + (b % 16 * 4 + c / 64) / 4 = b := by omega
    have h3 : (b % 16 * 4 + c / 64) % 4 * 64 + c % 64 = c := by omega
    have h4 : b64Pad (a :: b :: c :: r).length = b64Pad r.length := by
      simp only [b64Pad, List.length_cons]; omega
    simp only [h1, h2, h3, h4, List.cons_append]

theorem b64_encode_plain (bin : List Nat) (hb : ∀ x ∈ bin, x < 256) :
    ∀ c ∈ encodeBlock bin, blank c = false ∧ tailChar c = false := by
  have heq : blank '=' = false ∧ tailChar '=' = false := by decide
  induction bin using encodeBlock.induct with
  | case1 => simp [encodeBlock]
  | case2 a =>
    have ha : a < 256 := hb a (by simp)
    simp only [encodeBlock, List.mem_cons, List.not_mem_nil, or_false]
    rintro c (e | e | e | e) <;> subst e
    · exact b64_digit_plain _ (by omega)
    · exact b64_digit_plain _ (by omega)
    · exact heq
    · exact heq
  | case3 a b =>
    have ha : a < 256 := hb a (by simp)
    have hb' : b < 256 := hb b (by simp)
    simp only [encodeBlock, List.mem_cons, List.not_mem_nil, or_false]
    rintro c (e | e | e | e) <;> subst e
    · exact b64_digit_plain _ (by omega)
    · exact b64_digit_plain _ (by omega)
    · exact b64_digit_plain _ (by omega)
    · exact heq
  | case4 a b c r ih =>
    have ha : a < 256 := hb a (by simp)
    have hb' : b < 256 := hb b (by simp)
    have hc : c < 256 := hb c (by simp)
    simp only [encodeBlock, List.mem_cons]
    rintro x (e | e | e | e | e)
    · subst e; exact b64_digit_plain _ (by omega)
    · subst e; exact b64_digit_plain _ (by omega)
    · subst e; exact b64_digit_plain _ (by omega)
    · subst e; exact b64_digit_plain _ (by omega)
    · exact ih (fun x hx => hb x (by simp [hx])) x e

theorem b64_encode_length (bin : List Nat) : (encodeBlock bin).length % 4 = 0 := by
  induction bin using encodeBlock.induct with
  | case1 => rfl
  | case2 a => simp [encodeBlock]
  | case3 a b => simp [encodeBlock]
  | case4 a b c r ih => simp only [encodeBlock, List.length_cons]; omega

theorem b64_trimRev_plain (post u : List Char) (hp : ∀ c ∈ post, tailChar c = true)
    (hu : ∀ c ∈ u, tailChar c = false) (hl : 2 < u.length) : trimRev (post ++ u) = u := by
  induction post with
  | nil =>
    cases u with
    | nil => rfl
    | cons c r =>
      have := hu c (by simp)
      simp [trimRev, this]
  | cons c r ih =>
    have h1 : 2 < (r ++ u).length := by simp only [List.length_append]; omega
    have h2 : tailChar c = true := hp c (by simp)
    simp only [List.cons_append, trimRev, if_pos (And.intro h1 h2)]
    exact ih (fun x hx => hp x (by simp [hx]))

/-- C191, partial: bytes converted to text, even with blanks around it, are
converted back to the same bytes, followed by a zero for each padding character.
Missing: the zeros should not be there (`base64_keeps_false`). -/
theorem base64_keeps_partial (bin : List Nat) (hb : ∀ x ∈ bin, x < 256) (hne : bin ≠ [])
    (pre post : List Char) (hpre : ∀ c ∈ pre, c = ' ' ∨ c = '\t') (hpost : ∀ c ∈ post, c ∈ [' ', '\t', '\n', '\r', '-']) :
    ∃ t, encodeWrap true bin = .ok t ∧
      decodeWrap true (pre ++ t ++ post) = .ok (bin ++ List.replicate ((3 - bin.length % 3) % 3) 0) := by
  replace hpre : ∀ c ∈ pre, blank c = true := fun c hc => by simpa [blank] using hpre c hc
  replace hpost : ∀ c ∈ post, tailChar c = true := fun c hc => by simpa [tailChar, or_assoc] using hpost c hc
  have hplain := b64_encode_plain bin hb
  have hlen := b64_encode_length bin
  have hpos : 0 < (encodeBlock bin).length := by
    match bin, hne with
    | [a], _ => simp [encodeBlock]
    | [a, b], _ => simp [encodeBlock]
    | a :: b :: c :: r, _ => simp [encodeBlock]
  refine ⟨encodeBlock bin, ?_, ?_⟩
  · have := (base64_fits true [] bin).2
    simp only [encodeWrap, if_true] at this ⊢
    split
    · rename_i h; rw [if_pos h] at this; exact absurd rfl this
    · rfl
  · have hfit := (base64_fits true (pre ++ encodeBlock bin ++ post) []).1
    have hdrop : (pre ++ encodeBlock bin ++ post).dropWhile blank = encodeBlock bin ++ post := by
      rw [List.append_assoc, List.dropWhile_append_of_pos hpre]
      cases hE : encodeBlock bin with
      | nil => rw [hE] at hpos; simp at hpos
      | cons c r =>
        have := (hplain c (by rw [hE]; simp)).1
        simp [this]
    have hblock : decodeBlock (pre ++ encodeBlock bin ++ post) =
        (bin ++ List.replicate (b64Pad bin.length) 0, true) := by
      unfold decodeBlock
      simp only [hdrop, List.reverse_append]
      rw [b64_trimRev_plain post.reverse (encodeBlock bin).reverse
        (fun c hc => hpost c (List.mem_reverse.1 hc)) (fun c hc => (hplain c (List.mem_reverse.1 hc)).2)
        (by rw [List.length_reverse]; omega), List.reverse_reverse, if_pos hlen, b64_quads_encode bin hb]
    simp only [decodeWrap, if_true, hblock] at hfit ⊢
    split
    · rename_i h; rw [if_pos h] at hfit; exact absurd rfl hfit
    · rfl

theorem b64_index : ∀ d, d < 64 → b64Alphabet.idxOf? (digit d) = some d ∧ digit d ≠ '=' := by decide +kernel

theorem b64_bits (bin : List Nat) (hb : ∀ x ∈ bin, x < 256) :
    ∃ body, encodeBlock bin = body ++ List.replicate ((3 - bin.length % 3) % 3) '=' ∧
      (∃ ds : List Nat, body.mapM (b64Alphabet.idxOf? ·) = some ds ∧
        ds.flatMap (bits 6) = bin.flatMap (bits 8) ++ List.replicate ((3 - bin.length % 3) % 3 * 2) 0) := by
  induction bin using encodeBlock.induct with
  | case1 => exact ⟨[], rfl, [], rfl, rfl⟩
  | case2 a =>
    have ha := hb a (by simp)
    refine ⟨[digit (a / 4), digit (a % 4 * 16)], by simp [encodeBlock, List.replicate], [a / 4, a % 4 * 16], ?_, ?_⟩
    · simp [(b64_index (a / 4) (by omega)).1, (b64_index (a % 4 * 16) (by omega)).1]
    · simp [bits, List.replicate]; omega
  | case3 a b =>
    have ha := hb a (by simp)
    have hb' := hb b (by simp)
    refine ⟨[digit (a / 4), digit (a % 4 * 16 + b / 16), digit (b % 16 * 4)], by simp [encodeBlock, List.replicate],
      [a / 4, a % 4 * 16 + b / 16, b % 16 * 4], ?_, ?_⟩
    · simp [(b64_index (a / 4) (by omega)).1, (b64_index (a % 4 * 16 + b / 16) (by omega)).1, (b64_index (b % 16 * 4) (by omega)).1]
    · simp [bits, List.replicate]; omega
  | case4 a b c r ih =>
    have ha := hb a (by simp)
    have hb' := hb b (by simp)
    have hc := hb c (by simp)
    obtain ⟨body, h1, ds, h2, h3⟩ := ih (fun x hx => hb x (by simp [hx]))
    have hl : (a :: b :: c :: r).length % 3 = r.length % 3 := by simp only [List.length_cons]; omega
    refine ⟨digit (a / 4) :: digit (a % 4 * 16 + b / 16) :: digit (b % 16 * 4 + c / 64) :: digit (c % 64) :: body, ?_,
      a / 4 :: (a % 4 * 16 + b / 16) :: (b % 16 * 4 + c / 64) :: c % 64 :: ds, ?_, ?_⟩
    · rw [hl]; simp [encodeBlock, h1]
    · simp [(b64_index (a / 4) (by omega)).1, (b64_index (a % 4 * 16 + b / 16) (by omega)).1, (b64_index (b % 16 * 4 + c / 64) (by omega)).1,
        (b64_index (c % 64) (by omega)).1, h2]
    · rw [hl]
      simp only [List.flatMap_cons, h3, ← List.append_assoc]
      congr 1
      congr 1
      simp [bits]; omega

/-- C191: bytes are converted to the text of RFC 4648 (section 4): the bits of the characters, six for each by its place in the alphabet, are the bits of the
bytes with zeros behind up to whole groups of six, and `=` completes the last group of four characters. -/
theorem base64_rfc (bin : List Nat) (hb : ∀ x ∈ bin, x < 256) (hne : bin ≠ []) :
    ∃ body, encodeWrap true bin = .ok (body ++ List.replicate ((3 - bin.length % 3) % 3) '=') ∧
      ∃ ds, body.mapM (b64Alphabet.idxOf? ·) = some ds ∧
        ds.flatMap (bits 6) = bin.flatMap (bits 8) ++ List.replicate ((3 - bin.length % 3) % 3 * 2) 0 := by
  obtain ⟨body, h1, h2⟩ := b64_bits bin hb
  obtain ⟨t, h3, -⟩ := base64_keeps_partial bin hb hne [] [] (by simp) (by simp)
  refine ⟨body, ?_, h2⟩
  rw [← h1]
  unfold encodeWrap at h3 ⊢
  simp only [if_true] at h3 ⊢
  split
  · rename_i h; rw [if_pos h] at h3; cases h3
  · rfl

/-- C191 is false: one byte comes back as three. -/
theorem base64_keeps_false : ∃ bin t, (∀ x ∈ bin, x < 256) ∧ encodeWrap true bin = .ok t ∧
    decodeWrap true t = .ok (bin ++ [0, 0]) :=
  ⟨[77], ['T', 'Q', '=', '='], by decide, by decide, by decide⟩

example : encodeWrap true [77, 97, 110] = .ok ['T', 'W', 'F', 'u'] ∧
    decodeWrap true [' ', 'T', 'W', 'F', 'u', '\n'] = .ok [77, 97, 110] ∧
    decodeWrap true ['T', 'W', '\n', 'F', 'u', '\n'] = .err ∧
    decodeWrap true ['T', 'W', 'F', '*'] = .err := by decide

/-! ## Reasons of failures of TLS -/

/-- Texts with "; " between them. -/
def withSemicolons : List (List Char) → List Char
  | [] => []
  | [t] => t
  | t :: u :: r => t ++ [';', ' '] ++ withSemicolons (u :: r)

theorem reasonsLoop_some (mem : Nat → Bool) (es : List (List Char)) :
    ∀ (t : List Char) (size : Nat), t.length + 1 ≤ size →
    reasonsLoop mem (es.map some) size (some t) ≠ .ub ∧
    ((∀ n, mem n = true) → t ≠ [] → (∀ e ∈ es, e ≠ []) →
      reasonsLoop mem (es.map some) size (some t) = .ok (withSemicolons (t :: es))) := by
  induction es with
  | nil => intro t size _; exact ⟨by simp [reasonsLoop], fun _ _ _ => by simp [reasonsLoop, withSemicolons]⟩
  | cons e es ih =>
    intro t size hs
    by_cases ht : 0 < t.length
    · constructor
      · simp only [List.map_cons, reasonsLoop, Option.getD_some, ht, if_true, true_and]
        split
        · simp
        · rw [if_neg (by simp only [List.length_append, List.length_cons, List.length_nil]; omega)]
          split
          · simp
          · rw [if_neg (by simp only [List.length_append, List.length_cons, List.length_nil]; omega)]
            exact (ih _ _ (by simp only [List.length_append, List.length_cons, List.length_nil]; omega)).1
      · intro hm hne hes
        simp only [List.map_cons, reasonsLoop, Option.getD_some, ht, if_true, true_and, hm, Bool.true_eq_false,
          if_false]
        rw [if_neg (by simp only [List.length_append, List.length_cons, List.length_nil]; omega),
          if_neg (by simp only [List.length_append, List.length_cons, List.length_nil]; omega),
          (ih _ _ (by simp only [List.length_append, List.length_cons, List.length_nil]; omega)).2 hm
            (by simp) (fun x hx => hes x (by simp [hx]))]
        congr 1
        cases es with
        | nil => simp [withSemicolons]
        | cons f fs => simp [withSemicolons]
    · constructor
      · simp only [List.map_cons, reasonsLoop, Option.getD_some, ht, if_false, false_and]
        split
        · simp
        · rw [if_neg (by simp only [List.length_append]; omega)]
          exact (ih _ _ (by simp only [List.length_append]; omega)).1
      · intro _ hne
        cases t with
        | nil => exact absurd rfl hne
        | cons => simp at ht

theorem reasons_cons (mem : Nat → Bool) (e : List Char) (es : List (List Char)) :
    reasons mem ((e :: es).map some) =
      if mem (1 + e.length) = false then .err
      else reasonsLoop mem (es.map some) (1 + e.length) (some e) := by
  simp only [reasons, List.map_cons, reasonsLoop, Option.getD_none, List.length_nil, Nat.lt_irrefl, if_false,
    false_and, List.nil_append]
  split
  · rfl
  · rw [if_neg (by omega)]

/-- C192, partial: whatever errors there are, nothing is written behind the
buffer, and with memory the text has all reasons in order.  Missing: errors
without a known reason (`reasons_false`). -/
theorem reasons_partial (mem : Nat → Bool) (es : List (List Char)) :
    reasons mem (es.map some) ≠ .ub ∧
    ((∀ n, mem n = true) → es ≠ [] → (∀ e ∈ es, e ≠ []) →
      reasons mem (es.map some) = .ok (withSemicolons es)) := by
  cases es with
  | nil => exact ⟨by simp [reasons, reasonsLoop], fun _ h => absurd rfl h⟩
  | cons e es =>
    rw [reasons_cons]
    have := reasonsLoop_some mem es e (1 + e.length) (by omega)
    constructor
    · split
      · simp
      · exact this.1
    · intro hm _ hes
      rw [hm]
      simp only [Bool.true_eq_false, if_false]
      exact this.2 hm (hes e (by simp)) (fun x hx => hes x (by simp [hx]))

/-- C192 is false for an error without a known reason: NULL is used as a text. -/
theorem reasons_false (es : List (List Char)) :
    reasons (fun _ => true) (es.map some ++ [none]) = .ub := by
  have key : ∀ (es : List (List Char)) (size : Nat) (t : Option (List Char)),
      reasonsLoop (fun _ => true) (es.map some ++ [none]) size t = .ub := by
    intro es
    induction es with
    | nil =>
      intro size t
      simp only [List.map_nil, List.nil_append, reasonsLoop, Bool.true_eq_false, and_false, if_false, ite_self]
    | cons e es ih =>
      intro size t
      simp only [List.map_cons, List.cons_append, reasonsLoop, Bool.true_eq_false, and_false, if_false]
      rw [ih]
      simp only [ite_self]
  exact key es 1 none

example : reasons (fun _ => true) [some ['a'], some ['b', 'c']] = .ok ['a', ';', ' ', 'b', 'c'] := by decide

/-! ## Messages -/

theorem logText_whole (e : LogEnv) (m : List Char) : logText e m = none ∨ logText e m = some m := by
  unfold logText
  split
  · exact Or.inl rfl
  · split
    · exact Or.inl rfl
    · split
      · split
        · exact Or.inl rfl
        · split
          · exact Or.inl rfl
          · right; simp [cut]
      · rename_i h
        right
        simp only [cut, Option.some.injEq]
        exact List.take_of_length_le (by simp only [initSize] at h ⊢; omega)

/-- The levels that are output when a level is wanted: it and the more important ones; src/log.h:33-39. -/
def levelsShown : Level → List Level
  | .error => [.error]
  | .warning => [.error, .warning]
  | .verbose => [.error, .warning, .verbose]
  | .debug => [.error, .warning, .verbose, .debug]
  | .debugLow => [.error, .warning, .verbose, .debug, .debugLow]

/-- How levels are written; src/log.c:47-56. -/
def levelText (l : Level) : List Char :=
  match l with
  | .error => "[ERR]".toList
  | .warning => "[WRN]".toList
  | .verbose => "[INF]".toList
  | .debug => "[DBG]".toList
  | .debugLow => "[DBL]".toList

theorem level_shown (l v : Level) : l.num ≤ v.num ↔ l ∈ levelsShown v := by cases l <;> cases v <;> decide

theorem level_text (l : Level) : l.label = levelText l := by cases l <;> rfl

/-- C193: whatever its length and whatever fails, a message is given whole to
the callback, or written whole on one line (with its level and the session), or
not at all; only messages of the wanted levels are. -/
theorem message_whole (verb : Level) (e : LogEnv) (clb : Bool) (sid : Option Nat) (l : Level) (m : List Char)
    (o : Out) (h : o ∈ log verb e clb sid l m) :
    l ∈ levelsShown verb ∧
    (clb = true → o = .callback l m) ∧
    (clb = false → ∃ pre, o = .stderr (pre ++ levelText l ++ [':', ' '] ++ m ++ ['\n']) ∧
      (pre = [] ∨ ∃ n, sid = some n ∧ pre = "Session ".toList ++ Nat.toDigits 10 n ++ [' '])) := by
  rw [← level_shown]
  have key : ∀ l, o ∈ vprintf e clb sid l m →
      (clb = true → o = .callback l m) ∧
      (clb = false → ∃ pre, o = .stderr (pre ++ levelText l ++ [':', ' '] ++ m ++ ['\n']) ∧
        (pre = [] ∨ ∃ n, sid = some n ∧ pre = "Session ".toList ++ Nat.toDigits 10 n ++ [' '])) := by
    intro l h
    rw [← level_text]
    unfold vprintf at h
    rcases logText_whole e m with ht | ht
    · rw [ht] at h; cases h
    · rw [ht] at h
      simp only at h
      cases clb with
      | true => exact ⟨fun _ => by simpa using h, by simp⟩
      | false =>
        refine ⟨by simp, fun _ => ?_⟩
        simp only [Bool.false_eq_true, if_false] at h
        split at h
        · rename_i k _
          refine ⟨"Session ".toList ++ Nat.toDigits 10 (k + 1) ++ [' '], ?_, Or.inr ⟨k + 1, rfl, rfl⟩⟩
          simpa using h
        · exact ⟨[], by simpa using h, Or.inl rfl⟩
  cases l with
  | error => exact ⟨Nat.zero_le _, key _ h⟩
  | warning =>
    simp only [log] at h; split at h
    · rename_i hv; exact ⟨hv, key _ h⟩
    · cases h
  | verbose =>
    simp only [log] at h; split at h
    · rename_i hv; exact ⟨hv, key _ h⟩
    · cases h
  | debug =>
    simp only [log] at h; split at h
    · rename_i hv; exact ⟨hv, key _ h⟩
    · cases h
  | debugLow =>
    simp only [log] at h; split at h
    · rename_i hv; exact ⟨hv, key _ h⟩
    · cases h

/-- C193: a message of a wanted level is output exactly once if there is memory
and printing works; with the id of its session, if it has one. -/
theorem message_output (verb : Level) (clb : Bool) (sid : Option Nat) (l : Level) (m : List Char)
    (hv : l ∈ levelsShown verb) :
    log verb ⟨true, true, true, true⟩ clb sid l m =
      [if clb then .callback l m
       else .stderr ((if sid.getD 0 = 0 then [] else "Session ".toList ++ Nat.toDigits 10 (sid.getD 0) ++ [' ']) ++
         levelText l ++ [':', ' '] ++ m ++ ['\n'])] := by
  rw [← level_shown] at hv
  rw [← level_text]
  have key : log verb ⟨true, true, true, true⟩ clb sid l m = vprintf ⟨true, true, true, true⟩ clb sid l m := by
    cases l with
    | error => rfl
    | warning => simp only [log, ge_iff_le, if_pos hv]
    | verbose => simp only [log, ge_iff_le, if_pos hv]
    | debug => simp only [log, ge_iff_le, if_pos hv]
    | debugLow => simp only [log, ge_iff_le, if_pos hv]
  have ht : logText ⟨true, true, true, true⟩ m = some m := by
    rcases logText_whole ⟨true, true, true, true⟩ m with h | h
    · unfold logText at h
      simp only [Bool.true_eq_false, if_false] at h
      split at h <;> cases h
    · exact h
  rw [key, vprintf, ht]
  cases clb with
  | true => rfl
  | false =>
    cases sid with
    | none => rfl
    | some n =>
      cases n with
      | zero => rfl
      | succ k => simp

example : log .warning ⟨true, true, false, false⟩ false (some 7) .warning ['h', 'i'] =
      [.stderr "Session 7 [WRN]: hi\n".toList] ∧
    log .warning ⟨true, true, false, false⟩ true none .verbose ['h', 'i'] = [] ∧
    log .error ⟨true, true, false, true⟩ true none .error (List.replicate 300 'x') = [] ∧
    log .error ⟨true, true, true, true⟩ true none .error (List.replicate 300 'x') =
      [.callback .error (List.replicate 300 'x')] := by decide +kernel

end Verif.Props
