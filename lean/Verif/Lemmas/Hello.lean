import Verif.Spec.Hello

/-! # Lemmas about capabilities and hello messages -/

namespace Verif.Hello

open Verif.Spec

theorem wsChar_eq : wsChar = isSpace := rfl
theorem rfcBase10_eq : rfcBase10 = base10 := rfl
theorem rfcBase11_eq : rfcBase11 = base11 := rfl
theorem nSessionId_eq : nSessionId = sSessionId := rfl
theorem nCapabilities_eq : nCapabilities = sCapabilities := rfl
theorem nHello_eq : nHello = sHello := rfl

theorem dropWhile_append_all {p : Char → Bool} (a b : Text) (h : ∀ c ∈ a, p c = true) :
    (a ++ b).dropWhile p = b.dropWhile p := by
  induction a with
  | nil => rfl
  | cons x a ih =>
    simp only [List.cons_append, List.dropWhile_cons, h x (by simp), ↓reduceIte]
    exact ih (fun c hc => h c (by simp [hc]))

theorem dropWhile_split (p : Char → Bool) (t : Text) :
    ∃ a : Text, (∀ c ∈ a, p c = true) ∧ t = a ++ t.dropWhile p := by
  induction t with
  | nil => exact ⟨[], by simp, rfl⟩
  | cons x t ih =>
    by_cases hx : p x = true
    · obtain ⟨a, ha, he⟩ := ih
      refine ⟨x :: a, by simpa [hx] using ha, ?_⟩
      simp only [List.dropWhile_cons, hx, ↓reduceIte, List.cons_append]
      rw [← he]
    · exact ⟨[], by simp, by simp [hx]⟩

theorem trim_padded (v : Text) : Padded (trim v) v := by
  obtain ⟨a, ha, he⟩ := dropWhile_split isSpace v
  obtain ⟨b, hb, hb'⟩ := dropWhile_split isSpace (v.dropWhile isSpace).reverse
  have hb2 : ∀ c ∈ b.reverse, isSpace c = true := by simpa using hb
  refine ⟨a, b.reverse, ha, hb2, ?_⟩
  have : v.dropWhile isSpace = trim v ++ b.reverse := by
    unfold trim
    rw [← List.reverse_append, ← hb', List.reverse_reverse]
  rw [List.append_assoc, ← this, ← he]

theorem dropWhile_head {p : Char → Bool} {t : Text} {c : Char} (h : t.head? = some c) (hc : p c = false) :
    t.dropWhile p = t := by
  cases t with
  | nil => simp at h
  | cons x t => simp only [List.head?_cons, Option.some.injEq] at h; subst h; simp [hc]

/-- A text whose first and last characters are not white space. -/
def Solid (u : Text) : Prop := (∃ c, u.head? = some c ∧ isSpace c = false) ∧ (∃ c, u.reverse.head? = some c ∧ isSpace c = false)

theorem trim_of_padded {u v : Text} (hu : Solid u) (h : Padded u v) : trim v = u := by
  obtain ⟨a, b, ha, hb, rfl⟩ := h
  obtain ⟨⟨c, hc, hcs⟩, ⟨d, hd, hds⟩⟩ := hu
  rw [wsChar_eq] at ha hb
  unfold trim
  have h1 : (a ++ u ++ b).dropWhile isSpace = u ++ b := by
    rw [List.append_assoc, dropWhile_append_all _ _ ha]
    exact dropWhile_head (c := c) (by rw [List.head?_append, hc]; rfl) hcs
  rw [h1, List.reverse_append, dropWhile_append_all _ _ (by simpa using hb), dropWhile_head hd hds, List.reverse_reverse]

theorem base10_solid : Solid base10 := ⟨⟨'u', by decide, by decide⟩, ⟨'0', by decide, by decide⟩⟩
theorem base11_solid : Solid base11 := ⟨⟨'u', by decide, by decide⟩, ⟨'1', by decide, by decide⟩⟩

theorem trim_eq_iff {u : Text} (hu : Solid u) (v : Text) : trim v = u ↔ Padded u v :=
  ⟨fun h => h ▸ trim_padded v, trim_of_padded hu⟩

theorem trim_ne_nil {v : Text} (h : ∃ c ∈ v, isSpace c = false) : trim v ≠ [] := by
  intro hn
  obtain ⟨a, b, ha, hb, he⟩ := trim_padded v
  obtain ⟨c, hc, hcs⟩ := h
  rw [wsChar_eq] at ha hb
  rw [hn, List.append_nil] at he
  rw [he, List.mem_append] at hc
  rcases hc with hc | hc
  · rw [ha c hc] at hcs; cases hcs
  · rw [hb c hc] at hcs; cases hcs

theorem strncmpEq_iff (t lit : Text) : strncmpEq t lit = true ↔ t <+: lit := by
  unfold strncmpEq
  rw [beq_iff_eq]
  constructor
  · intro h; rw [h]; exact List.take_prefix _ _
  · intro h; exact List.prefix_iff_eq_take.mp h

theorem parseLoop_proper (es : List CapElem) (hp : ProperList es) (ver : Option Nat) (acc : List Text) :
    parseLoop es ver acc = some ((es.map (fun e => trim e.value)).foldl verStep ver, acc ++ es.map (fun e => trim e.value)) := by
  induction es generalizing ver acc with
  | nil => simp [parseLoop]
  | cons e es ih =>
    have he := hp e (by simp)
    have hp' : ProperList es := fun x hx => hp x (by simp [hx])
    simp only [parseLoop, he.1, Bool.not_true, Bool.false_eq_true, ↓reduceIte, trim_ne_nil he.2]
    rw [ih hp']
    simp

theorem parseLoop_some_proper (es : List CapElem) (ver : Option Nat) (acc : List Text) (r)
    (h : parseLoop es ver acc = some r) : ProperList es := by
  induction es generalizing ver acc with
  | nil => intro e he; simp at he
  | cons e es ih =>
    unfold parseLoop at h
    split at h
    · cases h
    · rename_i hc
      dsimp only at h
      split at h
      · cases h
      · rename_i hne
        intro x hx
        rcases List.mem_cons.mp hx with rfl | hx
        · refine ⟨by simpa using hc, ?_⟩
          by_cases hall : ∃ c ∈ x.value, isSpace c = false
          · exact hall
          · exfalso; apply hne
            have hall' : ∀ c ∈ x.value, isSpace c = true := by
              intro c hc
              by_cases h : isSpace c = true
              · exact h
              · exact absurd ⟨c, hc, by simpa using h⟩ hall
            have : x.value.dropWhile isSpace = [] := by
              have := dropWhile_append_all x.value [] hall'
              simpa using this
            simp [trim, this]
        · exact ih _ _ h x hx

theorem base_ne : base11 ≠ base10 := by decide

theorem verStep_base11 (v : Option Nat) (hv : v = none ∨ v = some 0 ∨ v = some 1) : verStep v base11 = some 1 := by
  rcases hv with rfl | rfl | rfl <;> decide

theorem verStep_base10 (v : Option Nat) (hv : v = none ∨ v = some 0 ∨ v = some 1) :
    verStep v base10 = if v = some 1 then some 1 else some 0 := by
  rcases hv with rfl | rfl | rfl <;> decide

theorem verStep_range (v : Option Nat) (t : Text) (hv : v = none ∨ v = some 0 ∨ v = some 1) :
    verStep v t = none ∨ verStep v t = some 0 ∨ verStep v t = some 1 := by
  unfold verStep
  split
  · simp
  · split <;> simp_all

theorem verStep_mono (v : Option Nat) (t : Text) (hv : v = none ∨ v = some 0 ∨ v = some 1) :
    (v = some 1 → verStep v t = some 1) ∧ (v ≠ none → verStep v t ≠ none) := by
  rcases hv with rfl | rfl | rfl <;> (unfold verStep; simp) 
  split <;> simp

theorem foldl_ver (ts : List Text) (v : Option Nat) (hv : v = none ∨ v = some 0 ∨ v = some 1) :
    (ts.foldl verStep v = none ∨ ts.foldl verStep v = some 0 ∨ ts.foldl verStep v = some 1) ∧
    ((v = some 1 ∨ base11 ∈ ts) → ts.foldl verStep v = some 1) ∧
    ((v ≠ none ∨ base10 ∈ ts) → ts.foldl verStep v ≠ none) := by
  induction ts generalizing v with
  | nil => simp [hv]
  | cons t ts ih =>
    obtain ⟨h1, h2, h3⟩ := ih (verStep v t) (verStep_range v t hv)
    have hm := verStep_mono v t hv
    refine ⟨h1, ?_, ?_⟩
    · rintro (h | h)
      · exact h2 (Or.inl (hm.1 h))
      · rcases List.mem_cons.mp h with rfl | h
        · exact h2 (Or.inl (verStep_base11 v hv))
        · exact h2 (Or.inr h)
    · rintro (h | h)
      · exact h3 (Or.inl (hm.2 h))
      · rcases List.mem_cons.mp h with rfl | h
        · refine h3 (Or.inl ?_)
          rw [verStep_base10 v hv]; split <;> simp
        · exact h3 (Or.inr h)

theorem foldl_ver_exact (ts : List Text) (v : Option Nat) (hv : v = none ∨ v = some 0 ∨ v = some 1)
    (hp : ∀ t ∈ ts, (t <+: base10 ∨ t <+: base11) → t = base10 ∨ t = base11) :
    (ts.foldl verStep v = some 1 → v = some 1 ∨ base11 ∈ ts) ∧
    (ts.foldl verStep v ≠ none → v ≠ none ∨ base10 ∈ ts ∨ base11 ∈ ts) := by
  induction ts generalizing v with
  | nil => simp
  | cons t ts ih =>
    obtain ⟨h1, h2⟩ := ih (verStep v t) (verStep_range v t hv) (fun t ht => hp t (by simp [ht]))
    have key : verStep v t = v ∨ t = base10 ∨ t = base11 := by
      by_cases h : t <+: base10 ∨ t <+: base11
      · exact Or.inr (hp t (by simp) h)
      · left
        unfold verStep
        have ha : ¬ strncmpEq t base10 = true := fun hh => h (Or.inl ((strncmpEq_iff _ _).mp hh))
        have hb : ¬ strncmpEq t base11 = true := fun hh => h (Or.inr ((strncmpEq_iff _ _).mp hh))
        simp [ha, hb]
    constructor
    · intro h
      rcases h1 h with h | h
      · rcases key with k | rfl | rfl
        · left; rw [← k, h]
        · rw [verStep_base10 v hv] at h
          split at h
          · left; assumption
          · cases h
        · right; simp
      · right; simp [h]
    · intro h
      rcases h2 h with h | h | h
      · rcases key with k | rfl | rfl
        · left; rwa [k] at h
        · right; simp
        · right; simp
      · right; left; simp [h]
      · right; right; simp [h]

theorem parseCpblts_eq (es : List CapElem) (hp : ProperList es) :
    parseCpblts es = ((es.map (fun e => trim e.value)).foldl verStep none).map (fun v => (v, es.map (fun e => trim e.value))) := by
  unfold parseCpblts
  rw [parseLoop_proper es hp]
  cases h : (es.map (fun e => trim e.value)).foldl verStep none <;> simp

theorem mem_trim_iff {u : Text} (hu : Solid u) (es : List CapElem) :
    u ∈ es.map (fun e => trim e.value) ↔ Advertises es u := by
  simp only [List.mem_map, Advertises]
  constructor
  · rintro ⟨e, he, h⟩; exact ⟨e, he, (trim_eq_iff hu _).mp h⟩
  · rintro ⟨e, he, h⟩; exact ⟨e, he, (trim_eq_iff hu _).mpr h⟩

theorem allDigits_spec (acc : Nat) (t : Text) (n : Nat) :
    allDigits acc t = some n ↔ (∀ c ∈ t, c.isDigit = true) ∧ t.foldl (fun a c => a * 10 + (c.toNat - 48)) acc = n := by
  induction t generalizing acc with
  | nil => simp [allDigits]
  | cons c cs ih =>
    simp only [allDigits]
    split
    · rename_i h; rw [ih]; simp [h]
    · rename_i h; simp [h]

theorem digit_not_space (c : Char) (h : c.isDigit = true) : isSpace c = false := by
  unfold isSpace
  cases hh : (c == ' ' || c == '\t' || c == '\n' || c == '\x0b' || c == '\x0c' || c == '\r') with
  | false => rfl
  | true =>
    simp only [Bool.or_eq_true, beq_iff_eq] at hh
    rcases hh with ((((rfl | rfl) | rfl) | rfl) | rfl) | rfl <;> revert h <;> decide

theorem strtollFull_pos {t : Text} {i : Int} (h : strtollFull t = some i) (h1 : ¬ (i < 1 ∨ i > 4294967295)) :
    Denotes t i.toNat := by
  obtain ⟨ws, hws, he⟩ := dropWhile_split isSpace t
  unfold strtollFull at h
  split at h
  · cases h
  · rename_i ds heq
    split at h
    · cases h
    · simp only [Option.map_eq_some_iff] at h
      obtain ⟨v, -, hv⟩ := h
      omega
  · rename_i ds heq
    split at h
    · cases h
    · rename_i hne
      simp only [Option.map_eq_some_iff] at h
      obtain ⟨v, hv, hvi⟩ := h
      rw [allDigits_spec] at hv
      refine ⟨ws, ds, hws, hne, hv.1, Or.inr (by rw [← heq]; exact he), ?_⟩
      unfold decVal; rw [hv.2]; omega
  · rename_i ds hnil hneg hplus
    simp only [Option.map_eq_some_iff] at h
    obtain ⟨v, hv, hvi⟩ := h
    rw [allDigits_spec] at hv
    refine ⟨ws, _, hws, hnil, hv.1, Or.inl he, ?_⟩
    unfold decVal; rw [hv.2]; omega

theorem strtollFull_of_denotes {t : Text} {n : Nat} (h : Denotes t n) (hn : n ≤ 4294967295) :
    strtollFull t = some (n : Int) := by
  obtain ⟨ws, ds, hws, hne, hd, ht, hv⟩ := h
  rw [wsChar_eq] at hws
  cases ds with
  | nil => exact absurd rfl hne
  | cons d ds =>
    have hdd := hd d (by simp)
    have hds := digit_not_space d hdd
    have hval : allDigits 0 (d :: ds) = some n := (allDigits_spec _ _ _).mpr ⟨hd, hv⟩
    rcases ht with rfl | rfl
    · unfold strtollFull
      rw [dropWhile_append_all _ _ hws, dropWhile_head (c := d) rfl hds]
      split
      · rename_i h; cases h
      · rename_i h; injection h with h; subst h; exact absurd hdd (by decide)
      · rename_i h; injection h with h; subst h; exact absurd hdd (by decide)
      · rw [hval]; simp only [Option.map_some, Option.some.injEq]; omega
    · unfold strtollFull
      rw [dropWhile_append_all _ _ hws, dropWhile_head (c := '+') rfl (by decide)]
      simp only [reduceCtorEq, ↓reduceIte, hval, Option.map_some, Option.some.injEq]; omega

/-! ## add_cpblt -/

theorem uriLen_eq (t : Text) : uriLen t = (uri t).length := by
  unfold uriLen uri
  induction t with
  | nil => rfl
  | cons c t ih =>
    rw [List.findIdx?_cons, List.takeWhile_cons]
    by_cases h : c = '?'
    · simp [h]
    · simp only [beq_iff_eq, h, ↓reduceIte, bne_iff_ne, ne_eq, not_false_eq_true, List.length_cons, ← ih]
      cases t.findIdx? (· == '?') <;> simp

theorem take_uriLen (t : Text) : t.take (uriLen t) = uri t := by
  rw [uriLen_eq]
  have : uri t <+: t := List.takeWhile_prefix _
  exact (List.prefix_iff_eq_take.mp this).symm

theorem takeWhile_stop {p : Char → Bool} (a : Text) (b : Text) (ha : ∀ c ∈ a, p c = true)
    (hb : b = [] ∨ ∃ c t, b = c :: t ∧ p c = false) : (a ++ b).takeWhile p = a := by
  induction a with
  | nil =>
    rcases hb with rfl | ⟨c, t, rfl, hc⟩
    · rfl
    · simp [hc]
  | cons x a ih => simp [ha x (by simp), ih (fun c hc => ha c (by simp [hc]))]

theorem takeWhile_all {p : Char → Bool} (t : Text) (c : Char) (h : c ∈ t.takeWhile p) : p c = true := by
  induction t with
  | nil => simp at h
  | cons x t ih =>
    rw [List.takeWhile_cons] at h
    split at h
    · rcases List.mem_cons.mp h with rfl | h
      · assumption
      · exact ih h
    · simp at h

theorem samePresent_iff (a b : Text) : samePresent a b = true ↔ uri a = uri b := by
  unfold samePresent
  simp only [take_uriLen, Bool.and_eq_true, decide_eq_true_eq, beq_iff_eq, Bool.or_eq_true]
  rw [uriLen_eq]
  constructor
  · rintro ⟨⟨h1, h2⟩, h3⟩
    have hs : a = uri b ++ a.drop (uri b).length := by
      conv => lhs; rw [← List.take_append_drop (uri b).length a]
      rw [h2]
    rw [hs]
    refine takeWhile_stop (p := (· != '?')) _ _ (fun c hc => takeWhile_all (p := (· != '?')) b c hc) ?_
    rcases h3 with h3 | h3
    · left; apply List.drop_eq_nil_of_le; omega
    · right
      have hlt : (uri b).length < a.length := by
        rw [List.getElem?_eq_some_iff] at h3; exact h3.1
      refine ⟨a[(uri b).length], a.drop ((uri b).length + 1), List.drop_eq_getElem_cons hlt, ?_⟩
      rw [List.getElem?_eq_getElem hlt, Option.some.injEq] at h3
      rw [h3]; decide
  · intro h
    rw [← h]
    have hp : uri a <+: a := List.takeWhile_prefix _
    refine ⟨⟨hp.length_le, (List.prefix_iff_eq_take.mp hp).symm⟩, ?_⟩
    have hsplit : a = uri a ++ a.dropWhile (· != '?') := (List.takeWhile_append_dropWhile).symm
    cases hd : a.dropWhile (· != '?') with
    | nil =>
      left; rw [hd, List.append_nil] at hsplit; rw [← hsplit]
    | cons c t =>
      right
      have hc : c = '?' := by
        have := List.head?_dropWhile_not (· != '?') a
        rw [hd] at this
        simpa using this
      rw [hd, hc] at hsplit
      have h5 : (uri a ++ '?' :: t)[(uri a).length]? = some '?' := by simp
      rw [← hsplit] at h5; exact h5

theorem addCpblt_spec (l : List Text) (x : Text) :
    ((l.map uri).Nodup → ((addCpblt l x).map uri).Nodup) ∧ l <+: addCpblt l x ∧ uri x ∈ (addCpblt l x).map uri ∧
      ∀ y ∈ addCpblt l x, y ∈ l ∨ y = x := by
  unfold addCpblt
  split
  · rename_i h
    rw [List.any_eq_true] at h
    obtain ⟨y, hy, he⟩ := h
    rw [samePresent_iff] at he
    exact ⟨id, List.prefix_refl _, List.mem_map.mpr ⟨y, hy, he⟩, fun y hy => Or.inl hy⟩
  · rename_i h
    refine ⟨?_, List.prefix_append _ _, by simp, by simp⟩
    intro hn
    rw [List.map_append, List.nodup_append]
    refine ⟨hn, by simp, ?_⟩
    intro a ha b hb hab
    simp only [List.map_cons, List.map_nil, List.mem_singleton] at hb
    subst hb; subst hab
    apply h
    obtain ⟨y, hy, he⟩ := List.mem_map.mp ha
    rw [List.any_eq_true]
    exact ⟨y, hy, (samePresent_iff _ _).mpr he⟩

end Verif.Hello
