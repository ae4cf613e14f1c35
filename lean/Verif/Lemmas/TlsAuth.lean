import Verif.Spec.TlsAuth

namespace Verif.TlsAuth

/-! ## Hexadecimal texts -/

theorem hexVal_lt {a x} (h : HexVal a x) : x < 16 := by
  cases h <;> omega

theorem hexVal_lower {a x} (h : HexVal a x) : a.toLower = hexChar x := by
  cases h with
  | digit n h => exact (by decide : ∀ n < 10, (Char.ofNat (48 + n)).toLower = hexChar n) _ h
  | lower n h h' => exact (by decide : ∀ n < 16, 10 ≤ n → (Char.ofNat (87 + n)).toLower = hexChar n) _ h' h
  | upper n h h' => exact (by decide : ∀ n < 16, 10 ≤ n → (Char.ofNat (55 + n)).toLower = hexChar n) _ h' h

theorem hexChar_lower : ∀ n < 16, (hexChar n).toLower = hexChar n := by decide

theorem hexChar_inj : ∀ n < 16, ∀ m < 16, hexChar n = hexChar m → n = m := by decide

theorem hexChar_colon : ∀ n < 16, hexChar n ≠ ':' := by decide

theorem hexChar_val : ∀ n, n < 16 → HexVal (hexChar n) n := by
  intro n h
  unfold hexChar
  split
  · exact .digit n (by omega)
  · exact .lower n (by omega) h

theorem hexChar_notUpper : ∀ n < 16, (hexChar n).isUpper = false := by decide

theorem hexVal_digit {a x} (h : HexVal a x) (n : Nat) (hn : n < 10) : a = Char.ofNat (48 + n) ↔ x = n := by
  cases h with
  | digit x h => exact (by decide : ∀ x < 10, ∀ n < 10, Char.ofNat (48 + x) = Char.ofNat (48 + n) ↔ x = n) _ h _ hn
  | lower x h h' => exact (by decide : ∀ x < 16, ∀ n < 10, 10 ≤ x → (Char.ofNat (87 + x) = Char.ofNat (48 + n) ↔ x = n)) _ h' _ hn h
  | upper x h h' => exact (by decide : ∀ x < 16, ∀ n < 10, 10 ≤ x → (Char.ofNat (55 + x) = Char.ofNat (48 + n) ↔ x = n)) _ h' _ hn h

theorem hexVal_notUpper {a x} (h : HexVal a x) (hu : a.isUpper = false) : a = hexChar x := by
  cases h with
  | digit x h => exact (by decide : ∀ x < 10, Char.ofNat (48 + x) = hexChar x) _ h
  | lower x h h' => exact (by decide : ∀ x < 16, 10 ≤ x → Char.ofNat (87 + x) = hexChar x) _ h' h
  | upper x h h' => exact absurd hu ((by decide : ∀ x < 16, 10 ≤ x → ¬ (Char.ofNat (55 + x)).isUpper = false) _ h' h)

theorem fpOctets_ne {t l} (h : FpOctets t l) : l ≠ [] := by cases h <;> simp

theorem fpOctets_lt {t l} (h : FpOctets t l) : ∀ b ∈ l, b < 256 := by
  induction h with
  | one ha hb => intro b hb'; have := hexVal_lt ha; have := hexVal_lt hb; simp at hb'; omega
  | cons ha hb h ih =>
    intro b hb'
    have := hexVal_lt ha; have := hexVal_lt hb
    rcases List.mem_cons.mp hb' with rfl | h'
    · omega
    · exact ih _ h'

theorem hex2_of {x y : Nat} (_ : x < 16) (hy : y < 16) : hex2 (16 * x + y) = [hexChar x, hexChar y] := by
  unfold hex2
  rw [show (16 * x + y) / 16 = x by omega, show (16 * x + y) % 16 = y by omega]

theorem digestHex_cons {b : Nat} {l : List Nat} (h : l ≠ []) : digestHex (b :: l) = hex2 b ++ ':' :: digestHex l := by
  cases l with
  | nil => exact absurd rfl h
  | cons c t => rfl

theorem fpOctets_lower {t l} (h : FpOctets t l) : t.map Char.toLower = digestHex l := by
  induction h with
  | one ha hb =>
    simp only [List.map_cons, List.map_nil, digestHex, hex2_of (hexVal_lt ha) (hexVal_lt hb), hexVal_lower ha, hexVal_lower hb]
  | cons ha hb h ih =>
    rw [digestHex_cons (fpOctets_ne h), hex2_of (hexVal_lt ha) (hexVal_lt hb)]
    simp only [List.map_cons, hexVal_lower ha, hexVal_lower hb, ih, List.cons_append, List.nil_append]
    rfl

theorem hex2_lower {b : Nat} (hb : b < 256) : (hex2 b).map Char.toLower = hex2 b := by
  simp only [hex2, List.map_cons, List.map_nil, hexChar_lower _ (show b / 16 < 16 by omega), hexChar_lower _ (show b % 16 < 16 by omega)]

theorem digestHex_lower : ∀ (l : List Nat), (∀ b ∈ l, b < 256) → (digestHex l).map Char.toLower = digestHex l
  | [], _ => rfl
  | [b], h => hex2_lower (h b (by simp))
  | b :: c :: t, h => by
    rw [digestHex_cons (by simp), List.map_append, hex2_lower (h b (by simp)), List.map_cons,
      digestHex_lower (c :: t) (fun x hx => h x (by simp [List.mem_cons.mp hx]))]
    rfl

theorem hex2_inj {a b : Nat} (ha : a < 256) (hb : b < 256) (h : hex2 a = hex2 b) : a = b := by
  simp only [hex2, List.cons.injEq, and_true] at h
  have h1 := hexChar_inj _ (show a / 16 < 16 by omega) _ (show b / 16 < 16 by omega) h.1
  have h2 := hexChar_inj _ (show a % 16 < 16 by omega) _ (show b % 16 < 16 by omega) h.2
  omega

theorem digestHex_inj : ∀ (l m : List Nat), l ≠ [] → m ≠ [] → (∀ b ∈ l, b < 256) → (∀ b ∈ m, b < 256) → digestHex l = digestHex m → l = m
  | [], _, hl, _, _, _, _ => absurd rfl hl
  | _ :: _, [], _, hm, _, _, _ => absurd rfl hm
  | [a], [b], _, _, ha, hb, h => by rw [hex2_inj (ha a (by simp)) (hb b (by simp)) h]
  | [a], b :: c :: t, _, _, _, _, h => by
    rw [digestHex_cons (b := b) (l := c :: t) (by simp)] at h
    have := congrArg List.length h
    simp [digestHex, hex2] at this
  | a :: c :: t, [b], _, _, _, _, h => by
    rw [digestHex_cons (b := a) (l := c :: t) (by simp)] at h
    have := congrArg List.length h
    simp [digestHex, hex2] at this
  | a :: a' :: l, b :: b' :: m, _, _, ha, hb, h => by
    rw [digestHex_cons (b := a) (l := a' :: l) (by simp), digestHex_cons (b := b) (l := b' :: m) (by simp)] at h
    obtain ⟨h1, h2⟩ := List.append_inj h rfl
    rw [hex2_inj (ha a (by simp)) (hb b (by simp)) h1,
      digestHex_inj (a' :: l) (b' :: m) (by simp) (by simp) (fun x hx => ha x (by simp [List.mem_cons.mp hx]))
        (fun x hx => hb x (by simp [List.mem_cons.mp hx])) (List.cons.inj h2).2]

theorem fpOctets_eqNoCase {t l d} (h : FpOctets t l) (hd : d ≠ []) (hb : ∀ b ∈ d, b < 256) : eqNoCase t (digestHex d) = decide (l = d) := by
  unfold eqNoCase
  rw [fpOctets_lower h, digestHex_lower d hb]
  by_cases hl : l = d
  · simp [hl]
  · simp only [hl, decide_false, beq_eq_false_iff_ne, ne_eq]
    exact fun hc => hl (digestHex_inj l d (fpOctets_ne h) hd (fpOctets_lt h) hb hc)

theorem fpOctets_cons {t k x d} (h : FpOctets t (k :: x :: d)) :
    ∃ a b t' p q, t = a :: b :: ':' :: t' ∧ HexVal a p ∧ HexVal b q ∧ k = 16 * p + q ∧ FpOctets t' (x :: d) := by
  cases h with
  | cons ha hb h => exact ⟨_, _, _, _, _, rfl, ha, hb, rfl, h⟩

theorem take2_iff {a b p q} (ha : HexVal a p) (hb : HexVal b q) (t : Text) (n : Nat) (hn : n < 10) :
    (a :: b :: t).take 2 = ['0', Char.ofNat (48 + n)] ↔ 16 * p + q = n := by
  have h0 : a = '0' ↔ p = 0 := hexVal_digit ha 0 (by omega)
  have h1 := hexVal_digit hb n hn
  have := hexVal_lt hb
  simp only [List.take_succ_cons, List.take_zero, List.cons.injEq, and_true, h0, h1]
  omega

/-- Comparing a usable fingerprint is comparing the octets. -/
theorem fpMatch_usable {t k x d} (c : Cert) (hc : Readable c) (h : FpOctets t (k :: x :: d)) :
    fpMatch (some t) c = if k ∈ [1, 2, 3, 4, 5, 6] then .flag (decide (c.digest k = some (x :: d))) else .unknownAlg := by
  obtain ⟨a, b, t', p, q, rfl, ha, hb, hk, ht⟩ := fpOctets_cons h
  have cmp : ∀ n ∈ [1, 2, 3, 4, 5, 6], n = k → fpCompare (a :: b :: ':' :: t') c n = .flag (decide (c.digest k = some (x :: d))) := by
    rintro n hn rfl
    obtain ⟨y, e, he, hlt⟩ := hc.digest n hn
    unfold fpCompare
    rw [he]
    simp only [List.length_cons, List.drop_succ_cons, List.drop_zero]
    rw [if_neg (by omega), fpOctets_eqNoCase ht (by simp) hlt]
    congr 1
    simp only [Option.some.injEq, decide_eq_decide]
    exact eq_comm
  have key : ∀ n, n < 10 → ((a :: b :: ':' :: t').take 2 = ['0', Char.ofNat (48 + n)] ↔ k = n) := by
    intro n hn
    rw [take2_iff ha hb _ n hn, hk]
  have k1 := key 1 (by omega)
  have k2 := key 2 (by omega)
  have k3 := key 3 (by omega)
  have k4 := key 4 (by omega)
  have k5 := key 5 (by omega)
  have k6 := key 6 (by omega)
  change (_ = ['0', '1'] ↔ _) at k1
  change (_ = ['0', '2'] ↔ _) at k2
  change (_ = ['0', '3'] ↔ _) at k3
  change (_ = ['0', '4'] ↔ _) at k4
  change (_ = ['0', '5'] ↔ _) at k5
  change (_ = ['0', '6'] ↔ _) at k6
  unfold fpMatch
  simp only [k1, k2, k3, k4, k5, k6]
  by_cases e1 : k = 1
  · rw [if_pos e1, cmp 1 (by simp) e1.symm, if_pos (by simp [e1])]
  · rw [if_neg e1]
    by_cases e2 : k = 2
    · rw [if_pos e2, cmp 2 (by simp) e2.symm, if_pos (by simp [e2])]
    · rw [if_neg e2]
      by_cases e3 : k = 3
      · rw [if_pos e3, cmp 3 (by simp) e3.symm, if_pos (by simp [e3])]
      · rw [if_neg e3]
        by_cases e4 : k = 4
        · rw [if_pos e4, cmp 4 (by simp) e4.symm, if_pos (by simp [e4])]
        · rw [if_neg e4]
          by_cases e5 : k = 5
          · rw [if_pos e5, cmp 5 (by simp) e5.symm, if_pos (by simp [e5])]
          · rw [if_neg e5]
            by_cases e6 : k = 6
            · rw [if_pos e6, cmp 6 (by simp) e6.symm, if_pos (by simp [e6])]
            · rw [if_neg e6, if_neg (by simp [e1, e2, e3, e4, e5, e6])]

theorem fpOctets_fun {t l} (h : FpOctets t l) : ∀ {m}, FpOctets t m → l = m := by
  intro m hm
  exact digestHex_inj l m (fpOctets_ne h) (fpOctets_ne hm) (fpOctets_lt h) (fpOctets_lt hm) (by rw [← fpOctets_lower h, ← fpOctets_lower hm])

theorem fpFits_some {e : Ctn} {c : Cert} {t k x d} (he : e.fingerprint = some t) (h : FpOctets t (k :: x :: d)) :
    FpFits e c ↔ k ∈ [1, 2, 3, 4, 5, 6] ∧ c.digest k = some (x :: d) := by
  unfold FpFits
  constructor
  · rintro (h' | ⟨t', k', d', h1, h2, h3, h4⟩)
    · rw [he] at h'; cases h'
    · rw [he] at h1
      cases h1
      have := fpOctets_fun h h2
      simp only [List.cons.injEq] at this
      obtain ⟨rfl, rfl⟩ := this
      exact ⟨h3, h4⟩
  · rintro ⟨h1, h2⟩
    exact .inr ⟨t, k, x :: d, he, h, h1, h2⟩

/-- Three outcomes of the fingerprint comparison for usable entries. -/
theorem fpMatch_cases (e : Ctn) (c : Cert) (hc : Readable c) (hu : FpUsable e) :
    (FpFits e c ∧ fpMatch e.fingerprint c = .flag true) ∨ (¬ FpFits e c ∧ (fpMatch e.fingerprint c = .flag false ∨ fpMatch e.fingerprint c = .unknownAlg)) := by
  cases hf : e.fingerprint with
  | none => exact .inl ⟨.inl hf, rfl⟩
  | some t =>
    obtain ⟨k, x, d, ho⟩ := hu t hf
    rw [fpMatch_usable c hc ho, fpFits_some hf ho]
    by_cases hk : k ∈ [1, 2, 3, 4, 5, 6]
    · rw [if_pos hk]
      by_cases hd : c.digest k = some (x :: d)
      · exact .inl ⟨⟨hk, hd⟩, by simp [hd]⟩
      · exact .inr ⟨fun h => hd h.2, .inl (by simp [hd])⟩
    · rw [if_neg hk]
      exact .inr ⟨fun h => hk h.1, .inr rfl⟩

/-! ## Names -/

theorem takeWhile_split {α : Type} [DecidableEq α] (z : α) (u r : List α) (hu : z ∉ u) (hr : r = [] ∨ ∃ r', r = z :: r') :
    (u ++ r).takeWhile (· ≠ z) = u := by
  induction u with
  | nil =>
    rcases hr with rfl | ⟨r', rfl⟩
    · rfl
    · simp
  | cons a t ih =>
    have ha : a ≠ z := fun h => hu (by simp [h])
    simp only [List.cons_append]
    rw [List.takeWhile_cons_of_pos (by simpa using ha), ih (fun h => hu (by simp [h]))]

theorem takeWhile_exists {α : Type} [DecidableEq α] (z : α) (v : List α) :
    ∃ r, v = v.takeWhile (· ≠ z) ++ r ∧ z ∉ v.takeWhile (· ≠ z) ∧ (r = [] ∨ ∃ r', r = z :: r') := by
  induction v with
  | nil => exact ⟨[], rfl, by simp, .inl rfl⟩
  | cons a t ih =>
    by_cases ha : a = z
    · subst ha
      exact ⟨a :: t, by simp, by simp, .inr ⟨t, rfl⟩⟩
    · obtain ⟨r, h1, h2, h3⟩ := ih
      rw [List.takeWhile_cons_of_pos (by simpa using ha)]
      refine ⟨r, by rw [List.cons_append, ← h1], ?_, h3⟩
      simp only [List.mem_cons, not_or]
      exact ⟨fun h => ha h.symm, h2⟩

theorem strstr_some {pat s r : Text} (h : strstr pat s = some r) :
    ∃ pre, s = pre ++ r ∧ pat <+: r ∧ ∀ a b, s = a ++ b → pat <+: b → pre.length ≤ a.length := by
  induction s with
  | nil =>
    simp only [strstr] at h
    split at h
    · cases h
      exact ⟨[], rfl, List.isPrefixOf_iff_prefix.mp ‹_›, fun _ _ _ _ => Nat.zero_le _⟩
    · cases h
  | cons c t ih =>
    simp only [strstr] at h
    split at h
    · rename_i hp
      cases h
      exact ⟨[], rfl, List.isPrefixOf_iff_prefix.mp hp, fun _ _ _ _ => Nat.zero_le _⟩
    · rename_i hp
      obtain ⟨pre, h1, h2, h3⟩ := ih h
      refine ⟨c :: pre, by rw [h1]; rfl, h2, ?_⟩
      intro a b hab hb
      cases a with
      | nil =>
        exfalso
        apply hp
        rw [List.isPrefixOf_iff_prefix, hab]
        exact hb
      | cons a0 a =>
        have := h3 a b (List.cons.inj hab).2 hb
        simp only [List.length_cons]
        omega

theorem strstr_none {pat s : Text} (h : strstr pat s = none) : ∀ a b, s = a ++ b → ¬ pat <+: b := by
  induction s with
  | nil =>
    intro a b hab hb
    simp only [strstr] at h
    obtain ⟨rfl, rfl⟩ := List.append_eq_nil_iff.mp hab.symm
    split at h
    · cases h
    · exact ‹¬ _› (List.isPrefixOf_iff_prefix.mpr hb)
  | cons c t ih =>
    intro a b hab hb
    simp only [strstr] at h
    split at h
    · cases h
    · rename_i hp
      cases a with
      | nil => exact hp (List.isPrefixOf_iff_prefix.mpr (by rw [hab]; exact hb))
      | cons a0 a => exact ih h a b (List.cons.inj hab).2 hb

theorem commonName_iff (s u : Text) : commonName s = some u ↔ CnText s u := by
  unfold commonName rdnSep
  constructor
  · intro h
    obtain ⟨r, hr, hu⟩ := Option.map_eq_some_iff.mp h
    obtain ⟨pre, h1, ⟨v, h2⟩, h3⟩ := strstr_some hr
    subst h2
    simp only [List.cons_append, List.nil_append, List.drop_succ_cons, List.drop_zero] at hu
    obtain ⟨rest, e1, e2, e3⟩ := takeWhile_exists '/' v
    rw [hu] at e1 e2
    refine ⟨pre, rest, ?_, e2, e3, ?_⟩
    · rw [← e1]; exact h1
    · intro a b hab
      exact h3 a _ hab ⟨b, rfl⟩
  · rintro ⟨pre, rest, h1, h2, h3, h4⟩
    cases hs : strstr ['C', 'N', '='] s with
    | none => exact absurd ⟨_, rfl⟩ (strstr_none hs pre _ h1)
    | some r =>
      obtain ⟨pre', e1, ⟨v, e2⟩, e3⟩ := strstr_some hs
      subst e2
      have l1 := h4 pre' v e1
      have l2 := e3 pre _ h1 ⟨_, rfl⟩
      have hl : pre.length = pre'.length := by omega
      rw [h1] at e1
      obtain ⟨-, e⟩ := List.append_inj e1 hl
      simp only [List.cons_append, List.nil_append, List.cons.injEq, true_and] at e
      simp only [Option.map_some, List.cons_append, List.nil_append, List.drop_succ_cons, List.drop_zero, Option.some.injEq]
      rw [← e]
      exact takeWhile_split '/' u rest h2 h3

theorem dotted_four (a b c d : Nat) : dotted [a, b, c, d] = (s!"{a}.{b}.{c}.{d}").toList := by
  have : (toString ".").toList = ['.'] := rfl
  simp [dotted, List.intercalate, List.intersperse, this]

theorem hexText_iff {b : Nat} (hb : b < 256) (t : Text) : HexText b t ↔ t = hex2 b := by
  constructor
  · rintro ⟨a, c, x, y, rfl, ha, hc, rfl, hu⟩
    rw [hex2_of (hexVal_lt ha) (hexVal_lt hc), ← hexVal_notUpper ha (hu a (by simp)), ← hexVal_notUpper hc (hu c (by simp))]
  · rintro rfl
    refine ⟨_, _, b / 16, b % 16, rfl, hexChar_val _ (by omega), hexChar_val _ (by omega), by omega, ?_⟩
    intro u hu
    simp only [hex2, List.mem_cons, List.not_mem_nil, or_false] at hu
    rcases hu with rfl | rfl
    · exact hexChar_notUpper _ (by omega)
    · exact hexChar_notUpper _ (by omega)

/-- The octets of an address are octets. -/
def OctetsOk (s : San) : Prop := ∀ o, s = .ip o → ∀ b ∈ o, b < 256

theorem sanValue_iff (s : San) (hs : OctetsOk s) (ty : MapType) (u : Text) : sanValue s = some (ty, u) ↔ SanText s ty u := by
  constructor
  · intro h
    cases s with
    | email v =>
      simp only [sanValue, Option.some.injEq, Prod.mk.injEq] at h
      obtain ⟨rfl, rfl⟩ := h
      obtain ⟨r, h1, h2, h3⟩ := takeWhile_exists (Char.ofNat 0) v
      exact .email h1 h2 h3
    | dns v =>
      simp only [sanValue, Option.some.injEq, Prod.mk.injEq] at h
      obtain ⟨rfl, rfl⟩ := h
      obtain ⟨r, h1, h2, h3⟩ := takeWhile_exists (Char.ofNat 0) v
      exact .dns h1 h2 h3
    | ip o =>
      simp only [sanValue] at h
      split at h
      · rename_i h4
        simp only [Option.some.injEq, Prod.mk.injEq] at h
        obtain ⟨rfl, rfl⟩ := h
        match o, h4 with
        | [a, b, c, d], _ => rw [dotted_four]; exact .ip4
      · split at h
        · rename_i h16
          simp only [Option.some.injEq, Prod.mk.injEq] at h
          obtain ⟨rfl, rfl⟩ := h
          rw [List.flatMap_def]
          refine .ip6 h16 (by simpa using h16) ?_
          intro i hi
          rw [List.getElem_map]
          exact (hexText_iff (hs o rfl _ (List.getElem_mem _)) _).mpr rfl
        · cases h
    | other => cases h
  · intro h
    cases h with
    | email h1 h2 h3 => simp only [sanValue, h1, takeWhile_split _ _ _ h2 h3]
    | dns h1 h2 h3 => simp only [sanValue, h1, takeWhile_split _ _ _ h2 h3]
    | ip4 => rw [← dotted_four]; rfl
    | @ip6 o ts h16 hl hts =>
      have : ts = o.map hex2 := by
        apply List.ext_getElem (by simp [h16, hl])
        intro i h1 h2
        rw [List.getElem_map]
        exact (hexText_iff (hs o rfl _ (List.getElem_mem _)) _).mp (hts i (by omega))
      simp only [sanValue, h16, this]
      rw [if_neg (by omega), if_pos trivial, List.flatMap_def]

theorem findSan_some (mt : MapType) : ∀ (l : List San), (∀ s ∈ l, OctetsOk s) → ∀ u, findSan mt l = some u ↔
    ∃ pre s post ty, l = pre ++ s :: post ∧ SanText s ty u ∧ (mt = .any ∨ mt = ty) ∧ ∀ s' ∈ pre, ∀ ty' u', SanText s' ty' u' → mt ≠ .any ∧ mt ≠ ty'
  | [], _, u => by simp [findSan]
  | s :: t, hl, u => by
    have hs := hl s (by simp)
    have ih := findSan_some mt t (fun s' h => hl s' (by simp [h])) u
    have skip : (∀ ty' u', SanText s ty' u' → mt ≠ .any ∧ mt ≠ ty') → findSan mt (s :: t) = findSan mt t →
        (findSan mt (s :: t) = some u ↔
        ∃ pre s' post ty, s :: t = pre ++ s' :: post ∧ SanText s' ty u ∧ (mt = .any ∨ mt = ty) ∧ ∀ s'' ∈ pre, ∀ ty' u', SanText s'' ty' u' → mt ≠ .any ∧ mt ≠ ty') := by
      intro hn he
      rw [he, ih]
      constructor
      · rintro ⟨pre, s', post, ty, rfl, h2, h3, h4⟩
        refine ⟨s :: pre, s', post, ty, rfl, h2, h3, ?_⟩
        intro s'' hs''
        rcases List.mem_cons.mp hs'' with rfl | h
        · exact hn
        · exact h4 s'' h
      · rintro ⟨pre, s', post, ty, h1, h2, h3, h4⟩
        cases pre with
        | nil =>
          simp only [List.nil_append, List.cons.injEq] at h1
          obtain ⟨rfl, rfl⟩ := h1
          exact absurd h3 (by have := hn ty u h2; simp [this.1, this.2])
        | cons p pre =>
          simp only [List.cons_append, List.cons.injEq] at h1
          obtain ⟨rfl, rfl⟩ := h1
          exact ⟨pre, s', post, ty, rfl, h2, h3, fun s'' h => h4 s'' (by simp [h])⟩
    cases hv : sanValue s with
    | none =>
      refine skip ?_ (by simp only [findSan, hv])
      intro ty' u' h
      rw [← sanValue_iff s hs, hv] at h
      cases h
    | some p =>
      obtain ⟨ty, v⟩ := p
      by_cases hm : mt = .any ∨ mt = ty
      · have he : findSan mt (s :: t) = some v := by simp only [findSan, hv, if_pos hm]
        have hst := (sanValue_iff s hs ty v).mp hv
        rw [he]
        constructor
        · rintro h
          cases h
          exact ⟨[], s, t, ty, rfl, hst, hm, by simp⟩
        · rintro ⟨pre, s', post, ty', h1, h2, h3, h4⟩
          cases pre with
          | nil =>
            simp only [List.nil_append, List.cons.injEq] at h1
            obtain ⟨rfl, rfl⟩ := h1
            have := (sanValue_iff s hs ty' u).mpr h2
            rw [hv] at this
            cases this
            rfl
          | cons p pre =>
            simp only [List.cons_append, List.cons.injEq] at h1
            obtain ⟨rfl, rfl⟩ := h1
            have := h4 s (by simp) ty v hst
            exact absurd hm (by simp [this.1, this.2])
      · refine skip ?_ (by simp only [findSan, hv, if_neg hm])
        intro ty' u' h
        rw [← sanValue_iff s hs, hv] at h
        cases h
        exact ⟨fun h => hm (.inl h), fun h => hm (.inr h)⟩

theorem getUsername_no_or (c : Cert) (e : Ctn) (hc : Readable c) : (∃ u, getUsername c e = .name u) ∨ getUsername c e = .no := by
  obtain ⟨s, hs⟩ := hc.subject
  unfold getUsername
  split
  · split
    · exact .inl ⟨_, rfl⟩
    · exact .inr rfl
  · rw [hs]
    dsimp only
    split
    · exact .inr rfl
    · exact .inl ⟨_, rfl⟩
  · split
    · exact .inr rfl
    · split
      · exact .inr rfl
      · exact .inl ⟨_, rfl⟩

theorem getUsername_iff (c : Cert) (e : Ctn) (hc : Readable c) (hv : e.mapType ≠ .unknown) (u : Text) :
    getUsername c e = .name u ↔ NameOf e c u := by
  obtain ⟨s, hs⟩ := hc.subject
  have san : ∀ mt, (match c.sans with | none => Res.no | some l => match findSan mt l with | none => .no | some u => .name u) = .name u ↔
      ∃ l pre s post ty, c.sans = some l ∧ l = pre ++ s :: post ∧ SanText s ty u ∧ (mt = .any ∨ mt = ty) ∧
      ∀ s' ∈ pre, ∀ ty' u', SanText s' ty' u' → mt ≠ .any ∧ mt ≠ ty' := by
    intro mt
    cases hsan : c.sans with
    | none => simp
    | some l =>
      dsimp only
      have := findSan_some mt l (fun s hs o ho => hc.octets l hsan o (ho ▸ hs)) u
      constructor
      · intro h
        cases hf : findSan mt l with
        | none => rw [hf] at h; cases h
        | some v =>
          rw [hf] at h
          cases h
          obtain ⟨pre, s, post, ty, h⟩ := this.mp hf
          exact ⟨l, pre, s, post, ty, rfl, h⟩
      · rintro ⟨l', pre, s, post, ty, h0, h⟩
        cases h0
        rw [this.mpr ⟨pre, s, post, ty, h⟩]
  unfold getUsername NameOf
  cases hm : e.mapType with
  | unknown => exact absurd hm hv
  | specified => cases hn : e.name <;> simp
  | commonName =>
    simp only [hs, Option.some.injEq, exists_eq_left']
    rw [← commonName_iff]
    cases commonName s <;> simp
  | rfc822 => exact san .rfc822
  | dns => exact san .dns
  | ip => exact san .ip
  | any => exact san .any

/-! ## The loops -/

theorem certToName_chain (e : Ctn) (chain : List Cert) (h : ¬ (e.mapType = .unknown ∨ (e.mapType = .specified ∧ e.name = none))) :
    certToName e chain = chainLoop e chain := by unfold certToName; rw [if_neg h]

theorem invalid_never {e : Ctn} (h : e.mapType = .unknown ∨ (e.mapType = .specified ∧ e.name = none)) (c : Cert) (u : Text) : ¬ Yields e c u := by
  rintro ⟨-, hn⟩
  rcases h with h | ⟨h, h'⟩
  · simp only [NameOf, h] at hn
  · simp only [NameOf, h, h'] at hn
    cases hn

/-- Searching the chain for one valid entry. -/
theorem chainLoop_spec (e : Ctn) (hv : e.mapType ≠ .unknown) (hu : FpUsable e) : ∀ (chain : List Cert), (∀ c ∈ chain, Readable c) →
    (chainLoop e chain = .no ∧ ∀ c ∈ chain, ∀ v, ¬ Yields e c v) ∨
    ∃ u cpre c cpost, chainLoop e chain = .name u ∧ chain = cpre ++ c :: cpost ∧ (∀ c' ∈ cpre, ∀ v, ¬ Yields e c' v) ∧ Yields e c u
  | [], _ => .inl ⟨rfl, by simp⟩
  | c :: t, hr => by
    have hc := hr c (by simp)
    have next : chainLoop e (c :: t) = chainLoop e t → (∀ v, ¬ Yields e c v) →
        (chainLoop e (c :: t) = .no ∧ ∀ c' ∈ c :: t, ∀ v, ¬ Yields e c' v) ∨
        ∃ u cpre c' cpost, chainLoop e (c :: t) = .name u ∧ c :: t = cpre ++ c' :: cpost ∧ (∀ c'' ∈ cpre, ∀ v, ¬ Yields e c'' v) ∧ Yields e c' u := by
      intro he hn
      rw [he]
      rcases chainLoop_spec e hv hu t (fun c' h => hr c' (by simp [h])) with ⟨h1, h2⟩ | ⟨u, cpre, c', cpost, h1, h2, h3, h4⟩
      · refine .inl ⟨h1, ?_⟩
        intro c' hc'
        rcases List.mem_cons.mp hc' with rfl | h
        · exact hn
        · exact h2 c' h
      · refine .inr ⟨u, c :: cpre, c', cpost, h1, by rw [h2]; rfl, ?_, h4⟩
        intro c'' hc''
        rcases List.mem_cons.mp hc'' with rfl | h
        · exact hn
        · exact h3 c'' h
    rcases fpMatch_cases e c hc hu with ⟨hf, hm⟩ | ⟨hf, hm⟩
    · rcases getUsername_no_or c e hc with ⟨u, hg⟩ | hg
      · refine .inr ⟨u, [], c, t, by simp only [chainLoop, hm, hg], rfl, by simp, hf, (getUsername_iff c e hc hv u).mp hg⟩
      · refine next (by simp only [chainLoop, hm, hg]) ?_
        rintro v ⟨-, hn⟩
        rw [← getUsername_iff c e hc hv, hg] at hn
        cases hn
    · refine next ?_ (fun v h => hf h.1)
      rcases hm with hm | hm <;> simp only [chainLoop, hm]

/-- Searching a list of entries. -/
theorem entriesLoop_spec (chain : List Cert) (hr : ∀ c ∈ chain, Readable c) : ∀ (l : List Ctn), (∀ e ∈ l, FpUsable e) →
    (entriesLoop chain l = .no ∧ ∀ e ∈ l, ∀ c ∈ chain, ∀ v, ¬ Yields e c v) ∨ ∃ u, entriesLoop chain l = .name u ∧ FirstYield l chain u
  | [], _ => .inl ⟨rfl, by simp⟩
  | e :: t, hu => by
    have next : certToName e chain = .no → (∀ c ∈ chain, ∀ v, ¬ Yields e c v) →
        (entriesLoop chain (e :: t) = .no ∧ ∀ e' ∈ e :: t, ∀ c ∈ chain, ∀ v, ¬ Yields e' c v) ∨ ∃ u, entriesLoop chain (e :: t) = .name u ∧ FirstYield (e :: t) chain u := by
      intro he hn
      have hl : entriesLoop chain (e :: t) = entriesLoop chain t := by simp only [entriesLoop, he]
      rw [hl]
      rcases entriesLoop_spec chain hr t (fun e' h => hu e' (by simp [h])) with ⟨h1, h2⟩ | ⟨u, h1, pre, e', post, h2, h3, h4⟩
      · refine .inl ⟨h1, ?_⟩
        intro e' he'
        rcases List.mem_cons.mp he' with rfl | h
        · exact hn
        · exact h2 e' h
      · refine .inr ⟨u, h1, e :: pre, e', post, by rw [h2]; rfl, ?_, h4⟩
        intro e'' he''
        rcases List.mem_cons.mp he'' with rfl | h
        · exact hn
        · exact h3 e'' h
    by_cases hv : e.mapType = .unknown ∨ (e.mapType = .specified ∧ e.name = none)
    · exact next (by unfold certToName; rw [if_pos hv]) (fun c _ v => invalid_never hv c v)
    · have hv' : e.mapType ≠ .unknown := fun h => hv (.inl h)
      rcases chainLoop_spec e hv' (hu e (by simp)) chain hr with ⟨h1, h2⟩ | ⟨u, cpre, c, cpost, h1, h2, h3, h4⟩
      · exact next (by rw [certToName_chain e chain hv, h1]) h2
      · refine .inr ⟨u, by simp only [entriesLoop, certToName_chain e chain hv, h1], [], e, t, rfl, by simp, cpre, c, cpost, h2, h3, h4⟩

theorem nameOf_fun {e : Ctn} {c : Cert} (hc : Readable c) {u v : Text} (h : NameOf e c u) (h' : NameOf e c v) : u = v := by
  by_cases hm : e.mapType = .unknown
  · simp [NameOf, hm] at h
  · have h1 := (getUsername_iff c e hc hm u).mpr h
    have h2 := (getUsername_iff c e hc hm v).mpr h'
    rw [h1] at h2
    exact Res.name.inj h2

/-- A first match in a list is unique. -/
theorem first_unique {α : Type} (P : α → Prop) {l pre pre' post post' : List α} {x x' : α} (h : l = pre ++ x :: post) (h' : l = pre' ++ x' :: post')
    (hp : ∀ y ∈ pre, ¬ P y) (hp' : ∀ y ∈ pre', ¬ P y) (hx : P x) (hx' : P x') : x = x' := by
  subst h
  induction pre generalizing pre' with
  | nil =>
    cases pre' with
    | nil => simp only [List.nil_append, List.cons.injEq] at h'; exact h'.1
    | cons p t =>
      simp only [List.nil_append, List.cons_append, List.cons.injEq] at h'
      exact absurd (h'.1 ▸ hx) (hp' p (by simp))
  | cons q s ih =>
    cases pre' with
    | nil =>
      simp only [List.nil_append, List.cons_append, List.cons.injEq] at h'
      exact absurd (h'.1 ▸ hx') (hp q (by simp))
    | cons p t =>
      simp only [List.cons_append, List.cons.injEq] at h'
      exact ih (fun y hy => hp y (by simp [hy])) (fun y hy => hp' y (by simp [hy])) h'.2

theorem firstYield_unique {l : List Ctn} {chain : List Cert} (hr : ∀ c ∈ chain, Readable c) {u v : Text} (h : FirstYield l chain u) (h' : FirstYield l chain v) : u = v := by
  obtain ⟨pre, e, post, h1, h2, cpre, c, cpost, h3, h4, h5⟩ := h
  obtain ⟨pre', e', post', h1', h2', cpre', c', cpost', h3', h4', h5'⟩ := h'
  have hc : c ∈ chain := by rw [h3]; simp
  have hc' : c' ∈ chain := by rw [h3']; simp
  have he : e = e' := by
    refine first_unique (fun e => ∃ c ∈ chain, ∃ v, Yields e c v) h1 h1' ?_ ?_ ⟨c, hc, u, h5⟩ ⟨c', hc', v, h5'⟩
    · rintro y hy ⟨c, hc, v, h⟩; exact h2 y hy c hc v h
    · rintro y hy ⟨c, hc, v, h⟩; exact h2' y hy c hc v h
  subst he
  have hcc : c = c' := by
    refine first_unique (fun c => ∃ v, Yields e c v) h3 h3' ?_ ?_ ⟨u, h5⟩ ⟨v, h5'⟩
    · rintro y hy ⟨v, h⟩; exact h4 y hy v h
    · rintro y hy ⟨v, h⟩; exact h4' y hy v h
  subst hcc
  exact nameOf_fun (hr c hc) h5.2 h5'.2

/-! ## End-entity certificates -/

theorem eeLoop_ok (lib : Lib) (peer : Cert) : ∀ l, eeLoop lib peer l = .ok → ∃ c, some c ∈ l ∧ c.id = peer.id
  | [], h => by cases h
  | none :: t, h => by
    cases lib with
    | openssl => cases h
    | mbedtls =>
      obtain ⟨c, h1, h2⟩ := eeLoop_ok .mbedtls peer t h
      exact ⟨c, by simp [h1], h2⟩
  | some c :: t, h => by
    simp only [eeLoop] at h
    split at h
    · rename_i he
      exact ⟨c, by simp, he.symm⟩
    · obtain ⟨c, h1, h2⟩ := eeLoop_ok lib peer t h
      exact ⟨c, by simp [h1], h2⟩

theorem peerIn_ok {lib : Lib} {peer : Cert} {o : Opts} (h : peerIn lib peer o = .ok) : ∃ l c, o.ee = some l ∧ some c ∈ l ∧ c.id = peer.id := by
  unfold peerIn at h
  split at h
  · cases h
  · rename_i l hl
    obtain ⟨c, h1, h2⟩ := eeLoop_ok lib peer l h
    exact ⟨l, c, hl, h1, h2⟩

theorem verifyPeer_ok {lib : Lib} {peer : Cert} {o : Endpt} (h : verifyPeer lib peer o = .ok) : Configured o peer := by
  unfold verifyPeer at h
  split at h
  · obtain ⟨l, c, h1, h2, h3⟩ := peerIn_ok ‹_›
    exact ⟨l, c, h2, h3, .inl h1⟩
  · cases h
  · split at h
    · cases h
    · cases h
    · rename_i r hr
      split at h
      · obtain ⟨l, c, h1, h2, h3⟩ := peerIn_ok ‹_›
        exact ⟨l, c, h2, h3, .inr ⟨r, hr, h1⟩⟩
      · cases h
      · cases h

end Verif.TlsAuth
