import Verif.Spec.Crl
import Verif.Lemmas.Bytes

namespace Verif.Crl

/-! ## Reads stay inside -/

theorem bytes_ok (b : List Nat) (p n : Nat) (h : p + n ≤ b.length) : bytes b p n = .ok ((b.drop p).take n) := by
  unfold bytes; rw [if_pos h]

theorem checkLen_cases (len p e : Nat) : (∃ r, checkLen len p e = .error r) ∨ (checkLen len p e = .ok (len, p) ∧ len ≤ e - p) := by
  unfold checkLen
  by_cases h : len ≤ e - p
  · rw [if_pos h]; exact Or.inr ⟨rfl, h⟩
  · rw [if_neg h]; exact Or.inl ⟨_, rfl⟩

theorem getLen_cases (b : List Nat) (p e : Nat) (h : e ≤ b.length) :
    (∃ r, getLen b p e = .ok (.error r)) ∨ ∃ len q, getLen b p e = .ok (.ok (len, q)) ∧ p < q ∧ q + len ≤ e := by
  unfold getLen
  by_cases h0 : e ≤ p
  · rw [if_pos h0]; exact Or.inl ⟨_, rfl⟩
  · rw [if_neg h0, bytes_ok b p 1 (by omega)]
    dsimp only
    generalize number (List.take 1 (List.drop p b)) = c
    by_cases h1 : c < 128
    · rw [if_pos h1]
      rcases checkLen_cases c (p + 1) e with ⟨r, hr⟩ | ⟨hr, hl⟩
      · rw [hr]; exact Or.inl ⟨_, rfl⟩
      · rw [hr]; exact Or.inr ⟨_, _, rfl, by omega, by omega⟩
    · rw [if_neg h1]
      by_cases h2 : c - 128 = 0 ∨ c - 128 > 4
      · rw [if_pos h2]; exact Or.inl ⟨_, rfl⟩
      · rw [if_neg h2]
        by_cases h3 : e - p ≤ c - 128
        · rw [if_pos h3]; exact Or.inl ⟨_, rfl⟩
        · rw [if_neg h3, bytes_ok b (p + 1) (c - 128) (by omega)]
          dsimp only
          rcases checkLen_cases (number (List.take (c - 128) (List.drop (p + 1) b))) (p + 1 + (c - 128)) e with ⟨r, hr⟩ | ⟨hr, hl⟩
          · rw [hr]; exact Or.inl ⟨_, rfl⟩
          · rw [hr]; exact Or.inr ⟨_, _, rfl, by omega, by omega⟩

theorem getTag_cases (b : List Nat) (p e t : Nat) (h : e ≤ b.length) :
    (∃ r, getTag b p e t = .ok (.error r)) ∨ ∃ len q, getTag b p e t = .ok (.ok (len, q)) ∧ p < q ∧ q + len ≤ e := by
  unfold getTag
  by_cases h0 : e ≤ p
  · rw [if_pos h0]; exact Or.inl ⟨_, rfl⟩
  · rw [if_neg h0, bytes_ok b p 1 (by omega)]
    dsimp only
    by_cases h1 : number (List.take 1 (List.drop p b)) ≠ t
    · rw [if_pos h1]; exact Or.inl ⟨_, rfl⟩
    · rw [if_neg h1]
      rcases getLen_cases b (p + 1) e h with ⟨r, hr⟩ | ⟨len, q, hr, h2, h3⟩
      · exact Or.inl ⟨r, hr⟩
      · exact Or.inr ⟨len, q, hr, by omega, h3⟩

theorem getBool_cases (b : List Nat) (p e : Nat) (h : e ≤ b.length) :
    (∃ r, getBool b p e = .ok (.error r)) ∨ ∃ q, getBool b p e = .ok (.ok q) ∧ p < q ∧ q ≤ e := by
  unfold getBool
  rcases getTag_cases b p e 1 h with ⟨r, hr⟩ | ⟨len, q, hr, h2, h3⟩
  · rw [hr]; exact Or.inl ⟨_, rfl⟩
  · rw [hr]
    dsimp only
    by_cases h1 : len ≠ 1
    · rw [if_pos h1]; exact Or.inl ⟨_, rfl⟩
    · rw [if_neg h1, bytes_ok b q 1 (by omega)]
      exact Or.inr ⟨_, rfl, by omega, by omega⟩

theorem names_fault (lib : Name → Other) (san : San) (ret : Option AErr) (l : List Name) (uris : List (List Nat)) (f : Fault) (h : names lib san ret l uris = .error f) :
    f = .freed := by
  induction l generalizing san ret uris with
  | nil => unfold names at h; cases h
  | cons n l ih =>
    unfold names at h
    split at h
    · cases h
    · rename_i s _
      dsimp only at h
      split at h
      · rename_i f' hf
        cases h
        unfold freeSan at hf
        split at hf <;> cases hf
        rfl
      · exact ih _ _ _ h

theorem altNames_cases (lib : Name → Other) (b : List Nat) (e : Nat) (h : e ≤ b.length) (fuel p : Nat) (first : Bool) (gn : List Name) (hf : e < fuel + p) (hp : p ≤ e) :
    (∃ r, altNames lib b e fuel p first gn = .ok (.error r)) ∨ ∃ gn' q, altNames lib b e fuel p first gn = .ok (.ok (gn', q)) ∧ p ≤ q ∧ q ≤ e := by
  induction fuel generalizing p first gn with
  | zero => omega
  | succ fuel ih =>
    unfold altNames
    by_cases h0 : p < e
    · rw [if_pos h0, bytes_ok b p 1 (by omega)]
      dsimp only
      rcases getLen_cases b (p + 1) e h with ⟨r, hr⟩ | ⟨len, q, hr, h2, h3⟩
      · rw [hr]; exact Or.inl ⟨_, rfl⟩
      · rw [hr]
        dsimp only
        split
        · exact Or.inl ⟨_, rfl⟩
        · rw [bytes_ok b q len (by omega)]
          dsimp only
          split
          · exact Or.inl ⟨_, rfl⟩
          · split
            · exact Or.inl ⟨_, rfl⟩
            · rcases ih (q + len) false _ (by omega) (by omega) with hh | ⟨gn', q', hh, h4, h5⟩
              · exact Or.inl hh
              · exact Or.inr ⟨gn', q', hh, by omega, h5⟩
    · rw [if_neg h0]
      have : p = e := by omega
      rw [if_neg (by simp [this])]
      exact Or.inr ⟨_, _, rfl, by omega, by omega⟩

theorem distPoints_cases (lib : Name → Other) (b : List Nat) (e : Nat) (h : e ≤ b.length) (fuel p : Nat) (gn : List Name) (san : San) (uris : List (List Nat))
    (ret : Option AErr) (hf : e < fuel + p) (hp : p ≤ e) :
    distPoints lib b e fuel p gn san uris ret = .error .freed ∨ ∃ r q uris', distPoints lib b e fuel p gn san uris ret = .ok (r, q, uris') ∧ p ≤ q ∧ q ≤ e := by
  induction fuel generalizing p gn san uris ret with
  | zero => omega
  | succ fuel ih =>
    unfold distPoints
    by_cases h0 : p < e
    · rw [if_pos h0]
      rcases getTag_cases b p e 0x30 h with ⟨r, hr⟩ | ⟨len, q, hr, h2, h3⟩
      · rw [hr]; exact Or.inr ⟨_, _, _, rfl, by omega, by omega⟩
      · rw [hr]
        dsimp only
        have next : ∀ q', q ≤ q' → q' ≤ e → ∀ gn san uris ret, distPoints lib b e fuel q' gn san uris ret = .error .freed ∨
            ∃ r q uris', distPoints lib b e fuel q' gn san uris ret = .ok (r, q, uris') ∧ p ≤ q ∧ q ≤ e := by
          intro q' hq hq2 gn san uris ret
          rcases ih q' gn san uris ret (by omega) hq2 with hh | ⟨r, q2, u, hh, h4, h5⟩
          · exact Or.inl hh
          · exact Or.inr ⟨r, q2, u, hh, by omega, h5⟩
        by_cases hl : len = 0
        · rw [if_pos hl]; exact next q (Nat.le_refl _) (by omega) _ _ _ _
        · rw [if_neg hl]
          rcases getTag_cases b q e 0xA0 h with ⟨r, hr⟩ | ⟨len2, q2, hr, h4, h5⟩
          · rw [hr]
            cases r with
            | unexpectedTag => exact next q (Nat.le_refl _) (by omega) _ _ _ _
            | outOfData => exact Or.inr ⟨_, _, _, rfl, by omega, by omega⟩
            | invalidLength => exact Or.inr ⟨_, _, _, rfl, by omega, by omega⟩
            | unavailable => exact Or.inr ⟨_, _, _, rfl, by omega, by omega⟩
            | other => exact Or.inr ⟨_, _, _, rfl, by omega, by omega⟩
          · rw [hr]
            dsimp only
            rcases getTag_cases b q2 e 0xA0 h with ⟨r, hr⟩ | ⟨len3, q3, hr, h6, h7⟩
            · rw [hr]; exact Or.inr ⟨_, _, _, rfl, by omega, by omega⟩
            · rw [hr]
              dsimp only
              rcases altNames_cases lib b (q3 + len3) (by omega) (b.length + 1) q3 true gn (by omega) (by omega) with ⟨r, hr⟩ | ⟨gn', q4, hr, h8, h9⟩
              · rw [hr]; exact Or.inr ⟨_, _, _, rfl, by omega, by omega⟩
              · rw [hr]
                dsimp only
                split
                · rename_i f hh
                  have := names_fault _ _ _ _ _ _ hh
                  subst this
                  exact Or.inl rfl
                · exact Or.inr ⟨_, _, _, rfl, by omega, by omega⟩
                · exact next q4 (by omega) (by omega) _ _ _ _
    · rw [if_neg h0]
      exact Or.inr ⟨_, _, _, rfl, by omega, by omega⟩

theorem extValue_cases (lib : Name → Other) (b : List Nat) (p e : Nat) (uris : List (List Nat)) (h : e ≤ b.length) :
    extValue lib b p e uris = .error .freed ∨ (∃ r u, extValue lib b p e uris = .ok (.stop r u)) ∨
    ∃ q u, extValue lib b p e uris = .ok (.next q u) ∧ p < q ∧ q ≤ e := by
  unfold extValue
  rcases getTag_cases b p e 4 h with ⟨r, hr⟩ | ⟨len, q, hr, h2, h3⟩
  · rw [hr]; exact Or.inr (Or.inl ⟨_, _, rfl⟩)
  rw [hr]
  dsimp only
  rcases getTag_cases b q (q + len) 0x30 (by omega) with ⟨r, hr⟩ | ⟨len2, q2, hr, h4, h5⟩
  · rw [hr]; exact Or.inr (Or.inl ⟨_, _, rfl⟩)
  rw [hr]
  dsimp only
  split
  · exact Or.inr (Or.inl ⟨_, _, rfl⟩)
  split
  · exact Or.inr (Or.inl ⟨_, _, rfl⟩)
  rcases distPoints_cases lib b (q2 + len2) (by omega) (b.length + 1) q2 [] .zero uris none (by omega) (by omega) with hr | ⟨r, q3, u, hr, h6, h7⟩
  · rw [hr]; exact Or.inl rfl
  · rw [hr]
    cases r with
    | none => exact Or.inr (Or.inr ⟨_, _, rfl, by omega, by omega⟩)
    | some r => exact Or.inr (Or.inl ⟨_, _, rfl⟩)

theorem extension_cases (lib : Name → Other) (b : List Nat) (p e : Nat) (uris : List (List Nat)) (h : e ≤ b.length) :
    extension lib b p e uris = .error .const ∨ extension lib b p e uris = .error .freed ∨ (∃ r u, extension lib b p e uris = .ok (.stop r u)) ∨
    ∃ q u, extension lib b p e uris = .ok (.next q u) ∧ p < q ∧ q ≤ e := by
  unfold extension
  rcases getTag_cases b p e 0x30 h with ⟨r, hr⟩ | ⟨len, q, hr, h2, h3⟩
  · rw [hr]; exact Or.inr (Or.inr (Or.inl ⟨_, _, rfl⟩))
  rw [hr]
  dsimp only
  rcases getTag_cases b q (q + len) 6 (by omega) with ⟨r, hr⟩ | ⟨ol, q2, hr, h4, h5⟩
  · rw [hr]; exact Or.inr (Or.inr (Or.inl ⟨_, _, rfl⟩))
  rw [hr]
  dsimp only
  rw [bytes_ok b q2 ol (by omega)]
  dsimp only
  split
  · exact Or.inl rfl
  split
  · exact Or.inr (Or.inr (Or.inr ⟨_, _, rfl, by omega, by omega⟩))
  have key : ∀ q3, q2 ≤ q3 → q3 ≤ q + len → extValue lib b q3 (q + len) uris = .error .const ∨ extValue lib b q3 (q + len) uris = .error .freed ∨
      (∃ r u, extValue lib b q3 (q + len) uris = .ok (.stop r u)) ∨ ∃ q' u, extValue lib b q3 (q + len) uris = .ok (.next q' u) ∧ p < q' ∧ q' ≤ e := by
    intro q3 h6 h7
    rcases extValue_cases lib b q3 (q + len) uris (by omega) with hh | hh | ⟨q', u, hh, h8, h9⟩
    · exact Or.inr (Or.inl hh)
    · exact Or.inr (Or.inr (Or.inl hh))
    · exact Or.inr (Or.inr (Or.inr ⟨q', u, hh, by omega, by omega⟩))
  rcases getBool_cases b (q2 + ol) (q + len) (by omega) with ⟨r, hr⟩ | ⟨q3, hr, h6, h7⟩
  · rw [hr]
    cases r with
    | unexpectedTag => exact key _ (by omega) (by omega)
    | outOfData => exact Or.inr (Or.inr (Or.inl ⟨_, _, rfl⟩))
    | invalidLength => exact Or.inr (Or.inr (Or.inl ⟨_, _, rfl⟩))
    | unavailable => exact Or.inr (Or.inr (Or.inl ⟨_, _, rfl⟩))
    | other => exact Or.inr (Or.inr (Or.inl ⟨_, _, rfl⟩))
  · rw [hr]
    exact key _ (by omega) (by omega)

theorem extensions_cases (lib : Name → Other) (b : List Nat) (e : Nat) (h : e ≤ b.length) (fuel p : Nat) (uris : List (List Nat)) (hf : e < fuel + p) (hp : p ≤ e) :
    extensions lib b e fuel p uris = .error .const ∨ extensions lib b e fuel p uris = .error .freed ∨ ∃ x, extensions lib b e fuel p uris = .ok x := by
  induction fuel generalizing p uris with
  | zero => omega
  | succ fuel ih =>
    unfold extensions
    by_cases h0 : p < e
    · rw [if_pos h0]
      rcases extension_cases lib b p e uris h with hh | hh | ⟨r, u, hh⟩ | ⟨q, u, hh, h2, h3⟩
      · rw [hh]; exact Or.inl rfl
      · rw [hh]; exact Or.inr (Or.inl rfl)
      · rw [hh]; exact Or.inr (Or.inr ⟨_, rfl⟩)
      · rw [hh]; exact ih q u (by omega) h3
    · rw [if_neg h0]; exact Or.inr (Or.inr ⟨_, rfl⟩)

theorem mbedCerts_cases (lib : Name → Other) (certs : List (List Nat)) (uris : List (List Nat)) :
    mbedCerts lib certs uris = .error .const ∨ mbedCerts lib certs uris = .error .freed ∨ ∃ x, mbedCerts lib certs uris = .ok x := by
  induction certs generalizing uris with
  | nil => exact Or.inr (Or.inr ⟨_, rfl⟩)
  | cons b rest ih =>
    unfold mbedCerts
    split
    · exact ih uris
    · rcases getTag_cases b 0 b.length 0x30 (Nat.le_refl _) with ⟨r, hr⟩ | ⟨len, q, hr, h2, h3⟩
      · rw [hr]; exact Or.inr (Or.inr ⟨_, rfl⟩)
      · rw [hr]
        dsimp only
        rcases extensions_cases lib b b.length (Nat.le_refl _) (b.length + 1) q uris (by omega) (by omega) with hh | hh | ⟨x, hh⟩
        · rw [hh]; exact Or.inl rfl
        · rw [hh]; exact Or.inr (Or.inl rfl)
        · rw [hh]
          cases x with
          | stop r u => exact Or.inr (Or.inr ⟨_, rfl⟩)
          | next q u => exact ih u

/-! ## Reading what was encoded -/

/-- The text `s` is at position `p` of the buffer. -/
def At (b : List Nat) (p : Nat) (s : List Nat) : Prop := ∃ pre post, b = pre ++ (s ++ post) ∧ p = pre.length

theorem at_left {b : List Nat} {p : Nat} {x y : List Nat} (h : At b p (x ++ y)) : At b p x := by
  obtain ⟨pre, post, h1, h2⟩ := h
  exact ⟨pre, y ++ post, by rw [h1]; simp, h2⟩

theorem at_right {b : List Nat} {p : Nat} {x y : List Nat} (h : At b p (x ++ y)) : At b (p + x.length) y := by
  obtain ⟨pre, post, h1, h2⟩ := h
  exact ⟨pre ++ x, post, by rw [h1]; simp, by simp [h2]⟩

theorem at_le {b : List Nat} {p : Nat} {s : List Nat} (h : At b p s) : p + s.length ≤ b.length := by
  obtain ⟨pre, post, h1, h2⟩ := h
  rw [h1, h2]; simp

theorem at_bytes {b : List Nat} {p : Nat} {s : List Nat} (h : At b p s) : bytes b p s.length = .ok s := by
  rw [bytes_ok b p s.length (at_le h)]
  obtain ⟨pre, post, h1, h2⟩ := h
  rw [h1, h2]; simp

theorem at_self (b : List Nat) : At b 0 b := ⟨[], [], by simp, rfl⟩

theorem be_length (k n : Nat) : (be k n).length = k := by
  induction k generalizing n with
  | zero => rfl
  | succ k ih => simp [be, ih]

theorem number_append (l : List Nat) (c : Nat) : number (l ++ [c]) = number l * 256 + c := by
  simp [number]

theorem number_be (k n : Nat) (h : n < 256 ^ k) : number (be k n) = n := by
  induction k generalizing n with
  | zero => simp at h; subst h; rfl
  | succ k ih =>
    rw [be, number_append, ih (n / 256)]
    · omega
    · rw [Nat.div_lt_iff_lt_mul (by omega)]; rw [Nat.pow_succ] at h; exact h

theorem getLen_long (b : List Nat) (p e k n : Nat) (hk : 1 ≤ k ∧ k ≤ 4) (h : At b p ((128 + k) :: be k n)) (hn : n < 256 ^ k) (he : p + (1 + k) + n ≤ e) :
    getLen b p e = .ok (.ok (n, p + (1 + k))) := by
  have h1 := at_bytes (at_left (x := [128 + k]) (y := be k n) h)
  have h2 := at_bytes (at_right (x := [128 + k]) (y := be k n) h)
  rw [be_length] at h2
  simp only [List.length_cons, List.length_nil, Nat.zero_add] at h1 h2
  have hc : number [128 + k] = 128 + k := by simp [number]
  unfold getLen
  rw [if_neg (by omega), h1]
  dsimp only
  rw [hc, if_neg (by omega), if_neg (by omega), if_neg (by omega)]
  have : 128 + k - 128 = k := by omega
  rw [this, h2]
  dsimp only
  rw [number_be k n hn]
  unfold checkLen
  rw [if_pos (by omega)]
  have : p + 1 + k = p + (1 + k) := by omega
  rw [this]

theorem lenBytes_cases (n : Nat) (hn : n < 4294967296) :
    (n < 128 ∧ lenBytes n = [n]) ∨ ∃ k, (1 ≤ k ∧ k ≤ 4) ∧ lenBytes n = (128 + k) :: be k n ∧ n < 256 ^ k := by
  by_cases h0 : n < 128
  · exact Or.inl ⟨h0, by unfold lenBytes; rw [if_pos h0]⟩
  refine Or.inr ?_
  by_cases h1 : n < 256
  · exact ⟨1, by omega, by unfold lenBytes; rw [if_neg h0, if_pos h1], by omega⟩
  by_cases h2 : n < 65536
  · exact ⟨2, by omega, by unfold lenBytes; rw [if_neg h0, if_neg h1, if_pos h2], by omega⟩
  by_cases h3 : n < 16777216
  · exact ⟨3, by omega, by unfold lenBytes; rw [if_neg h0, if_neg h1, if_neg h2, if_pos h3], by omega⟩
  · exact ⟨4, by omega, by unfold lenBytes; rw [if_neg h0, if_neg h1, if_neg h2, if_neg h3], by omega⟩

theorem getLen_at (b : List Nat) (p e n : Nat) (h : At b p (lenBytes n)) (hn : n < 4294967296) (he : p + (lenBytes n).length + n ≤ e) :
    getLen b p e = .ok (.ok (n, p + (lenBytes n).length)) := by
  rcases lenBytes_cases n hn with ⟨h0, hl⟩ | ⟨k, hk, hl, hk2⟩
  · rw [hl] at h he ⊢
    have h1 := at_bytes h
    simp only [List.length_cons, List.length_nil, Nat.zero_add] at h1 he ⊢
    have hc : number [n] = n := by simp [number]
    unfold getLen
    rw [if_neg (by omega), h1]
    dsimp only
    rw [hc, if_pos h0]
    unfold checkLen
    rw [if_pos (by omega)]
  · rw [hl] at h he ⊢
    rw [List.length_cons, be_length] at he ⊢
    rw [getLen_long b p e k n hk h hk2 (by omega)]
    congr 3; omega

/-- Length of tag and length. -/
def hd (c : List Nat) : Nat := 1 + (lenBytes c.length).length

theorem der_length (t : Nat) (c : List Nat) : (der t c).length = hd c + c.length := by
  simp [der, hd]; omega

theorem der_at {b : List Nat} {p t : Nat} {c : List Nat} (h : At b p (der t c)) : At b p [t] ∧ At b (p + 1) (lenBytes c.length) ∧ At b (p + hd c) c := by
  unfold der at h
  have h1 := at_left (x := [t]) h
  have h2 := at_right (x := [t]) h
  refine ⟨h1, at_left h2, ?_⟩
  have h3 := at_right h2
  have : p + [t].length + (lenBytes c.length).length = p + hd c := by simp [hd]; omega
  rw [this] at h3
  exact h3

theorem getTag_at {b : List Nat} {p t e : Nat} {c : List Nat} (h : At b p (der t c)) (hn : c.length < 4294967296) (he : p + (hd c + c.length) ≤ e) :
    getTag b p e t = .ok (.ok (c.length, p + hd c)) := by
  obtain ⟨h1, h2, _⟩ := der_at h
  unfold getTag
  have hb := at_bytes h1
  simp only [List.length_cons, List.length_nil, Nat.zero_add] at hb
  unfold hd at he ⊢
  rw [if_neg (by omega), hb]
  dsimp only
  rw [if_neg (by simp [number])]
  rw [getLen_at b (p + 1) e c.length h2 hn (by omega)]
  congr 3; omega

theorem getTag_wrong {b : List Nat} {p t t' e : Nat} {c : List Nat} (h : At b p (der t c)) (ht : t ≠ t') (he : p < e) :
    getTag b p e t' = .ok (.error .unexpectedTag) := by
  obtain ⟨h1, _, _⟩ := der_at h
  unfold getTag
  have hb := at_bytes h1
  simp only [List.length_cons, List.length_nil, Nat.zero_add] at hb
  rw [if_neg (by omega), hb]
  dsimp only
  rw [if_pos (by simpa [number] using ht)]

/-- The names of a point are read and put behind the first one of the list. -/
theorem altNames_at (lib : Name → Other) (b : List Nat) (e : Nat) (l : List Name) (hl : ∀ n ∈ l, GoodName lib n) (fuel p : Nat) (first : Bool) (gn : List Name)
    (h : At b p (l.flatMap encName)) (he : e = p + (l.flatMap encName).length) (hf : e < fuel + p) (hs : b.length < 4294967296)
    (hg : first = true → gn.length ≤ 1) :
    altNames lib b e fuel p first gn = .ok (.ok (gn ++ l, e)) := by
  induction l generalizing fuel p first gn with
  | nil =>
    cases fuel with
    | zero => simp at he; omega
    | succ fuel =>
      unfold altNames
      simp at he
      rw [if_neg (by omega), if_neg (by simp [he])]
      subst he
      congr 3
      cases first with
      | false => simp
      | true => simp [List.take_of_length_le (hg rfl)]
  | cons n l ih =>
    cases fuel with
    | zero => simp at he; omega
    | succ fuel =>
      rw [List.flatMap_cons] at h he
      have hn := hl n (by simp)
      have h1 := at_left h
      have h2 := at_right h
      have hlen := at_le h1
      unfold encName at h1
      obtain ⟨a1, a2, a3⟩ := der_at h1
      have hb := at_bytes a1
      simp only [List.length_cons, List.length_nil, Nat.zero_add] at hb
      rw [List.length_append] at he
      unfold encName at he hlen h2
      rw [der_length] at he hlen h2
      unfold altNames
      have hpos : 0 < hd n.data := by unfold hd; omega
      rw [if_pos (by omega), hb]
      dsimp only
      rw [getLen_at b (p + 1) e n.data.length a2 (by omega) (by unfold hd at he; omega)]
      dsimp only
      have ht : number [n.tag] = n.tag := by simp [number]
      have hp : p + 1 + (lenBytes n.data.length).length = p + hd n.data := by unfold hd; omega
      have hc : n.tag / 64 = 2 := by
        rcases hn with ⟨h, _⟩ | ⟨h, _⟩
        · rw [h]
        · simp at h; rcases h with h | h | h | h | h <;> rw [h]
      rw [ht, if_neg (by simp [hc]), hp, at_bytes a3]
      dsimp only
      have hps : ∃ s, parseSan lib n .zero = some s := by
        unfold parseSan
        rcases hn with ⟨h, _⟩ | ⟨h, h'⟩
        · rw [if_pos (by rw [h]; rfl)]; exact ⟨_, rfl⟩
        · split
          · exact ⟨_, rfl⟩
          · rcases h' with ⟨m, h'⟩ | h' <;> rw [h'] <;> exact ⟨_, rfl⟩
      obtain ⟨s, hps⟩ := hps
      have hnn : (⟨n.tag, n.data⟩ : Name) = n := rfl
      rw [hnn, hps]
      dsimp only
      unfold addName
      rw [if_neg (by rintro ⟨h, h'⟩; have := hg h; omega)]
      dsimp only
      have hp2 : p + hd n.data + n.data.length = p + (hd n.data + n.data.length) := by omega
      rw [hp2, ih (fun x hx => hl x (by simp [hx])) fuel _ false (gn ++ [n]) h2 (by rw [he]; unfold encName; omega) (by omega) (by simp)]
      simp

/-- The URIs of good names. -/
theorem names_good (lib : Name → Other) (l : List Name) (hl : ∀ n ∈ l, GoodName lib n) (san : San) (uris : List (List Nat)) :
    ∃ san', names lib san none l uris = .ok (none, false, san', uris ++ uriNames l) := by
  induction l generalizing san uris with
  | nil => exact ⟨san, by simp [names, uriNames]⟩
  | cons n l ih =>
    have hn := hl n (by simp)
    unfold names
    rcases hn with ⟨ht, h0⟩ | ⟨ht, ho⟩
    · have : parseSan lib n san = some (.uri n.data, none) := by
        unfold parseSan; rw [if_pos (by rw [ht]; rfl)]
      rw [this]
      dsimp only [freeSan]
      obtain ⟨s, hs⟩ := ih (fun x hx => hl x (by simp [hx])) (.uri n.data) (uris ++ [cstr n.data])
      refine ⟨s, ?_⟩
      rw [hs]
      have hc : cstr n.data = n.data := by
        exact cstr_of_no_nul h0
      simp [uriNames, ht, hc]
    · have hne : n.tag ≠ 0x86 := by
        intro h; rw [h] at ht; simp at ht
      have hu : isUri n.tag = false := by
        simp at ht
        rcases ht with h | h | h | h | h <;> rw [h] <;> rfl
      have : ∃ s s', parseSan lib n san = some (s, none) ∧ freeSan s = .ok s' ∧ ∀ u, s ≠ .uri u := by
        unfold parseSan
        rw [if_neg (by simp [hu])]
        rcases ho with ⟨m, h⟩ | h <;> rw [h]
        · exact ⟨_, .dir m true, rfl, by cases m <;> rfl, by simp⟩
        · exact ⟨_, _, rfl, rfl, by simp⟩
      obtain ⟨s, s', h1, h2, h3⟩ := this
      obtain ⟨s2, hs⟩ := ih (fun x hx => hl x (by simp [hx])) s' uris
      refine ⟨s2, ?_⟩
      rw [h1]
      dsimp only
      rw [h2]
      dsimp only
      cases s with
      | uri u => exact absurd rfl (h3 u)
      | zero => dsimp only; rw [hs]; simp [uriNames, hne]
      | dir m f => dsimp only; rw [hs]; simp [uriNames, hne]
      | other => dsimp only; rw [hs]; simp [uriNames, hne]

/-- Encoding of a point that has only names. -/
theorem encPoint_good (lib : Name → Other) (d : Point) (l : List Name) (h : GoodPoint lib d) (hl : d.names = some l) :
    encPoint d = der 0x30 (der 0xA0 (der 0xA0 (l.flatMap encName))) := by
  obtain ⟨h1, h2, _⟩ := h
  unfold encPoint
  rw [h1, h2, hl]
  simp [encOpt]

/-- One point is read. -/
theorem distPoints_one (lib : Name → Other) (b : List Nat) (e fuel p : Nat) (gn : List Name) (san : San) (uris : List (List Nat)) (ret : Option AErr) (d : Point) (l : List Name) (hd' : GoodPoint lib d)
    (hl : d.names = some l) (h : At b p (encPoint d)) (he : p + (encPoint d).length ≤ e) (hs : b.length < 4294967296)
    (hg : gn.length ≤ 1) (hgood : ∀ n ∈ gn, GoodName lib n) :
    ∃ san', distPoints lib b e (fuel + 1) p gn san uris ret = distPoints lib b e fuel (p + (encPoint d).length) (gn ++ l) san' (uris ++ uriNames (gn ++ l)) none := by
  rw [encPoint_good lib d l hd' hl] at h he ⊢
  obtain ⟨_, _, l', hl', hne, hall⟩ := hd'
  rw [hl] at hl'
  cases hl'
  obtain ⟨_, _, h1⟩ := der_at h
  obtain ⟨_, _, h2⟩ := der_at h1
  obtain ⟨_, _, h3⟩ := der_at h2
  have hb := at_le h
  simp only [der_length] at he hb ⊢
  generalize hN : l.flatMap encName = N at *
  have hp1 : 0 < hd (der 0xA0 (der 0xA0 N)) := by unfold hd; omega
  have hp2 : 0 < hd (der 0xA0 N) := by unfold hd; omega
  have hp3 : 0 < hd N := by unfold hd; omega
  obtain ⟨san', hsan⟩ := names_good lib (gn ++ l) (by
    intro n hn
    rcases List.mem_append.1 hn with hn | hn
    · exact hgood n hn
    · exact hall n hn) san uris
  refine ⟨san', ?_⟩
  rw [distPoints]
  rw [if_pos (by omega), getTag_at h (by simp only [der_length]; omega) (by simp only [der_length]; omega)]
  dsimp only
  rw [if_neg (by simp only [der_length]; omega), getTag_at h1 (by simp only [der_length]; omega) (by simp only [der_length]; omega)]
  dsimp only
  rw [getTag_at h2 (by omega) (by omega)]
  dsimp only
  rw [altNames_at lib b _ l hall (b.length + 1) _ true gn (by rw [hN]; exact h3) (by rw [hN]) (by omega) hs (fun _ => hg)]
  dsimp only
  rw [if_neg (by simp [hne]), hsan]
  dsimp only
  congr 1
  omega

theorem distPoints_end (lib : Name → Other) (b : List Nat) (e fuel : Nat) (gn : List Name) (san : San) (uris : List (List Nat)) :
    distPoints lib b e (fuel + 1) e gn san uris none = .ok (none, e, uris) := by
  unfold distPoints; rw [if_neg (by omega)]

/-- The points of a good extension are read. -/
theorem distPoints_good (lib : Name → Other) (b : List Nat) (e p : Nat) (uris : List (List Nat)) (c : Bool) (l : List Point) (hg : GoodExt lib (.points c l))
    (h : At b p (l.flatMap encPoint)) (he : e = p + (l.flatMap encPoint).length) (hs : b.length < 4294967296) :
    ∃ us, distPoints lib b e (b.length + 1) p [] .zero uris none = .ok (none, e, uris ++ us) ∧ ∀ u, u ∈ us ↔ u ∈ wantedExt (.points c l) := by
  obtain ⟨hgood, hn⟩ := hg
  have heb := at_le h
  rw [← he] at heb
  have hpos : ∀ d : Point, 2 ≤ (encPoint d).length := by
    intro d; unfold encPoint; rw [der_length]; unfold hd
    rcases Nat.lt_or_ge 0 (lenBytes (encOpt 0xA0 (d.names.map (fun l => der 0xA0 (l.flatMap encName))) ++ (encOpt 0x81 d.reasons ++ encOpt 0xA2 d.issuer)).length).length with hh | hh
    · omega
    · exfalso
      unfold lenBytes at hh
      repeat' split at hh
      all_goals simp at hh
  match l, hn with
  | [d], _ =>
    obtain ⟨h1, h2, ns, hns, hne, hall⟩ := hgood d (by simp)
    simp only [List.flatMap_cons, List.flatMap_nil, List.append_nil] at h he
    have hp := hpos d
    obtain ⟨f, hf⟩ : ∃ f, b.length = f + 1 := ⟨b.length - 1, by omega⟩
    obtain ⟨san', hd1⟩ := distPoints_one lib b e b.length p [] .zero uris none d ns (hgood d (by simp)) hns h (by omega) hs (by simp) (by simp)
    rw [hd1, ← he, hf, distPoints_end]
    exact ⟨uriNames ns, by simp, by simp [wantedExt, hns]⟩
  | [d1, d2], Or.inr ⟨_, h1⟩ =>
    obtain ⟨g1, g2, ns1, hns1, hne1, hall1⟩ := hgood d1 (by simp)
    obtain ⟨g3, g4, ns2, hns2, hne2, hall2⟩ := hgood d2 (by simp)
    have hone : ns1.length = 1 := h1 d1 (by simp) ns1 (by simp [hns1])
    simp only [List.flatMap_cons, List.flatMap_nil, List.append_nil] at h he
    have hp := hpos d1
    have hp2 := hpos d2
    rw [List.length_append] at he
    obtain ⟨f, hf⟩ : ∃ f, b.length = f + 1 + 1 := ⟨b.length - 2, by omega⟩
    obtain ⟨san', e1⟩ := distPoints_one lib b e b.length p [] .zero uris none d1 ns1 (hgood d1 (by simp)) hns1 (at_left h) (by omega) hs (by simp) (by simp)
    obtain ⟨san2, e2⟩ := distPoints_one lib b e (f + 1) (p + (encPoint d1).length) ns1 san' (uris ++ uriNames ns1) none d2 ns2 (hgood d2 (by simp)) hns2 (at_right h) (by omega) hs (by omega) hall1
    rw [e1, List.nil_append, hf, e2, show p + (encPoint d1).length + (encPoint d2).length = e by omega, distPoints_end]
    refine ⟨uriNames ns1 ++ uriNames (ns1 ++ ns2), by simp, ?_⟩
    intro u
    have hw : u ∈ wantedExt (.points c [d1, d2]) ↔ u ∈ uriNames ns1 ∨ u ∈ uriNames ns2 := by simp [wantedExt, hns1, hns2]
    have ha : u ∈ uriNames (ns1 ++ ns2) ↔ u ∈ uriNames ns1 ∨ u ∈ uriNames ns2 := by
      unfold uriNames; rw [List.filter_append, List.map_append, List.mem_append]
    rw [hw, List.mem_append, ha]
    constructor
    · rintro (h | h)
      · exact Or.inl h
      · exact h
    · exact Or.inr
  | [], Or.inl h' => simp at h'
  | [], Or.inr h' => simp at h'
  | [_, _], Or.inl h' => simp at h'
  | _ :: _ :: _ :: _, Or.inl h' => simp at h'
  | _ :: _ :: _ :: _, Or.inr h' => simp at h'

/-- The value of a good extension. -/
theorem extValue_good (lib : Name → Other) (b : List Nat) (p : Nat) (uris : List (List Nat)) (c : Bool) (l : List Point) (hg : GoodExt lib (.points c l))
    (h : At b p (der 4 (der 0x30 (l.flatMap encPoint)))) (hs : b.length < 4294967296) :
    ∃ us, extValue lib b p (p + (der 4 (der 0x30 (l.flatMap encPoint))).length) uris =
      .ok (.next (p + (der 4 (der 0x30 (l.flatMap encPoint))).length) (uris ++ us)) ∧ ∀ u, u ∈ us ↔ u ∈ wantedExt (.points c l) := by
  obtain ⟨_, _, h1⟩ := der_at h
  obtain ⟨_, _, h2⟩ := der_at h1
  have hb := at_le h
  have hlen : 0 < (l.flatMap encPoint).length := by
    obtain ⟨_, hn⟩ := hg
    cases l with
    | nil => simp at hn
    | cons d l => simp [encPoint, der]
  obtain ⟨us, h3, h4⟩ := distPoints_good lib b _ _ uris c l hg h2 rfl hs
  refine ⟨us, ?_, h4⟩
  simp only [der_length] at hb ⊢
  unfold extValue
  rw [getTag_at h (by simp only [der_length]; omega) (by simp only [der_length]; omega)]
  dsimp only
  simp only [der_length]
  rw [getTag_at h1 (by omega) (by omega)]
  dsimp only
  rw [if_neg (by omega), if_neg (by omega), h3]
  dsimp only
  congr 2
  omega

/-- Reading an extension up to its value. -/
theorem extension_at (lib : Name → Other) (b : List Nat) (p e : Nat) (uris : List (List Nat)) (oid value : List Nat) (c : Bool)
    (h : At b p (encParts oid c value)) (he : p + (encParts oid c value).length ≤ e) (hs : b.length < 4294967296) (ho : oid.length ≤ 4) :
    (oid ≠ crlOid.take oid.length → extension lib b p e uris = .ok (.next (p + (encParts oid c value).length) uris)) ∧
    (oid = crlOid.take oid.length → ∃ q, At b q (der 4 value) ∧ q + (der 4 value).length = p + (encParts oid c value).length ∧
      extension lib b p e uris = extValue lib b q (q + (der 4 value).length) uris) := by
  unfold encParts at h he ⊢
  obtain ⟨_, _, h1⟩ := der_at h
  have ho1 := at_left h1
  have hr := at_right h1
  obtain ⟨_, _, hoid⟩ := der_at ho1
  have hb := at_le h
  have hrl := at_left hr
  have hrr := at_right hr
  generalize hC : (if c = true then der 1 [255] else []) = C at *
  rw [der_length, List.length_append, List.length_append] at hb he ⊢
  rw [der_length 6] at hr hrl hrr
  generalize hB : der 6 oid ++ (C ++ der 4 value) = B at *
  have hBl : B.length = (hd oid + oid.length) + (C.length + (der 4 value).length) := by rw [← hB]; simp [der_length]
  rw [der_length 6] at hb he ⊢
  have hstart : extension lib b p e uris = (if oid ≠ crlOid.take oid.length then .ok (.next (p + hd B + B.length) uris)
      else
        match getBool b (p + hd B + hd oid + oid.length) (p + hd B + B.length) with
          | .error f => .error f
          | .ok r =>
            match afterBool (p + hd B + hd oid + oid.length) r with
            | .error r => .ok (.stop (some r) uris)
            | .ok p' => extValue lib b p' (p + hd B + B.length) uris) := by
    unfold extension
    rw [getTag_at h (by omega) (by omega)]
    dsimp only
    rw [getTag_at ho1 (by omega) (by omega)]
    dsimp only
    rw [at_bytes hoid]
    dsimp only
    rw [if_neg (by simp [crlOid]; omega)]
    rfl
  constructor
  · intro hne
    rw [hstart, if_pos hne]
    congr 2
    omega
  · intro heq
    rw [hstart, if_neg (fun h => h heq)]
    have hpos : 0 < (der 4 value).length := by rw [der_length]; unfold hd; omega
    refine ⟨p + hd B + (hd oid + oid.length) + C.length, hrr, by omega, ?_⟩
    have hend : p + hd B + (hd oid + oid.length) + C.length + (der 4 value).length = p + hd B + B.length := by omega
    rw [hend]
    have hpq : p + hd B + hd oid + oid.length = p + hd B + (hd oid + oid.length) := by omega
    rw [hpq]
    cases c with
    | false =>
      simp at hC
      subst hC
      have : getBool b (p + hd B + (hd oid + oid.length)) (p + hd B + B.length) = .ok (.error .unexpectedTag) := by
        unfold getBool
        have hrr' : At b (p + hd B + (hd oid + oid.length)) (der 4 value) := hrr
        have hBl' : B.length = hd oid + oid.length + (der 4 value).length := by rw [hBl]; simp
        rw [getTag_wrong hrr' (by decide) (by omega)]
      simp only [List.length_nil, Nat.add_zero] at this ⊢
      rw [this]
      rfl
    | true =>
      simp only [if_true] at hC
      subst hC
      obtain ⟨_, _, hv⟩ := der_at hrl
      have hl1 : (der 1 [255]).length = 3 := by decide
      have hh1 : hd [255] = 2 := by decide
      have : getBool b (p + hd B + (hd oid + oid.length)) (p + hd B + B.length) = .ok (.ok (p + hd B + (hd oid + oid.length) + 3)) := by
        unfold getBool
        rw [getTag_at hrl (by decide) (by rw [hh1]; simp; omega)]
        dsimp only
        rw [if_neg (by simp), hh1]
        have hv2 := at_bytes hv
        rw [hh1] at hv2
        simp only [List.length_cons, List.length_nil, Nat.zero_add] at hv2
        rw [hv2]
      rw [this, hl1]
      rfl

/-- A good extension is read. -/
theorem extension_good (lib : Name → Other) (b : List Nat) (p e : Nat) (uris : List (List Nat)) (x : Extn) (hg : GoodExt lib x)
    (h : At b p (encExt x)) (he : p + (encExt x).length ≤ e) (hs : b.length < 4294967296) :
    ∃ us, extension lib b p e uris = .ok (.next (p + (encExt x).length) (uris ++ us)) ∧ ∀ u, u ∈ us ↔ u ∈ wantedExt x := by
  cases x with
  | points c l =>
    unfold encExt at h he ⊢
    obtain ⟨q, h1, h2, h3⟩ := (extension_at lib b p e uris _ _ c h he hs (by decide)).2 (by decide)
    obtain ⟨us, h4, h5⟩ := extValue_good lib b q uris c l hg h1 hs
    refine ⟨us, ?_, h5⟩
    rw [h3, h4, h2]
  | other oid c v =>
    obtain ⟨ho, hp⟩ := hg
    unfold encExt at h he ⊢
    refine ⟨[], ?_, by simp [wantedExt]⟩
    rw [(extension_at lib b p e uris oid v c h he hs ho).1 (by
      intro heq
      exact hp (heq ▸ List.take_prefix _ _)), List.append_nil]

theorem extensions_good (lib : Name → Other) (b : List Nat) (e : Nat) (l : List Extn) (hg : ∀ x ∈ l, GoodExt lib x) (fuel p : Nat) (uris : List (List Nat))
    (h : At b p (l.flatMap encExt)) (he : e = p + (l.flatMap encExt).length) (hs : b.length < 4294967296) (hf : e < fuel + p) :
    ∃ us, extensions lib b e fuel p uris = .ok (.next e (uris ++ us)) ∧ ∀ u, u ∈ us ↔ u ∈ l.flatMap wantedExt := by
  induction l generalizing fuel p uris with
  | nil =>
    cases fuel with
    | zero => simp at he; omega
    | succ fuel =>
      simp at he
      unfold extensions
      rw [if_neg (by omega), he]
      exact ⟨[], by simp, by simp⟩
  | cons x l ih =>
    cases fuel with
    | zero => simp at he; omega
    | succ fuel =>
      rw [List.flatMap_cons] at h he
      rw [List.length_append] at he
      have hpos : 0 < (encExt x).length := by
        cases x <;> simp [encExt, encParts, der]
      obtain ⟨us, h1, h2⟩ := extension_good lib b p e uris x (hg x (by simp)) (at_left h) (by omega) hs
      obtain ⟨us2, h3, h4⟩ := ih (fun y hy => hg y (by simp [hy])) fuel (p + (encExt x).length) (uris ++ us) (at_right h) (by omega) (by omega)
      unfold extensions
      rw [if_pos (by omega), h1]
      dsimp only
      rw [h3]
      refine ⟨us ++ us2, by simp, ?_⟩
      intro u
      rw [List.mem_append, h2, h4, List.flatMap_cons, List.mem_append]

theorem mbedCerts_good (lib : Name → Other) (certs : List (List Extn)) (hg : ∀ l ∈ certs, (∀ x ∈ l, GoodExt lib x) ∧ (encCert l).length < 4294967296) (uris : List (List Nat)) :
    ∃ us, mbedCerts lib (certs.map encCert) uris = .ok (none, uris ++ us) ∧ ∀ u, u ∈ us ↔ u ∈ wantedUris certs := by
  induction certs generalizing uris with
  | nil => exact ⟨[], by simp [mbedCerts], by simp [wantedUris]⟩
  | cons l certs ih =>
    obtain ⟨g1, g2⟩ := hg l (by simp)
    rw [List.map_cons]
    unfold mbedCerts
    by_cases hl : l = []
    · subst hl
      rw [if_pos (by simp [encCert])]
      obtain ⟨us, h1, h2⟩ := ih (fun y hy => hg y (by simp [hy])) uris
      exact ⟨us, h1, by intro u; rw [h2]; simp [wantedUris]⟩
    · have henc : encCert l = der 0x30 (l.flatMap encExt) := by unfold encCert; rw [if_neg hl]
      rw [henc] at g2 ⊢
      rw [if_neg (by simp [der])]
      have ha := at_self (der 0x30 (l.flatMap encExt))
      obtain ⟨_, _, h1⟩ := der_at ha
      have hdl := der_length 0x30 (l.flatMap encExt)
      rw [getTag_at ha (by omega) (by omega)]
      dsimp only
      obtain ⟨us, h2, h3⟩ := extensions_good lib (der 0x30 (l.flatMap encExt)) (der 0x30 (l.flatMap encExt)).length l g1 ((der 0x30 (l.flatMap encExt)).length + 1)
        (0 + hd (l.flatMap encExt)) uris h1 (by omega) g2 (by omega)
      rw [h2]
      dsimp only
      obtain ⟨us2, h4, h5⟩ := ih (fun y hy => hg y (by simp [hy])) (uris ++ us)
      rw [h4]
      refine ⟨us ++ us2, by simp, ?_⟩
      intro u
      rw [List.mem_append, h3, h5]
      simp [wantedUris]

/-! ## Nothing is freed twice if all types of names are known -/

theorem names_no_free (lib : Name → Other) (hl : ∀ n, lib n ≠ .unavailable) (san : San) (ret : Option AErr) (l : List Name) (uris : List (List Nat)) :
    names lib san ret l uris ≠ .error .freed := by
  induction l generalizing san ret uris with
  | nil => simp [names]
  | cons n l ih =>
    unfold names
    have hp : ∀ s ret, parseSan lib n san = some (s, ret) → ∃ s', freeSan s = .ok s' := by
      intro s ret hs
      unfold parseSan at hs
      split at hs
      · cases hs; exact ⟨_, rfl⟩
      · have := hl n
        cases h : lib n with
        | dir m => rw [h] at hs; cases hs; cases m <;> exact ⟨_, rfl⟩
        | other => rw [h] at hs; cases hs; exact ⟨_, rfl⟩
        | unavailable => exact absurd h this
        | wrong => rw [h] at hs; cases hs
    cases h : parseSan lib n san with
    | none => simp
    | some s =>
      obtain ⟨s, ret⟩ := s
      obtain ⟨s', hs'⟩ := hp s ret h
      dsimp only
      rw [hs']
      exact ih _ _ _

theorem distPoints_no_free (lib : Name → Other) (hl : ∀ n, lib n ≠ .unavailable) (b : List Nat) (e : Nat) (h : e ≤ b.length) (fuel p : Nat) (gn : List Name) (san : San)
    (uris : List (List Nat)) (ret : Option AErr) (hp : p ≤ e) : distPoints lib b e fuel p gn san uris ret ≠ .error .freed := by
  induction fuel generalizing p gn san uris ret with
  | zero => simp [distPoints]
  | succ fuel ih =>
    unfold distPoints
    by_cases h0 : p < e
    · rw [if_pos h0]
      rcases getTag_cases b p e 0x30 h with ⟨r, hr⟩ | ⟨len, q, hr, h2, h3⟩
      · rw [hr]; simp
      rw [hr]
      dsimp only
      by_cases hz : len = 0
      · rw [if_pos hz]; exact ih _ _ _ _ _ (by omega)
      rw [if_neg hz]
      rcases getTag_cases b q e 0xA0 h with ⟨r, hr⟩ | ⟨len2, q2, hr, h4, h5⟩
      · rw [hr]
        cases r with
        | unexpectedTag => exact ih _ _ _ _ _ (by omega)
        | outOfData => simp
        | invalidLength => simp
        | unavailable => simp
        | other => simp
      rw [hr]
      dsimp only
      rcases getTag_cases b q2 e 0xA0 h with ⟨r, hr⟩ | ⟨len3, q3, hr, h6, h7⟩
      · rw [hr]; simp
      rw [hr]
      dsimp only
      rcases altNames_cases lib b (q3 + len3) (by omega) (b.length + 1) q3 true gn (by omega) (by omega) with ⟨r, hr⟩ | ⟨gn', q4, hr, h8, h9⟩
      · rw [hr]; simp
      rw [hr]
      dsimp only
      split
      · rename_i f hh
        have := names_fault _ _ _ _ _ _ hh
        subst this
        exact absurd hh (names_no_free lib hl _ _ _ _)
      · simp
      · exact ih _ _ _ _ _ (by omega)
    · rw [if_neg h0]; simp

theorem extValue_no_free (lib : Name → Other) (hl : ∀ n, lib n ≠ .unavailable) (b : List Nat) (p e : Nat) (uris : List (List Nat)) (h : e ≤ b.length) :
    extValue lib b p e uris ≠ .error .freed := by
  unfold extValue
  rcases getTag_cases b p e 4 h with ⟨r, hr⟩ | ⟨len, q, hr, h2, h3⟩
  · rw [hr]; simp
  rw [hr]
  dsimp only
  rcases getTag_cases b q (q + len) 0x30 (by omega) with ⟨r, hr⟩ | ⟨len2, q2, hr, h4, h5⟩
  · rw [hr]; simp
  rw [hr]
  dsimp only
  split
  · simp
  split
  · simp
  split
  · rename_i f hf
    intro hc
    cases hc
    exact distPoints_no_free lib hl b (q2 + len2) (by omega) _ _ _ _ _ _ (by omega) hf
  · simp
  · simp

theorem extension_no_free (lib : Name → Other) (hl : ∀ n, lib n ≠ .unavailable) (b : List Nat) (p e : Nat) (uris : List (List Nat)) (h : e ≤ b.length) :
    extension lib b p e uris ≠ .error .freed := by
  unfold extension
  rcases getTag_cases b p e 0x30 h with ⟨r, hr⟩ | ⟨len, q, hr, h2, h3⟩
  · rw [hr]; simp
  rw [hr]
  dsimp only
  rcases getTag_cases b q (q + len) 6 (by omega) with ⟨r, hr⟩ | ⟨ol, q2, hr, h4, h5⟩
  · rw [hr]; simp
  rw [hr]
  dsimp only
  rw [bytes_ok b q2 ol (by omega)]
  dsimp only
  split
  · simp
  split
  · simp
  rcases getBool_cases b (q2 + ol) (q + len) (by omega) with ⟨r, hr⟩ | ⟨q3, hr, h6, h7⟩
  · rw [hr]
    dsimp only
    split
    · simp
    · exact extValue_no_free lib hl b _ _ _ (by omega)
  · rw [hr]
    exact extValue_no_free lib hl b _ _ _ (by omega)

theorem extensions_no_free (lib : Name → Other) (hl : ∀ n, lib n ≠ .unavailable) (b : List Nat) (e : Nat) (h : e ≤ b.length) (fuel p : Nat) (uris : List (List Nat)) :
    extensions lib b e fuel p uris ≠ .error .freed := by
  induction fuel generalizing p uris with
  | zero => simp [extensions]
  | succ fuel ih =>
    unfold extensions
    split
    · split
      · rename_i f hf
        intro hc
        cases hc
        exact extension_no_free lib hl b _ _ _ h hf
      · simp
      · exact ih _ _
    · simp

theorem mbed_no_free (lib : Name → Other) (hl : ∀ n, lib n ≠ .unavailable) (certs : List (List Nat)) (uris : List (List Nat)) : mbedCerts lib certs uris ≠ .error .freed := by
  induction certs generalizing uris with
  | nil => simp [mbedCerts]
  | cons b rest ih =>
    unfold mbedCerts
    split
    · exact ih uris
    · rcases getTag_cases b 0 b.length 0x30 (Nat.le_refl _) with ⟨r, hr⟩ | ⟨len, q, hr, h2, h3⟩
      · rw [hr]; simp
      · rw [hr]
        dsimp only
        split
        · rename_i f hf
          intro hc
          cases hc
          exact extensions_no_free lib hl b _ (Nat.le_refl _) _ _ _ hf
        · simp
        · exact ih _

end Verif.Crl
