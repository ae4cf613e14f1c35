import Verif.Model.ModSel

namespace Verif.ModSel

/-! ## The order of `strcmp` -/

theorem strGt_irrefl (a : Text) : strGt a a = false := by
  induction a with
  | nil => rfl
  | cons c a ih => simp [strGt, ih]

theorem strGt_trans {a b c : Text} (h1 : strGt a b = true) (h2 : strGt b c = true) : strGt a c = true := by
  induction a generalizing b c with
  | nil => simp [strGt] at h1
  | cons x a ih =>
    cases b with
    | nil => simp [strGt] at h2
    | cons y b =>
      cases c with
      | nil => rfl
      | cons z c =>
        simp only [strGt] at h1 h2 ⊢
        by_cases hxy : x = y
        · subst hxy
          by_cases hyz : x = z
          · subst hyz; simp at h1 h2 ⊢; exact ih h1 h2
          · simpa [hyz] using h2
        · by_cases hyz : y = z
          · subst hyz; simpa [hxy] using h1
          · rw [if_neg hxy] at h1
            rw [if_neg hyz] at h2
            simp at h1 h2
            have hxz : x ≠ z := by rintro rfl; omega
            rw [if_neg hxz]
            simp; omega

theorem strGt_total {a b : Text} (h : a ≠ b) : strGt a b = true ∨ strGt b a = true := by
  induction a generalizing b with
  | nil =>
    cases b with
    | nil => exact absurd rfl h
    | cons y b => right; rfl
  | cons x a ih =>
    cases b with
    | nil => left; rfl
    | cons y b =>
      simp only [strGt]
      by_cases hxy : x = y
      · subst hxy
        simp
        exact ih (fun h' => h (by rw [h']))
      · rw [if_neg hxy, if_neg (fun h => hxy h.symm)]
        have : x.toNat ≠ y.toNat := fun h => hxy (Char.ext (UInt32.toNat_inj.mp h))
        simp; omega

/-- If `x` is not older than `r` and `r'` is older than `r`, `x` is not older than `r'`. -/
theorem not_gt_of_gt {r r' x : Text} (h1 : strGt r x = false) (h2 : strGt r r' = true) : strGt r' x = false := by
  cases h : strGt r' x with
  | false => rfl
  | true => rw [strGt_trans h2 h] at h1; exact h1

/-! ## The choice -/

/-- What `choose` does: the revision after it is the smallest of the given one and those listed. -/
theorem choose_min (name : Text) (mods : List Mod) (hrev : ∀ x ∈ mods, x.name = name → x.rev.isSome) (u m : Nat) (rev : Option Text)
    (hm : m ≠ 0 → rev.isSome) :
    ∃ m' rev', choose name mods u m rev = .ok (m', rev') ∧
      (∀ r, m ≠ 0 → rev = some r → ∃ r', rev' = some r' ∧ strGt r' r = false ∧ m' ≠ 0) ∧
      (∀ x ∈ mods, x.name = name → ∀ r, x.rev = some r → ∃ r', rev' = some r' ∧ strGt r' r = false ∧ m' ≠ 0) ∧
      (m' = 0 → rev' = rev) ∧
      (rev' = rev ∨ ∃ x ∈ mods, x.name = name ∧ rev' = x.rev) := by
  induction mods generalizing u m rev with
  | nil => exact ⟨m, rev, rfl, fun r h hr => ⟨r, hr, strGt_irrefl r, h⟩, by simp, fun _ => rfl, .inl rfl⟩
  | cons x xs ih =>
    have hrev' : ∀ y ∈ xs, y.name = name → y.rev.isSome := fun y hy => hrev y (by simp [hy])
    rw [choose]
    by_cases hx : x.name = name
    · rw [if_neg (by simpa using hx)]
      obtain ⟨rx, hrx⟩ := Option.isSome_iff_exists.mp (hrev x (by simp) hx)
      by_cases h0 : m = 0
      · rw [if_pos h0]
        obtain ⟨m', rev', e1, e2, e3, e4, e5⟩ := ih hrev' (u + 1) (u + 1) x.rev (by simp [hrx])
        refine ⟨m', rev', e1, fun r h => absurd h0 h, ?_, ?_, ?_⟩
        · intro y hy hn r hr
          rcases List.mem_cons.mp hy with rfl | hy
          · exact e2 r (by omega) hr
          · exact e3 y hy hn r hr
        · intro hm'
          obtain ⟨_, _, _, h⟩ := e2 rx (by omega) hrx
          exact absurd hm' h
        · rcases e5 with e5 | ⟨y, hy, h⟩
          · exact .inr ⟨x, by simp, hx, e5⟩
          · exact .inr ⟨y, by simp [hy], h⟩
      · rw [if_neg h0]
        obtain ⟨r0, hr0⟩ := Option.isSome_iff_exists.mp (hm h0)
        subst hr0
        rw [hrx]
        simp only [better]
        obtain ⟨m', rev', e1, e2, e3, e4, e5⟩ := ih hrev' (u + 1) (u + 1) (if strGt r0 rx then some rx else some r0) (by split <;> simp)
        refine ⟨m', rev', e1, ?_, ?_, ?_, ?_⟩
        · intro r _ hr
          cases hr
          cases hg : strGt r0 rx with
          | false => rw [hg] at e2; exact e2 r0 (by omega) rfl
          | true =>
            rw [hg] at e2
            obtain ⟨r', h1, h2, h3⟩ := e2 rx (by omega) rfl
            refine ⟨r', h1, ?_, h3⟩
            cases hq : strGt r' r0 with
            | false => rfl
            | true => rw [strGt_trans hq hg] at h2; exact h2
        · intro y hy hn r hr
          rcases List.mem_cons.mp hy with rfl | hy
          · rw [hrx] at hr; cases hr
            cases hg : strGt r0 rx with
            | true => rw [hg] at e2; exact e2 rx (by omega) rfl
            | false =>
              rw [hg] at e2
              obtain ⟨r', h1, h2, h3⟩ := e2 r0 (by omega) rfl
              refine ⟨r', h1, ?_, h3⟩
              cases hq : strGt r' rx with
              | false => rfl
              | true =>
                by_cases heq : r' = r0
                · rw [heq, hg] at hq; exact hq.symm
                · rcases strGt_total heq with h | h
                  · rw [h] at h2; exact h2
                  · rw [strGt_trans h hq] at hg; exact hg
          · exact e3 y hy hn r hr
        · intro hm'
          exfalso
          by_cases hg : strGt r0 rx = true
          · rw [if_pos hg] at e2
            obtain ⟨_, _, _, h⟩ := e2 rx (by omega) rfl
            exact h hm'
          · rw [if_neg hg] at e2
            obtain ⟨_, _, _, h⟩ := e2 r0 (by omega) rfl
            exact h hm'
        · rcases e5 with e5 | ⟨y, hy, h⟩
          · rw [e5]
            split
            · exact .inr ⟨x, by simp, hx, hrx.symm⟩
            · exact .inl rfl
          · exact .inr ⟨y, by simp [hy], h⟩
    · rw [if_pos (by simpa using hx)]
      obtain ⟨m', rev', e1, e2, e3, e4, e5⟩ := ih hrev' (u + 1) m rev hm
      refine ⟨m', rev', e1, e2, ?_, e4, ?_⟩
      · intro y hy hn
        rcases List.mem_cons.mp hy with rfl | hy
        · exact absurd hn hx
        · exact e3 y hy hn
      · rcases e5 with e5 | ⟨y, hy, h⟩
        · exact .inl e5
        · exact .inr ⟨y, by simp [hy], h⟩

/-- Modules of other names do not matter. -/
theorem choose_skip (name : Text) (mods : List Mod) (h : ∀ x ∈ mods, x.name ≠ name) (u m : Nat) (rev : Option Text) :
    choose name mods u m rev = .ok (m, rev) := by
  induction mods generalizing u with
  | nil => rfl
  | cons x xs ih =>
    rw [choose, if_pos (h x (by simp))]
    exact ih (fun y hy => h y (by simp [hy])) _

theorem choose_append (name : Text) (a b : List Mod) (h : ∀ x ∈ a, x.name ≠ name) (u m : Nat) (rev : Option Text) :
    choose name (a ++ b) u m rev = choose name b (u + a.length) m rev := by
  induction a generalizing u with
  | nil => rfl
  | cons x xs ih =>
    rw [List.cons_append, choose, if_pos (h x (by simp)), ih (fun y hy => h y (by simp [hy]))]
    congr 1
    simp; omega

/-! ## Capabilities -/

theorem isPrefixOf_append_iff (k t : Text) : k.isPrefixOf t = true ↔ ∃ r, t = k ++ r := by
  rw [List.isPrefixOf_iff_prefix]
  constructor
  · rintro ⟨r, h⟩; exact ⟨r, h.symm⟩
  · rintro ⟨r, h⟩; exact ⟨r, h.symm⟩

/-- Splitting at the first `=` is unique. -/
theorem split_eq_unique {a b x y : Text} {d : Char} (ha : d ∉ a) (hb : d ∉ b) (h : a ++ d :: x = b ++ d :: y) : a = b ∧ x = y := by
  induction a generalizing b with
  | nil =>
    cases b with
    | nil => simpa using h
    | cons c b => simp at h; simp [h.1] at hb
  | cons c a ih =>
    cases b with
    | nil => simp at h; simp [h.1] at ha
    | cons c' b =>
      simp at h ha hb
      obtain ⟨h1, h2⟩ := ih (b := b) (by simp [ha.2]) (by simp [hb.2]) h.2
      exact ⟨by rw [h.1, h1], h2⟩

/-- Skipping text without a match. -/
theorem strstr_skip (needle a b : Text) (h : ∀ s t, a = s ++ t → t ≠ [] → needle.isPrefixOf (t ++ b) = false) : strstr needle (a ++ b) = strstr needle b := by
  induction a with
  | nil => rfl
  | cons c a ih =>
    rw [List.cons_append, strstr]
    have := h [] (c :: a) rfl (by simp)
    rw [List.cons_append] at this
    rw [this]
    exact ih (fun s t hst ht => h (c :: s) t (by rw [hst]; rfl) ht)

theorem strstr_here (needle b : Text) : strstr needle (needle ++ b) = some (needle ++ b) := by
  cases needle with
  | nil => cases b <;> simp [strstr]
  | cons c n =>
    rw [List.cons_append, strstr, if_pos]
    rw [isPrefixOf_append_iff]
    exact ⟨b, by simp⟩

theorem strstr_none (needle a : Text) (d : Char) (hd : d ∈ needle) (ha : d ∉ a) : strstr needle a = none := by
  induction a with
  | nil =>
    rw [strstr, if_neg]
    rintro rfl; simp at hd
  | cons c a ih =>
    rw [strstr, if_neg]
    · exact ih (fun h => ha (by simp [h]))
    · rw [isPrefixOf_append_iff]
      rintro ⟨r, h⟩
      exact ha (by rw [h]; simp [hd])

/-- Text of a parameter list. -/
def encode : List (Text × Text) → Text
  | [] => []
  | [(k, v)] => k ++ '=' :: v
  | (k, v) :: p :: ps => k ++ '=' :: (v ++ '&' :: encode (p :: ps))

/-- The names of RFC 7950, section 5.6.4. -/
def cpbltKeys : List Text := ["module".toList, "revision".toList, "features".toList, "deviations".toList]

theorem key_suffix {k k' s : Text} (hk : k ∈ cpbltKeys) (hk' : k' ∈ cpbltKeys) (h : k = s ++ k') : k = k' := by
  have hlen : ∀ k ∈ cpbltKeys, k.length ≤ 10 := by decide
  have hs : k.drop (k.length - k'.length) = k' := by rw [h]; simp
  have : ∀ k ∈ cpbltKeys, ∀ k' ∈ cpbltKeys, k.drop (k.length - k'.length) = k' → k = k' := by decide
  exact this k hk k' hk' hs

theorem key_no_eq {k : Text} (hk : k ∈ cpbltKeys) : '=' ∉ k ∧ '&' ∉ k ∧ k ≠ [] := by
  revert k; decide

/-- No match of a parameter name starts inside another parameter. -/
theorem no_match_inside {k k' v : Text} (hk : k ∈ cpbltKeys) (hk' : k' ∈ cpbltKeys) (hne : k ≠ k') (hv : '=' ∉ v) (b : Text)
    (hb : b = [] ∨ ∃ b', b = '&' :: b') :
    ∀ s t, k ++ '=' :: v = s ++ t → t ≠ [] → (k' ++ ['=']).isPrefixOf (t ++ b) = false := by
  intro s t hst ht
  cases hp : (k' ++ ['=']).isPrefixOf (t ++ b) with
  | false => rfl
  | true =>
    exfalso
    obtain ⟨r, hr⟩ := (isPrefixOf_append_iff _ _).mp hp
    have hr' : t ++ b = k' ++ '=' :: r := by rw [hr]; simp
    obtain ⟨k1, k2, k3⟩ := key_no_eq hk
    obtain ⟨q1, q2, q3⟩ := key_no_eq hk'
    rcases List.append_eq_append_iff.mp hst with ⟨w, h1, h2⟩ | ⟨w, h1, h2⟩
    · -- s = k ++ w, t is inside "=" ++ v
      cases w with
      | nil =>
        simp at h2
        rw [← h2] at hr'
        cases k' with
        | nil => exact q3 rfl
        | cons c k' => simp at hr'; simp [← hr'.1] at q1
      | cons c w =>
        simp at h2
        have htv : '=' ∉ t := fun h => hv (by rw [h2.2]; simp [h])
        -- the first '=' of the match is after t
        rcases List.append_eq_append_iff.mp hr' with ⟨w', g1, g2⟩ | ⟨w', g1, g2⟩
        · rcases hb with rfl | ⟨b', rfl⟩
          · have : w' = [] := by
              cases w' with
              | nil => rfl
              | cons _ _ => simp at g2
            subst this
            simp at g2
          · cases w' with
            | nil => simp at g2
            | cons c' w' => simp at g2; rw [g1] at q2; simp [← g2.1] at q2
        · cases w' with
          | nil => simp at g2; rcases hb with rfl | ⟨b', rfl⟩ <;> simp at g2
          | cons c' w' => simp at g2; rw [g1] at htv; simp [← g2.1] at htv
    · -- k = s ++ w, t = w ++ "=" ++ v
      rw [h2] at hr'
      have hw : '=' ∉ w := fun h => k1 (by rw [h1]; simp [h])
      have h3 : w ++ '=' :: (v ++ b) = k' ++ '=' :: r := by rw [← hr']; simp
      obtain ⟨h4, -⟩ := split_eq_unique hw q1 h3
      subst h4
      exact hne (key_suffix hk hk' h1)

/-- A parameter is found exactly if it is listed, at its first place. -/
theorem strstr_encode (ps : List (Text × Text)) (hk : ∀ p ∈ ps, p.1 ∈ cpbltKeys) (hv : ∀ p ∈ ps, '=' ∉ p.2 ∧ '&' ∉ p.2) (k : Text) (hkk : k ∈ cpbltKeys) :
    match ps.lookup k with
    | none => strstr (k ++ ['=']) (encode ps) = none
    | some v => ∃ b, strstr (k ++ ['=']) (encode ps) = some (k ++ '=' :: (v ++ b)) ∧ (b = [] ∨ ∃ b', b = '&' :: b') := by
  induction ps with
  | nil =>
    simp only [List.lookup, encode]
    exact strstr_none _ _ '=' (by simp) (by simp)
  | cons p ps ih =>
    obtain ⟨k0, v0⟩ := p
    have ih' := ih (fun p hp => hk p (by simp [hp])) (fun p hp => hv p (by simp [hp]))
    have hk0 := hk (k0, v0) (by simp)
    have hv0 := hv (k0, v0) (by simp)
    obtain ⟨b, hb, he⟩ : ∃ b, (b = [] ∨ ∃ b', b = '&' :: b') ∧ encode ((k0, v0) :: ps) = (k0 ++ '=' :: v0) ++ b := by
      cases ps with
      | nil => exact ⟨[], .inl rfl, by simp [encode]⟩
      | cons p ps => exact ⟨'&' :: encode (p :: ps), .inr ⟨_, rfl⟩, by simp [encode]⟩
    by_cases heq : k = k0
    · subst heq
      rw [List.lookup_cons_self]
      refine ⟨b, ?_, hb⟩
      rw [he]
      have : (k ++ '=' :: v0) ++ b = (k ++ ['=']) ++ (v0 ++ b) := by simp
      rw [this, strstr_here]
      simp
    · have hl : ((k0, v0) :: ps).lookup k = ps.lookup k := by
        have : (k == k0) = false := by simpa using heq
        simp [List.lookup, this]
      rw [hl]
      have hskip : strstr (k ++ ['=']) (encode ((k0, v0) :: ps)) = strstr (k ++ ['=']) (encode ps) := by
        rw [he, strstr_skip _ _ _ (no_match_inside hk0 hkk (fun h => heq h.symm) hv0.1 b hb)]
        cases ps with
        | nil =>
          have : b = [] := by simpa [encode] using he
          rw [this]; rfl
        | cons p ps =>
          have : b = ['&'] ++ encode (p :: ps) := by simpa [encode] using he.symm
          rw [this]
          apply strstr_skip
          intro s t hst ht
          cases hp : (k ++ ['=']).isPrefixOf (t ++ encode (p :: ps)) with
          | false => rfl
          | true =>
            exfalso
            obtain ⟨r, hr⟩ := (isPrefixOf_append_iff _ _).mp hp
            obtain ⟨q1, q2, q3⟩ := key_no_eq hkk
            cases t with
            | nil => exact ht rfl
            | cons c t =>
              have : c = '&' := by
                cases s with
                | nil => simp at hst; exact hst.1.symm
                | cons _ s => simp at hst
              subst this
              cases k with
              | nil => exact q3 rfl
              | cons c k => simp at hr; simp [← hr.1] at q2
      rw [hskip]
      exact ih'

theorem upToAmp_append {v b : Text} (hv : '&' ∉ v) (hb : b = [] ∨ ∃ b', b = '&' :: b') : upToAmp (v ++ b) = v := by
  unfold upToAmp
  rw [List.takeWhile_append_of_pos (by intro c hc; simp; rintro rfl; exact hv hc)]
  rcases hb with rfl | ⟨b', rfl⟩ <;> simp

theorem splitFeatures_spec (v b cur : Text) (hv : '&' ∉ v) (hb : b = [] ∨ ∃ b', b = '&' :: b') :
    splitFeatures (v ++ b) cur = splitFeatures v cur := by
  induction v generalizing cur with
  | nil => rcases hb with rfl | ⟨b', rfl⟩ <;> simp [splitFeatures]
  | cons c v ih =>
    have hc : c ≠ '&' := by rintro rfl; simp at hv
    have hv' : '&' ∉ v := fun h => hv (by simp [h])
    simp only [List.cons_append, splitFeatures, hc, if_false, ih _ hv']

theorem splitFeatures_join (f : Text) (fs : List Text) (cur : Text) (h : ∀ x ∈ f :: fs, ',' ∉ x ∧ '&' ∉ x) :
    splitFeatures ([','].intercalate (f :: fs)) cur = (cur ++ f) :: fs := by
  have hone : ∀ (x y cur : Text), ',' ∉ x → '&' ∉ x → splitFeatures (x ++ y) cur = splitFeatures y (cur ++ x) := by
    intro x
    induction x with
    | nil => intro y cur _ _; simp
    | cons c x ih =>
      intro y cur h1 h2
      have c1 : c ≠ ',' := by rintro rfl; simp at h1
      have c2 : c ≠ '&' := by rintro rfl; simp at h2
      simp only [List.cons_append, splitFeatures, c1, c2, if_false]
      rw [ih y _ (fun h => h1 (by simp [h])) (fun h => h2 (by simp [h]))]
      simp
  induction fs generalizing f cur with
  | nil =>
    have := hone f [] cur (h f (by simp)).1 (h f (by simp)).2
    simpa [List.intercalate, splitFeatures] using this
  | cons g fs ih =>
    have e : [','].intercalate (f :: g :: fs) = f ++ ',' :: [','].intercalate (g :: fs) := by simp [List.intercalate]
    rw [e, hone f _ cur (h f (by simp)).1 (h f (by simp)).2, splitFeatures, if_neg (by decide), if_pos rfl, ih g [] (fun x hx => h x (by simp [hx]))]
    simp

theorem mem_intercalate {d c : Char} {x : Text} {l : List Text} (hx : x ∈ l) (hc : c ∈ x) : c ∈ [d].intercalate l := by
  induction l with
  | nil => simp at hx
  | cons y l ih =>
    cases l with
    | nil => simp at hx; subst hx; simpa [List.intercalate] using hc
    | cons z l =>
      have e : [d].intercalate (y :: z :: l) = y ++ d :: [d].intercalate (z :: l) := by simp [List.intercalate]
      rw [e]
      rcases List.mem_cons.mp hx with rfl | hx
      · simp [hc]
      · simp [ih hx]

end Verif.ModSel
