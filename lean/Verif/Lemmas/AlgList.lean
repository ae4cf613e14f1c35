import Verif.Model.AlgList

namespace Verif.AlgList

/-- Not one character repeated. -/
def Varied (x : Text) : Prop := ∃ a ∈ x, ∃ b ∈ x, a ≠ b

theorem const_of_two {x h : Text} {c : Char} (h1 : x <+: c :: h) (h2 : x <+: h) : ∀ a ∈ x, a = c := by
  induction x generalizing c h with
  | nil => simp
  | cons a x ih =>
    obtain ⟨rfl, h1'⟩ := List.cons_prefix_cons.mp h1
    cases h with
    | nil => simp at h2
    | cons b h =>
      obtain ⟨rfl, h2'⟩ := List.cons_prefix_cons.mp h2
      intro y hy
      rcases List.mem_cons.mp hy with hy' | hy'
      · exact hy'
      · exact ih h1' h2' y hy'

theorem not_two {x h : Text} {c : Char} (hv : Varied x) (h1 : x <+: c :: h) : ¬ x <+: h := by
  intro h2
  obtain ⟨a, ha, b, hb, hab⟩ := hv
  exact hab (by rw [const_of_two h1 h2 a ha, const_of_two h1 h2 b hb])

theorem prefix_elem {x e rest : Text} {d : Char} (hx : d ∉ x) (h : x <+: e ++ d :: rest) : x <+: e := by
  induction x generalizing e with
  | nil => simp
  | cons a x ih =>
    cases e with
    | nil =>
      obtain ⟨rfl, _⟩ := List.cons_prefix_cons.mp h
      simp at hx
    | cons b e =>
      obtain ⟨rfl, h'⟩ := List.cons_prefix_cons.mp h
      exact List.cons_prefix_cons.mpr ⟨rfl, ih (fun hm => hx (List.mem_cons_of_mem _ hm)) h'⟩

/-- Inside an element nothing is found, up to the next delimiter. -/
theorem scan_mid {x : Text} {d : Char} (hd : d ∉ x) (hx : x ≠ []) (hv : Varied x) (rest : Text) :
    ∀ (e pre : Text) (first : Bool), d ∉ e → pre ≠ [] → pre.head? ≠ some d → (first = true → ¬ x <+: e ++ d :: rest) →
      scan x d pre (e ++ d :: rest) first = scan x d (d :: (e.reverse ++ pre)) rest false := by
  intro e
  induction e with
  | nil =>
    intro pre first _ hp hph _
    rw [List.nil_append, scan, if_neg]
    · simp
    · intro h
      have := prefix_elem (e := []) hd (List.isPrefixOf_iff_prefix.mp h)
      simp at this; exact hx this
  | cons c e ih =>
    intro pre first he hp hph hf
    have hc : c ≠ d := fun h => he (by simp [h])
    have he' : d ∉ e := fun h => he (List.mem_cons_of_mem _ h)
    rw [List.cons_append, scan]
    by_cases hm : x.isPrefixOf (c :: (e ++ d :: rest)) = true
    · have hm' := List.isPrefixOf_iff_prefix.mp hm
      have hff : first = false := by
        cases first with
        | false => rfl
        | true => exact absurd hm' (hf rfl)
      rw [if_pos hm]
      simp only []
      rw [if_neg (by simp [hff, hph]), if_neg hp, if_neg (by simp [hph]), ih (c :: pre) true he' (by simp) (by simpa using hc) (fun _ => not_two hv hm')]
      simp
    · rw [if_neg hm, ih (c :: pre) false he' (by simp) (by simpa using hc) (by simp)]
      simp

/-- Inside the last element nothing is found. -/
theorem scan_mid_end {x : Text} {d : Char} (hv : Varied x) :
    ∀ (e pre : Text) (first : Bool), d ∉ e → pre ≠ [] → pre.head? ≠ some d → (first = true → ¬ x <+: e) →
      scan x d pre e first = .err := by
  intro e
  induction e with
  | nil => intro pre first _ _ _ _; rw [scan]
  | cons c e ih =>
    intro pre first he hp hph hf
    have hc : c ≠ d := fun h => he (by simp [h])
    have he' : d ∉ e := fun h => he (List.mem_cons_of_mem _ h)
    rw [scan]
    by_cases hm : x.isPrefixOf (c :: e) = true
    · have hm' := List.isPrefixOf_iff_prefix.mp hm
      have hff : first = false := by
        cases first with
        | false => rfl
        | true => exact absurd hm' (hf rfl)
      rw [if_pos hm]
      simp only []
      rw [if_neg (by simp [hff, hph]), if_neg hp, if_neg (by simp [hph])]
      exact ih (c :: pre) true he' (by simp) (by simpa using hc) (fun _ => not_two hv hm')
    · rw [if_neg hm]
      exact ih (c :: pre) false he' (by simp) (by simpa using hc) (by simp)

theorem after_elem {x e rest : Text} {d : Char} (hd : d ∉ e) (hp : x <+: e) (hne : e ≠ x) : (e ++ d :: rest)[x.length]? ≠ some d := by
  obtain ⟨t, rfl⟩ := hp
  cases t with
  | nil => simp at hne
  | cons b t =>
    simp only [List.append_assoc]
    rw [List.getElem?_append_right (by omega)]
    simp
    rintro rfl
    exact hd (by simp)

/-- An element different from the searched one is skipped. -/
theorem scan_elem {x e : Text} {d : Char} (hd : d ∉ x) (hx : x ≠ []) (hv : Varied x) (rest : Text) (pre : Text) (first : Bool)
    (he : e ≠ []) (hde : d ∉ e) (hne : e ≠ x) (hs : pre = [] → ¬ x <+: e) :
    scan x d pre (e ++ d :: rest) first = scan x d (d :: (e.reverse ++ pre)) rest false := by
  cases e with
  | nil => exact absurd rfl he
  | cons c e =>
    have hc : c ≠ d := fun h => hde (by simp [h])
    have he' : d ∉ e := fun h => hde (List.mem_cons_of_mem _ h)
    rw [List.cons_append, scan]
    by_cases hm : x.isPrefixOf (c :: (e ++ d :: rest)) = true
    · have hm' := List.isPrefixOf_iff_prefix.mp hm
      have hme : x <+: c :: e := prefix_elem (e := c :: e) hd hm'
      have hp : pre ≠ [] := fun h => hs h hme
      have ha := after_elem (rest := rest) hde hme hne
      rw [List.cons_append] at ha
      have hlen : (c :: (e ++ d :: rest))[x.length]? ≠ none := by
        have := hme.length_le
        rw [ne_eq, List.getElem?_eq_none_iff]
        simp at this ⊢; omega
      rw [if_pos hm]
      simp only []
      rw [if_neg (by intro h; exact ha h.1), if_neg hp, if_neg (by intro h; exact hlen h.2)]
      rw [scan_mid hd hx hv rest e (c :: pre) true he' (by simp) (by simpa using hc) (fun _ => not_two hv hm')]
      simp
    · rw [if_neg hm, scan_mid hd hx hv rest e (c :: pre) false he' (by simp) (by simpa using hc) (by simp)]
      simp

/-- A last element different from the searched one. -/
theorem scan_elem_end {x e : Text} {d : Char} (hv : Varied x) (pre : Text) (first : Bool)
    (hde : d ∉ e) (hne : e ≠ x) (hs : pre = [] → ¬ x <+: e) :
    scan x d pre e first = .err := by
  cases e with
  | nil => rw [scan]
  | cons c e =>
    have hc : c ≠ d := fun h => hde (by simp [h])
    have he' : d ∉ e := fun h => hde (List.mem_cons_of_mem _ h)
    rw [scan]
    by_cases hm : x.isPrefixOf (c :: e) = true
    · have hm' := List.isPrefixOf_iff_prefix.mp hm
      have hp : pre ≠ [] := fun h => hs h hm'
      have hlen : (c :: e)[x.length]? ≠ none := by
        rw [ne_eq, List.getElem?_eq_none_iff]
        intro hl
        exact hne (hm'.eq_of_length_le hl).symm
      have ha : (c :: e)[x.length]? ≠ some d := by
        intro h; exact hde (List.mem_of_getElem? h)
      rw [if_pos hm]
      simp only []
      rw [if_neg (by intro h; exact ha h.1), if_neg hp, if_neg (by intro h; exact hlen h.2)]
      exact scan_mid_end hv e (c :: pre) true he' (by simp) (by simpa using hc) (fun _ => not_two hv hm')
    · rw [if_neg hm]
      exact scan_mid_end hv e (c :: pre) false he' (by simp) (by simpa using hc) (by simp)

/-- Elements different from the searched one are skipped. -/
theorem scan_many {x : Text} {d : Char} (hd : d ∉ x) (hx : x ≠ []) (hv : Varied x) (tail : Text) :
    ∀ (m : List Text) (pre : Text) (first : Bool), (∀ e ∈ m, e ≠ [] ∧ d ∉ e ∧ e ≠ x) → (pre = [] → ∀ e ∈ m.head?, ¬ x <+: e) →
      scan x d pre (m.flatMap (· ++ [d]) ++ tail) first = scan x d ((m.flatMap (· ++ [d])).reverse ++ pre) tail (if m = [] then first else false) := by
  intro m
  induction m with
  | nil => intro pre first _ _; simp
  | cons e m ih =>
    intro pre first hm hs
    obtain ⟨h1, h2, h3⟩ := hm e (by simp)
    have : (e :: m).flatMap (· ++ [d]) ++ tail = e ++ d :: (m.flatMap (· ++ [d]) ++ tail) := by simp
    rw [this, scan_elem hd hx hv _ pre first h1 h2 h3 (fun h => hs h e (by simp)), ih _ _ (fun e' h' => hm e' (by simp [h'])) (by simp)]
    simp

theorem intercalate_snoc (d : Char) (m : List Text) (x : Text) : [d].intercalate (m ++ [x]) = m.flatMap (· ++ [d]) ++ x := by
  induction m with
  | nil => simp [List.intercalate]
  | cons e m ih =>
    cases m with
    | nil => simp [List.intercalate]
    | cons f m =>
      simp only [List.intercalate, List.cons_append, List.intersperse, List.flatten_cons, List.flatMap_cons] at ih ⊢
      rw [ih]
      simp

theorem intercalate_mid (d : Char) (m : List Text) (x y : Text) (l : List Text) :
    [d].intercalate (m ++ x :: y :: l) = m.flatMap (· ++ [d]) ++ (x ++ d :: [d].intercalate (y :: l)) := by
  induction m with
  | nil => simp [List.intercalate]
  | cons e m ih =>
    have hm : ∃ f r, m ++ x :: y :: l = f :: r := by cases m <;> simp
    obtain ⟨f, r, hfr⟩ := hm
    rw [List.cons_append, hfr]
    rw [hfr] at ih
    simp only [List.intercalate, List.intersperse, List.flatten_cons, List.flatMap_cons] at ih ⊢
    rw [ih]
    simp

theorem intercalate_append (d : Char) (m : List Text) (y : Text) (l : List Text) :
    [d].intercalate (m ++ y :: l) = m.flatMap (· ++ [d]) ++ [d].intercalate (y :: l) := by
  cases l with
  | nil => rw [intercalate_snoc]; simp [List.intercalate]
  | cons z l =>
    rw [intercalate_mid]
    simp [List.intercalate]

theorem exists_snoc {α : Type} {l : List α} (h : l ≠ []) : ∃ m x, l = m ++ [x] := by
  induction l with
  | nil => exact absurd rfl h
  | cons a l ih =>
    cases l with
    | nil => exact ⟨[], a, rfl⟩
    | cons b l =>
      obtain ⟨m, x, hm⟩ := ih (by simp)
      exact ⟨a :: m, x, by rw [hm]; rfl⟩

end Verif.AlgList
