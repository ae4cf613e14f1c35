/-
Lemmas about the model in `Verif.Model.ConfUtil`: paths made from formats, and the data nodes
before and after each call.
-/
import Verif.Model.ConfUtil

namespace Verif.ConfUtil

/-! ### Places in the configuration -/

/-- A place in the configuration: the nodes from the top, a list instance with its key and the
number of the name (of the function called) that is the key. -/
abbrev Place := List (Text × Option (Text × Nat))

/-- The path of a place for given names. -/
def Place.at (P : Place) (names : List Text) : Path :=
  P.map (fun x => ⟨x.1, match x.2 with
    | none => []
    | some k => [(k.1, names.getD k.2 [])]⟩)

/-- A name that can be put between apostrophes. -/
def Plain (t : Text) : Prop := '\'' ∉ t

/-- The text of a path. -/
def renderKey (k : Text × Text) : Text :=
  '[' :: (k.1 ++ '=' :: '\'' :: (k.2 ++ ['\'', ']']))

def renderSeg (s : Seg) : Text :=
  '/' :: (s.name ++ s.keys.flatMap renderKey)

def render (p : Path) : Text := p.flatMap renderSeg

/-- The place meant by a format that was read as a path. -/
def placeOf : Nat → Path → Option Place
  | _, [] => some []
  | k, ⟨n, []⟩ :: r => (placeOf k r).map ((n, none) :: ·)
  | k, ⟨n, [(kn, v)]⟩ :: r =>
    if v = ['%', 's'] ∨ v = ['%', 'u'] then
      (placeOf (k + 1) r).map ((n, some (kn, k)) :: ·)
    else none
  | _, _ :: _ => none

/-- The place meant by a format, if all in it is as expected. -/
def place (fmt : Text) : Option Place :=
  match parse fmt with
  | none => none
  | some p =>
    if render p = fmt ∧ p.all (fun s => !s.name.isEmpty && s.name.all nameChar &&
        s.keys.all (fun k => k.1.all nameChar)) then placeOf 0 p
    else none

/-- The number of names a place needs. -/
def holes : Place → Nat
  | [] => 0
  | (_, none) :: r => holes r
  | (_, some _) :: r => holes r + 1

/-! ### Reading a path -/

theorem dropWhile_append_stop {α} (f : α → Bool) (a b : List α) (h : ∀ x ∈ a, f x = true)
    (hb : ∀ x r, b = x :: r → f x = false) : (a ++ b).dropWhile f = b := by
  induction a with
  | nil =>
    cases b with
    | nil => rfl
    | cons x r => simp [hb x r rfl]
  | cons y a ih =>
    have := h y (by simp)
    simp only [List.cons_append, List.dropWhile, this]
    exact ih (fun x hx => h x (by simp [hx]))

theorem takeWhile_append_stop {α} (f : α → Bool) (a b : List α) (h : ∀ x ∈ a, f x = true)
    (hb : ∀ x r, b = x :: r → f x = false) : (a ++ b).takeWhile f = a := by
  induction a with
  | nil =>
    cases b with
    | nil => rfl
    | cons x r => simp [hb x r rfl]
  | cons y a ih =>
    have := h y (by simp)
    simp only [List.cons_append, List.takeWhile, this]
    rw [ih (fun x hx => h x (by simp [hx]))]

/-- Text that can follow a node: nothing or the next node. -/
def Next (t : Text) : Prop := t = [] ∨ ∃ r, t = '/' :: r

theorem parsePreds_render (ks : List (Text × Text)) (rest : Text) (n : Nat)
    (hn : ks.length < n) (hk : ∀ k ∈ ks, k.1.all nameChar = true)
    (hv : ∀ k ∈ ks, Plain k.2) (hr : Next rest) :
    parsePreds n (ks.flatMap renderKey ++ rest) = some (ks, rest) := by
  induction ks generalizing n with
  | nil =>
    cases n with
    | zero => simp at hn
    | succ n =>
      rcases hr with rfl | ⟨r, rfl⟩ <;> simp [parsePreds]
  | cons k ks ih =>
    cases n with
    | zero => simp at hn
    | succ n =>
      have hk1 : ∀ x ∈ k.1, nameChar x = true := by
        have := hk k (by simp); simpa using this
      have hv1 : ∀ x ∈ k.2, (x != '\'') = true := by
        intro x hx
        have := hv k (by simp)
        simp only [bne_iff_ne, ne_eq]
        rintro rfl
        exact this hx
      have e : (k :: ks).flatMap renderKey ++ rest =
          '[' :: (k.1 ++ ('=' :: '\'' :: (k.2 ++ ('\'' :: ']' ::
            (ks.flatMap renderKey ++ rest))))) := by
        simp [renderKey]
      rw [e]
      unfold parsePreds
      simp only
      rw [dropWhile_append_stop nameChar k.1 _ hk1 (by
        intro x r h
        simp only [List.cons.injEq] at h
        rw [← h.1]; decide)]
      rw [takeWhile_append_stop nameChar k.1 _ hk1 (by
        intro x r h
        simp only [List.cons.injEq] at h
        rw [← h.1]; decide)]
      simp only
      rw [dropWhile_append_stop (· != '\'') k.2 _ hv1 (by
        intro x r h
        simp only [List.cons.injEq] at h
        rw [← h.1]; decide)]
      rw [takeWhile_append_stop (· != '\'') k.2 _ hv1 (by
        intro x r h
        simp only [List.cons.injEq] at h
        rw [← h.1]; decide)]
      simp only
      rw [ih n (by simp at hn; omega) (fun x hx => hk x (by simp [hx]))
        (fun x hx => hv x (by simp [hx]))]
      simp

theorem render_next (p : Path) : Next (render p) := by
  cases p with
  | nil => left; rfl
  | cons s r => right; simp [render, renderSeg]

theorem keys_length_le (ks : List (Text × Text)) : ks.length ≤ (ks.flatMap renderKey).length := by
  induction ks with
  | nil => simp
  | cons k ks ih => simp [renderKey] at *; omega

theorem parseSegs_render (p : Path) (n : Nat) (hn : p.length < n)
    (h : ∀ s ∈ p, s.name ≠ [] ∧ s.name.all nameChar = true ∧
      ∀ k ∈ s.keys, k.1.all nameChar = true ∧ Plain k.2) :
    parseSegs n (render p) = some p := by
  induction p generalizing n with
  | nil =>
    cases n with
    | zero => simp at hn
    | succ n => simp [parseSegs, render]
  | cons s p ih =>
    cases n with
    | zero => simp at hn
    | succ n =>
      obtain ⟨h1, h2, h3⟩ := h s (by simp)
      have h2' : ∀ x ∈ s.name, nameChar x = true := by simpa using h2
      have e : render (s :: p) = '/' :: (s.name ++ (s.keys.flatMap renderKey ++ render p)) := by
        simp [render, renderSeg]
      rw [e]
      unfold parseSegs
      simp only
      have hb : ∀ x r, s.keys.flatMap renderKey ++ render p = x :: r → nameChar x = false := by
        intro x r hx
        cases hks : s.keys with
        | nil =>
          rw [hks] at hx
          simp only [List.flatMap_nil, List.nil_append] at hx
          rcases render_next p with h0 | ⟨r', h0⟩
          · rw [h0] at hx; simp at hx
          · rw [h0] at hx
            simp only [List.cons.injEq] at hx
            rw [← hx.1]; decide
        | cons k ks =>
          rw [hks] at hx
          simp only [List.flatMap_cons, renderKey, List.cons_append, List.cons.injEq] at hx
          rw [← hx.1]; decide
      rw [takeWhile_append_stop nameChar s.name _ h2' hb,
        dropWhile_append_stop nameChar s.name _ h2' hb]
      rw [if_neg (by simpa using h1)]
      rw [parsePreds_render s.keys (render p) _ (by
        have := keys_length_le s.keys
        rw [List.length_append, List.length_append]; omega)
        (fun k hk => (h3 k hk).1) (fun k hk => (h3 k hk).2) (render_next p)]
      simp only
      rw [ih n (by simp at hn; omega) (fun x hx => h x (by simp [hx]))]
      simp

theorem length_le_render (p : Path) : p.length ≤ (render p).length := by
  induction p with
  | nil => simp
  | cons s p ih =>
    have e : render (s :: p) = renderSeg s ++ render p := by simp [render]
    rw [e, List.length_append]
    have : 1 ≤ (renderSeg s).length := by simp [renderSeg]
    simp only [List.length_cons]; omega

/-- A path whose keys can be quoted is read back as it was written. -/
theorem parse_render (p : Path)
    (h : ∀ s ∈ p, s.name ≠ [] ∧ s.name.all nameChar = true ∧
      ∀ k ∈ s.keys, k.1.all nameChar = true ∧ Plain k.2) :
    parse (render p) = some p := by
  unfold parse
  exact parseSegs_render p _ (by have := length_le_render p; omega) h

/-! ### Filling a format -/

theorem fill_append (a b : Text) (ns : List Text) (h : '%' ∉ a) :
    fill (a ++ b) ns = a ++ fill b ns := by
  induction a with
  | nil => rfl
  | cons c a ih =>
    have hc : c ≠ '%' := by rintro rfl; simp at h
    have ha : '%' ∉ a := by intro hx; exact h (by simp [hx])
    have e : fill (c :: (a ++ b)) ns = c :: fill (a ++ b) ns := by
      rw [fill.eq_4]
      · intros; exact hc (by assumption)
      · intros; exact hc (by assumption)
    rw [List.cons_append, e, ih ha]; rfl

theorem nameChar_noperc (t : Text) (h : t.all nameChar = true) : '%' ∉ t := by
  intro hx
  have := List.all_eq_true.mp h '%' hx
  revert this; decide

theorem fill_render (p : Path) (P : Place) (k : Nat) (names : List Text)
    (h : placeOf k p = some P) (hl : k + holes P ≤ names.length)
    (hc : ∀ s ∈ p, s.name.all nameChar = true ∧ ∀ x ∈ s.keys, x.1.all nameChar = true) :
    fill (render p) (names.drop k) = render (P.at names) := by
  induction p generalizing k P with
  | nil =>
    simp only [placeOf, Option.some.injEq] at h
    subst h
    simp [render, Place.at, fill]
  | cons s p ih =>
    obtain ⟨hn, hk⟩ := hc s (by simp)
    have hn' := nameChar_noperc _ hn
    have e : render (s :: p) = ('/' :: s.name) ++ (s.keys.flatMap renderKey ++ render p) := by
      simp [render, renderSeg]
    have hsl : '%' ∉ '/' :: s.name := by
      simp only [List.mem_cons, not_or]; exact ⟨by decide, hn'⟩
    have hc' : ∀ s ∈ p, s.name.all nameChar = true ∧ ∀ x ∈ s.keys, x.1.all nameChar = true :=
      fun x hx => hc x (by simp [hx])
    rw [e, fill_append _ _ _ hsl]
    obtain ⟨nm, keys⟩ := s
    match keys, h, hk with
    | [], h, _ =>
      simp only [placeOf, Option.map_eq_some_iff] at h
      obtain ⟨Q, hQ, rfl⟩ := h
      simp only [holes] at hl
      simp only [List.flatMap_nil, List.nil_append]
      rw [ih Q k hQ hl hc']
      simp [Place.at, render, renderSeg]
    | [(kn, v)], h, hk =>
      simp only [placeOf] at h
      split at h
      next hv =>
        simp only [Option.map_eq_some_iff] at h
        obtain ⟨Q, hQ, rfl⟩ := h
        simp only [holes] at hl
        have hkn := nameChar_noperc _ (hk (kn, v) (by simp))
        have e2 : List.flatMap renderKey [(kn, v)] ++ render p =
            ('[' :: (kn ++ ['=', '\''])) ++ (v ++ (['\'', ']'] ++ render p)) := by
          simp [renderKey]
        have hb : '%' ∉ '[' :: (kn ++ ['=', '\'']) := by
          simp only [List.mem_cons, List.mem_append, not_or]
          exact ⟨by decide, hkn, by decide⟩
        simp only at e2 ⊢
        rw [e2, fill_append _ _ _ hb]
        have hd : names.drop k = names.getD k [] :: names.drop (k + 1) := by
          rw [List.drop_eq_getElem_cons (by omega)]
          simp [List.getD, List.getElem?_eq_getElem (show k < names.length by omega)]
        have hf : fill (v ++ (['\'', ']'] ++ render p)) (names.drop k) =
            names.getD k [] ++ fill (['\'', ']'] ++ render p) (names.drop (k + 1)) := by
          rw [hd]
          rcases hv with rfl | rfl <;> rfl
        rw [hf, fill_append _ _ _ (by decide)]
        rw [ih Q (k + 1) hQ (by omega) hc']
        simp [Place.at, render, renderSeg, renderKey]
      next => simp at h
    | _ :: _ :: _, h, _ => simp [placeOf] at h

theorem placeOf_at (p : Path) (P : Place) (k : Nat) (names : List Text)
    (h : placeOf k p = some P)
    (hc : ∀ s ∈ p, s.name ≠ [] ∧ s.name.all nameChar = true ∧
      ∀ x ∈ s.keys, x.1.all nameChar = true)
    (hp : ∀ t ∈ names, Plain t) :
    ∀ s ∈ P.at names, s.name ≠ [] ∧ s.name.all nameChar = true ∧
      ∀ k ∈ s.keys, k.1.all nameChar = true ∧ Plain k.2 := by
  induction p generalizing k P with
  | nil =>
    simp only [placeOf, Option.some.injEq] at h
    subst h
    simp [Place.at]
  | cons s p ih =>
    obtain ⟨h1, h2, h3⟩ := hc s (by simp)
    have hc' : ∀ s ∈ p, s.name ≠ [] ∧ s.name.all nameChar = true ∧
        ∀ x ∈ s.keys, x.1.all nameChar = true := fun x hx => hc x (by simp [hx])
    obtain ⟨nm, keys⟩ := s
    match keys, h, h3 with
    | [], h, _ =>
      simp only [placeOf, Option.map_eq_some_iff] at h
      obtain ⟨Q, hQ, rfl⟩ := h
      intro s hs
      simp only [Place.at, List.map_cons, List.mem_cons] at hs
      rcases hs with rfl | hs
      · exact ⟨h1, h2, by simp⟩
      · exact ih Q k hQ hc' s hs
    | [(kn, v)], h, h3 =>
      simp only [placeOf] at h
      split at h
      · simp only [Option.map_eq_some_iff] at h
        obtain ⟨Q, hQ, rfl⟩ := h
        intro s hs
        simp only [Place.at, List.map_cons, List.mem_cons] at hs
        rcases hs with rfl | hs
        · refine ⟨h1, h2, ?_⟩
          intro x hx
          simp only [List.mem_singleton] at hx
          subst hx
          refine ⟨h3 (kn, v) (by simp), ?_⟩
          simp only [List.getD]
          cases hg : names[k]? with
          | none => simp [Plain]
          | some t => exact hp t (List.mem_of_getElem? hg)
        · exact ih Q (k + 1) hQ hc' s hs
      · simp at h
    | _ :: _ :: _, h, _ => simp [placeOf] at h

/-- A format that means a place gives the path of that place for all names without apostrophes. -/
theorem parse_fill (fmt : Text) (P : Place) (names : List Text) (h : place fmt = some P)
    (hl : holes P ≤ names.length) (hp : ∀ t ∈ names, Plain t) :
    parse (fill fmt names) = some (P.at names) := by
  unfold place at h
  split at h
  · simp at h
  · next p _ =>
    split at h
    next hc =>
      obtain ⟨hr, hc⟩ := hc
      have hc' : ∀ s ∈ p, s.name ≠ [] ∧ s.name.all nameChar = true ∧
          ∀ x ∈ s.keys, x.1.all nameChar = true := by
        intro s hs
        have := List.all_eq_true.mp hc s hs
        simp only [Bool.and_eq_true] at this
        refine ⟨by simpa using this.1.1, this.1.2, ?_⟩
        intro x hx
        exact List.all_eq_true.mp this.2 x hx
      have := fill_render p P 0 names h (by omega) (fun s hs => ⟨(hc' s hs).2.1, (hc' s hs).2.2⟩)
      rw [← hr]
      rw [List.drop_zero] at this
      rw [this]
      exact parse_render _ (placeOf_at p P 0 names h hc' hp)
    next => simp at h

/-! ### Data nodes -/

theorem found_iff (t : List Node) (q : Path) : found t q = true ↔ ∃ n ∈ t, n.path = q := by
  simp [found]

theorem mem_missing (t : List Node) (p : Path) (n : Node) :
    n ∈ missing t p ↔ n.path ≠ [] ∧ n.path <+: p ∧ found t n.path = false ∧ n.value = none := by
  unfold missing
  simp only [List.mem_filterMap, List.mem_map, List.mem_range]
  constructor
  · rintro ⟨q, ⟨i, hi, rfl⟩, h⟩
    split at h
    · simp at h
    · next hf =>
      simp only [Option.some.injEq] at h
      subst h
      refine ⟨?_, List.take_prefix _ _, by simpa [found] using hf, rfl⟩
      simp only [ne_eq, List.take_eq_nil_iff, not_or]
      refine ⟨by omega, ?_⟩
      rintro rfl
      simp at hi
  · rintro ⟨h1, h2, h3, h4⟩
    refine ⟨n.path, ⟨n.path.length - 1, ?_, ?_⟩, ?_⟩
    · have := h2.length_le
      have : 0 < n.path.length := List.length_pos_iff.mpr h1
      omega
    · have : 0 < n.path.length := List.length_pos_iff.mpr h1
      rw [show n.path.length - 1 + 1 = n.path.length by omega]
      exact (List.prefix_iff_eq_take.mp h2).symm
    · rw [if_neg]
      · cases n; simp_all
      · unfold found at h3; rw [h3]; simp

theorem newPath_some {S : Schema} {t t' : List Node} {p : Path} {v : Option Text}
    (h : newPath S t p v = some t') : S.valid p v = true ∧ t' = (t ++ missing t p).map
      (fun n => if n.path = p ∧ v.isSome then { n with value := v } else n) := by
  unfold newPath at h
  split at h
  · next hv => exact ⟨hv, by simpa using h.symm⟩
  · simp at h

/-- What is in the data after `lyd_new_path`: what was there, and nodes of the new path. -/
theorem newPath_mem {S : Schema} {t t' : List Node} {p : Path} {v : Option Text}
    (h : newPath S t p v = some t') (n : Node) (hn : n ∈ t') :
    n ∈ t ∨ (n.path <+: p ∧ (n.value = none ∨ n.path = p)) := by
  rw [(newPath_some h).2, List.mem_map] at hn
  obtain ⟨m, hm, rfl⟩ := hn
  rw [List.mem_append, mem_missing] at hm
  split
  · next hc => exact .inr ⟨by simp [hc.1], .inr hc.1⟩
  · rcases hm with hm | hm
    · exact .inl hm
    · exact .inr ⟨hm.2.1, .inl hm.2.2.2⟩

theorem newPath_keep {S : Schema} {t t' : List Node} {p : Path} {v : Option Text}
    (h : newPath S t p v = some t') (n : Node) (hn : n ∈ t) (hp : n.path ≠ p) : n ∈ t' := by
  rw [(newPath_some h).2, List.mem_map]
  exact ⟨n, by simp [hn], by simp [hp]⟩

theorem newPath_found {S : Schema} {t t' : List Node} {p : Path} {v : Option Text}
    (h : newPath S t p v = some t') (q : Path) :
    found t' q = true ↔ found t q = true ∨ (q ≠ [] ∧ q <+: p) := by
  have hpath : ∀ m : Node, (if m.path = p ∧ v.isSome then { m with value := v } else m).path
      = m.path := by intro m; split <;> rfl
  rw [(newPath_some h).2, found_iff]
  constructor
  · rintro ⟨n, hn, rfl⟩
    rw [List.mem_map] at hn
    obtain ⟨m, hm, rfl⟩ := hn
    rw [hpath]
    rw [List.mem_append, mem_missing] at hm
    rcases hm with hm | hm
    · exact .inl ((found_iff _ _).mpr ⟨m, hm, rfl⟩)
    · exact .inr ⟨hm.1, hm.2.1⟩
  · intro hq
    by_cases hf : found t q = true
    · obtain ⟨m, hm, rfl⟩ := (found_iff _ _).mp hf
      exact ⟨_, List.mem_map.mpr ⟨m, by simp [hm], rfl⟩, hpath m⟩
    · rcases hq with hq | ⟨h1, h2⟩
      · exact absurd hq hf
      · refine ⟨_, List.mem_map.mpr ⟨⟨q, none⟩, ?_, rfl⟩, hpath _⟩
        rw [List.mem_append, mem_missing]
        exact .inr ⟨h1, h2, by simpa using hf, rfl⟩

theorem mem_freeTree (t : List Node) (p : Path) (n : Node) :
    n ∈ freeTree t p ↔ n ∈ t ∧ ¬ p <+: n.path := by
  unfold freeTree
  rw [List.mem_filter, ← List.isPrefixOf_iff_prefix]
  simp only [Bool.not_eq_true', Bool.not_eq_true]

theorem found_freeTree (t : List Node) (p q : Path) :
    found (freeTree t p) q = true ↔ found t q = true ∧ ¬ p <+: q := by
  rw [found_iff, found_iff]
  constructor
  · rintro ⟨n, hn, rfl⟩
    rw [mem_freeTree] at hn
    exact ⟨⟨n, hn.1, rfl⟩, hn.2⟩
  · rintro ⟨⟨n, hn, rfl⟩, h⟩
    exact ⟨n, (mem_freeTree _ _ _).mpr ⟨hn, h⟩, rfl⟩

/-- In the data each node has its parents. -/
def Closed (t : List Node) : Prop :=
  ∀ n ∈ t, ∀ q, q ≠ [] → q <+: n.path → found t q = true

theorem newPath_closed {S : Schema} {t t' : List Node} {p : Path} {v : Option Text}
    (h : newPath S t p v = some t') (hc : Closed t) : Closed t' := by
  intro n hn q hq hqp
  rw [newPath_found h]
  rcases newPath_mem h n hn with hn | ⟨hn, _⟩
  · exact .inl (hc n hn q hq hqp)
  · exact .inr ⟨hq, hqp.trans hn⟩

theorem freeTree_closed {t : List Node} (p : Path) (hc : Closed t) : Closed (freeTree t p) := by
  intro n hn q hq hqp
  rw [mem_freeTree] at hn
  rw [found_freeTree]
  exact ⟨hc n hn.1 q hq hqp, fun h => hn.2 (h.trans hqp)⟩

/-! ### The calls -/

theorem setTop_ok {t : List Node} {cfg : Config} (h : setTop t = (true, cfg)) :
    cfg = some t ∧ found t top = true := by
  unfold setTop at h
  split at h
  · next hf => simp only [Prod.mk.injEq, true_and] at h; exact ⟨h.symm, hf⟩
  · simp at h

theorem setTop_found {t : List Node} (h : found t top = true) : setTop t = (true, some t) := by
  unfold setTop; rw [if_pos h]

/-- The value a call creates a node with; `none` if it creates none. -/
def srcVal (vals : List (Option Text)) : Src → Option (Option Text)
  | .const v => some (some v)
  | .null => some none
  | .arg i => (vals.getD i none).map some
  | .opt i => (vals.getD i none).map some

/-- Whether a call may be left out. -/
def Src.isOpt : Src → Bool
  | .opt _ => true
  | _ => false

theorem step_create (S : Schema) (names : List Text) (vals : List (Option Text)) (cfg : Config)
    (f : Text) (s : Src) :
    step S names vals cfg (.create f s) =
      match srcVal vals s with
      | some v => create S cfg (fill f names) v
      | none => (s.isOpt, cfg) := by
  cases s with
  | const v => rfl
  | null => rfl
  | arg i => simp only [step, srcVal, Src.isOpt]; cases vals.getD i none <;> rfl
  | opt i => simp only [step, srcVal, Src.isOpt]; cases vals.getD i none <;> rfl

theorem create_ok {S : Schema} {cfg cfg' : Config} {path : Text} {p : Path} {v : Option Text}
    (hp : parse path = some p) (h : create S cfg path v = (true, cfg')) :
    ∃ t', cfg' = some t' ∧ newPath S (cfg.getD []) p v = some t' ∧ found t' top = true := by
  unfold create at h
  rw [hp] at h
  simp only at h
  split at h
  · simp at h
  · next t ht =>
    obtain ⟨h1, h2⟩ := setTop_ok h
    exact ⟨t, h1, ht, h2⟩

theorem delete_ok {cfg cfg' : Config} {path : Text} {p : Path}
    (hp : parse path = some p) (h : delete cfg path = (true, cfg')) :
    ∃ t, cfg = some t ∧ found t p = true ∧ cfg' = some (freeTree t p) ∧
      found (freeTree t p) top = true := by
  unfold delete at h
  split at h
  · simp at h
  · next t =>
    rw [hp] at h
    simp only at h
    split at h
    · next hf =>
      obtain ⟨h1, h2⟩ := setTop_ok h
      exact ⟨t, rfl, hf, h1, h2⟩
    · simp at h

theorem checkDelete_ok {S : Schema} {cfg cfg' : Config} {path : Text} {p : Path}
    (hp : parse path = some p) (h : checkDelete S cfg path = (true, cfg')) :
    ∃ t, cfg = some t ∧ ((found t p = true ∧ cfg' = some (freeTree t p) ∧
      found (freeTree t p) top = true) ∨ (found t p = false ∧ cfg' = some t)) := by
  unfold checkDelete at h
  split at h
  · simp at h
  · next t =>
    rw [hp] at h
    simp only at h
    split at h
    · simp at h
    · split at h
      · next hf =>
        obtain ⟨h1, h2⟩ := setTop_ok h
        exact ⟨t, rfl, .inl ⟨hf, h1, h2⟩⟩
      · next hf =>
        simp only [Prod.mk.injEq, true_and] at h
        exact ⟨t, rfl, .inr ⟨by simpa using hf, h.symm⟩⟩

/-- The place of the node a call is about. -/
def Op.place (o : Op) : Option Place := ConfUtil.place o.fmt

/-- The names in a place are there and can be quoted. -/
def Good (names : List Text) (P : Place) : Prop :=
  holes P ≤ names.length ∧ ∀ t ∈ names, Plain t

theorem op_parse {o : Op} {P : Place} {names : List Text} (h : o.place = some P)
    (hg : Good names P) : parse (fill o.fmt names) = some (P.at names) :=
  parse_fill o.fmt P names h hg.1 hg.2

theorem at_prefix {P Q : Place} (h : P <+: Q) (names : List Text) : P.at names <+: Q.at names :=
  h.map _

/-- The node names of one place are not those at the beginning of another. -/
def apart (P Q : Place) : Bool := !(P.map (·.1)).isPrefixOf (Q.map (·.1))

theorem at_names (P : Place) (names : List Text) :
    (P.at names).map Seg.name = P.map (·.1) := by
  simp [Place.at, Function.comp_def]

theorem apart_at {P Q : Place} (h : apart P Q = true) (names : List Text) :
    ¬ P.at names <+: Q.at names := by
  intro hp
  have := hp.map Seg.name
  rw [at_names, at_names] at this
  rw [← List.isPrefixOf_iff_prefix] at this
  simp [apart, this] at h

theorem at_length (P : Place) (names : List Text) : (P.at names).length = P.length := by
  simp [Place.at]

theorem at_ne_nil {P : Place} (h : P ≠ []) (names : List Text) : P.at names ≠ [] := by
  simpa [Place.at] using h

theorem not_prefix_top {P : Place} (h : 2 ≤ P.length) (names : List Text) :
    ¬ P.at names <+: top := by
  intro hp
  have := hp.length_le
  rw [at_length] at this
  simp [top] at this
  omega

/-- A call that succeeds: what becomes of the data. -/
theorem step_ok {S : Schema} {names : List Text} {vals : List (Option Text)} {cfg cfg' : Config}
    {o : Op} {P : Place} (hP : o.place = some P) (hg : Good names P)
    (h : step S names vals cfg o = (true, cfg')) :
    (∃ f s v t', o = .create f s ∧ srcVal vals s = some v ∧ cfg' = some t' ∧
      newPath S (cfg.getD []) (P.at names) v = some t' ∧ found t' top = true) ∨
    (∃ f s, o = .create f s ∧ s.isOpt = true ∧ srcVal vals s = none ∧ cfg' = cfg) ∨
    (∃ t, (∃ f, o = .delete f ∨ o = .checkDelete f) ∧ cfg = some t ∧
      found t (P.at names) = true ∧
      cfg' = some (freeTree t (P.at names)) ∧ found (freeTree t (P.at names)) top = true) ∨
    (∃ f t, o = .checkDelete f ∧ cfg = some t ∧ found t (P.at names) = false ∧
      cfg' = some t) := by
  have hp := op_parse hP hg
  cases o with
  | create f s =>
    rw [step_create] at h
    cases hv : srcVal vals s with
    | some v =>
      rw [hv] at h
      obtain ⟨t', h1, h2, h3⟩ := create_ok hp h
      exact .inl ⟨f, s, v, t', rfl, hv, h1, h2, h3⟩
    | none =>
      rw [hv] at h
      simp only [Prod.mk.injEq] at h
      exact .inr (.inl ⟨f, s, rfl, h.1, hv, h.2.symm⟩)
  | delete f =>
    obtain ⟨t, h1, h2, h3, h4⟩ := delete_ok hp h
    exact .inr (.inr (.inl ⟨t, ⟨f, .inl rfl⟩, h1, h2, h3, h4⟩))
  | checkDelete f =>
    obtain ⟨t, h1, ⟨h2, h3, h4⟩ | ⟨h2, h3⟩⟩ := checkDelete_ok hp h
    · exact .inr (.inr (.inl ⟨t, ⟨f, .inr rfl⟩, h1, h2, h3, h4⟩))
    · exact .inr (.inr (.inr ⟨f, t, rfl, h1, h2, h3⟩))

theorem run_cons_ok {S : Schema} {names : List Text} {vals : List (Option Text)}
    {o : Op} {os : List Op} {cfg cfg' : Config}
    (h : run S names vals (o :: os) cfg = (true, cfg')) :
    ∃ c, step S names vals cfg o = (true, c) ∧ run S names vals os c = (true, cfg') := by
  unfold run at h
  simp only at h
  split at h
  · next hs => exact ⟨_, Prod.ext hs rfl, h⟩
  · next hs => rw [h] at hs; simp at hs

theorem run_append_ok {S : Schema} {names : List Text} {vals : List (Option Text)}
    (a b : List Op) {cfg cfg' : Config}
    (h : run S names vals (a ++ b) cfg = (true, cfg')) :
    ∃ c, run S names vals a cfg = (true, c) ∧ run S names vals b c = (true, cfg') := by
  induction a generalizing cfg with
  | nil => exact ⟨cfg, rfl, h⟩
  | cons o os ih =>
    obtain ⟨c, h1, h2⟩ := run_cons_ok h
    obtain ⟨d, h3, h4⟩ := ih h2
    refine ⟨d, ?_, h4⟩
    unfold run
    simp only [h1, if_true, h3]

end Verif.ConfUtil
