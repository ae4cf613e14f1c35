import Verif.Model.ClientOpts

namespace Verif.ClientOpts

/-- All pointers but those of `D` (freed, not yet assigned) point to blocks of
their own, and there are no other blocks. -/
structure Good (D : Slot → Prop) (s : State) : Prop where
  live : ∀ a b, ¬ D a → s.ptr a = some b → ∃ t, s.mem b = some t
  inj : ∀ a c b, ¬ D a → ¬ D c → s.ptr a = some b → s.ptr c = some b → a = c
  own : ∀ b t, s.mem b = some t → ∃ a, ¬ D a ∧ s.ptr a = some b
  fresh : ∀ b, s.next ≤ b → s.mem b = none

theorem Good.congr {D E : Slot → Prop} {s : State} (g : Good D s) (h : ∀ c, D c ↔ E c) : Good E s := by
  have : D = E := funext fun c => propext (h c)
  exact this ▸ g

theorem good_new : Good (fun _ => False) State.new :=
  ⟨by intro a b _ h; simp [State.new] at h, by intro a c b _ _ h; simp [State.new] at h,
   by intro b t h; simp [State.new] at h, by intro b _; rfl⟩

theorem release_good {D : Slot → Prop} {s : State} (g : Good D s) (a : Slot) (ha : ¬ D a) :
    ∃ s', release a s = some s' ∧ Good (fun c => D c ∨ c = a) s' ∧ s'.ptr = s.ptr ∧
      ∀ c b, ¬ D c → c ≠ a → s.ptr c = some b → s'.mem b = s.mem b := by
  cases hp : s.ptr a with
  | none =>
    refine ⟨s, by simp only [release, hp], ?_, rfl, fun _ _ _ _ _ => rfl⟩
    refine ⟨?_, ?_, ?_, g.fresh⟩
    · intro c b hc h; exact g.live c b (fun x => hc (Or.inl x)) h
    · intro c d b hc hd h h'
      exact g.inj c d b (fun x => hc (Or.inl x)) (fun x => hd (Or.inl x)) h h'
    · intro b t h
      obtain ⟨c, hc, h'⟩ := g.own b t h
      refine ⟨c, ?_, h'⟩
      rintro (x | x)
      · exact hc x
      · rw [x, hp] at h'; cases h'
  | some k =>
    obtain ⟨t, ht⟩ := g.live a k ha hp
    refine ⟨{ s with mem := fun c => if c = k then none else s.mem c },
      by simp only [release, hp, ht], ?_, rfl, ?_⟩
    · refine ⟨?_, ?_, ?_, ?_⟩
      · intro c b hc h
        have hne : b ≠ k := fun e => hc (Or.inr (g.inj c a b (fun x => hc (Or.inl x)) ha h (e ▸ hp)))
        simp only [if_neg hne]
        exact g.live c b (fun x => hc (Or.inl x)) h
      · intro c d b hc hd h h'
        exact g.inj c d b (fun x => hc (Or.inl x)) (fun x => hd (Or.inl x)) h h'
      · intro b t' h
        by_cases hb : b = k
        · simp [hb] at h
        · simp only [if_neg hb] at h
          obtain ⟨c, hc, h'⟩ := g.own b t' h
          refine ⟨c, ?_, h'⟩
          rintro (x | x)
          · exact hc x
          · rw [x, hp] at h'; exact hb (Option.some.inj h').symm
      · intro b hb
        by_cases e : b = k
        · simp [e]
        · simp only [if_neg e]; exact g.fresh b hb
    · intro c b hc hca h
      have hne : b ≠ k := fun e => hca (g.inj c a b hc ha h (e ▸ hp))
      simp only [if_neg hne]

theorem clear_good {D : Slot → Prop} {s : State} (g : Good D s) (a : Slot) (ha : D a) :
    Good (fun c => D c ∧ c ≠ a) (clear a s) := by
  refine ⟨?_, ?_, ?_, g.fresh⟩
  · intro c b hc h
    by_cases e : c = a
    · simp [clear, e] at h
    · simp only [clear, if_neg e] at h ⊢
      exact g.live c b (fun x => hc ⟨x, e⟩) h
  · intro c d b hc hd h h'
    by_cases e : c = a
    · simp [clear, e] at h
    · by_cases e' : d = a
      · simp [clear, e'] at h'
      · simp only [clear, if_neg e, if_neg e'] at h h'
        exact g.inj c d b (fun x => hc ⟨x, e⟩) (fun x => hd ⟨x, e'⟩) h h'
  · intro b t h
    obtain ⟨c, hc, h'⟩ := g.own b t h
    have e : c ≠ a := fun e => hc (e ▸ ha)
    exact ⟨c, fun x => hc x.1, by simp only [clear, if_neg e]; exact h'⟩

theorem put_good {D : Slot → Prop} {s : State} (g : Good D s) (a : Slot) (ha : D a) (t : List Char) :
    Good (fun c => D c ∧ c ≠ a)
      { ptr := fun c => if c = a then some s.next else s.ptr c
        mem := fun c => if c = s.next then some t else s.mem c
        next := s.next + 1 } := by
  have hlt : ∀ c b, ¬ D c → s.ptr c = some b → b ≠ s.next := by
    intro c b hc h e
    obtain ⟨t', h'⟩ := g.live c b hc h
    rw [e, g.fresh s.next (Nat.le_refl _)] at h'
    cases h'
  refine ⟨?_, ?_, ?_, ?_⟩
  · intro c b hc h
    by_cases e : c = a
    · simp only [if_pos e, Option.some.injEq] at h
      exact ⟨t, by simp only [h, if_true]⟩
    · simp only [if_neg e] at h
      have hc' : ¬ D c := fun x => hc ⟨x, e⟩
      simp only [if_neg (hlt c b hc' h)]
      exact g.live c b hc' h
  · intro c d b hc hd h h'
    by_cases e : c = a
    · by_cases e' : d = a
      · rw [e, e']
      · simp only [if_pos e, if_neg e', Option.some.injEq] at h h'
        exact absurd h.symm (hlt d b (fun x => hd ⟨x, e'⟩) h')
    · by_cases e' : d = a
      · simp only [if_neg e, if_pos e', Option.some.injEq] at h h'
        exact absurd h'.symm (hlt c b (fun x => hc ⟨x, e⟩) h)
      · simp only [if_neg e, if_neg e'] at h h'
        exact g.inj c d b (fun x => hc ⟨x, e⟩) (fun x => hd ⟨x, e'⟩) h h'
  · intro b t' h
    by_cases e : b = s.next
    · exact ⟨a, fun x => x.2 rfl, by simp only [e, if_true]⟩
    · simp only [if_neg e] at h
      obtain ⟨c, hc, h'⟩ := g.own b t' h
      have e' : c ≠ a := fun e => hc (e ▸ ha)
      exact ⟨c, fun x => hc x.1, by simp only [if_neg e']; exact h'⟩
  · intro b hb
    have e : b ≠ s.next := by simp only at hb; omega
    simp only [if_neg e]
    exact g.fresh b (by simp only at hb; omega)

/-- A good argument while the settings `E` are replaced: NULL, memory of the
caller, or memory of another setting. -/
def Fine (E : Slot → Prop) (x : Arg) (s : State) : Prop :=
  x = .null ∨ (∃ t, x = .text t) ∨ ∃ b d, x = .block b ∧ ¬ E d ∧ s.ptr d = some b

theorem fine_read {D E : Slot → Prop} {s : State} (g : Good D s) (hDE : ∀ c, D c → E c) {x : Arg}
    (h : Fine E x s) : x = .null ∨ ∃ t, x.read s = some t := by
  rcases h with h | ⟨t, h⟩ | ⟨b, d, h, hd, hp⟩
  · exact Or.inl h
  · exact Or.inr ⟨t, by rw [h]; rfl⟩
  · obtain ⟨t, ht⟩ := g.live d b (fun x => hd (hDE d x)) hp
    exact Or.inr ⟨t, by rw [h]; exact ht⟩

theorem release_fine {D E : Slot → Prop} {s s' : State} (hDE : ∀ c, D c → E c) {a : Slot} (hE : E a)
    (hp : s'.ptr = s.ptr)
    (hm : ∀ c b, ¬ D c → c ≠ a → s.ptr c = some b → s'.mem b = s.mem b) {x : Arg} (h : Fine E x s) :
    Fine E x s' ∧ x.read s' = x.read s := by
  rcases h with h | ⟨t, h⟩ | ⟨b, d, h, hd, hq⟩
  · subst h; exact ⟨Or.inl rfl, rfl⟩
  · subst h; exact ⟨Or.inr (Or.inl ⟨t, rfl⟩), rfl⟩
  · subst h
    refine ⟨Or.inr (Or.inr ⟨b, d, rfl, hd, hp ▸ hq⟩), ?_⟩
    exact hm d b (fun x => hd (hDE d x)) (fun e => hd (e ▸ hE)) hq

theorem release_shown {D : Slot → Prop} {s s' : State} {a : Slot} (hp : s'.ptr = s.ptr)
    (hm : ∀ c b, ¬ D c → c ≠ a → s.ptr c = some b → s'.mem b = s.mem b) (c : Slot)
    (hc : ¬ D c) (hca : c ≠ a) : shown c s' = shown c s := by
  unfold shown
  rw [hp]
  cases h : s.ptr c with
  | none => rfl
  | some b => exact hm c b hc hca h

theorem storeOpt_good {D E : Slot → Prop} {s : State} (g : Good D s) (hDE : ∀ c, D c → E c)
    (a : Slot) (ha : D a) (x : Arg) (ok : Bool) (hx : Fine E x s) :
    ∃ r s', storeOpt a x ok s = some (r, s') ∧ Good (fun c => D c ∧ c ≠ a) s' ∧
      (r = false ↔ x ≠ .null ∧ ok = false) ∧
      shown a s' = (if r then x.read s else none) ∧
      (∀ c, ¬ D c → shown c s' = shown c s) ∧
      (∀ y, Fine E y s → Fine E y s' ∧ y.read s' = y.read s) := by
  have hclr : ∀ y, Fine E y s → Fine E y (clear a s) ∧ y.read (clear a s) = y.read s := by
    intro y hy
    refine ⟨?_, by cases y <;> rfl⟩
    rcases hy with h | h | ⟨b, d, h, hd, hp⟩
    · exact Or.inl h
    · exact Or.inr (Or.inl h)
    · refine Or.inr (Or.inr ⟨b, d, h, hd, ?_⟩)
      have e : d ≠ a := fun e => hd (e ▸ hDE a ha)
      simp only [clear, if_neg e]; exact hp
  have hsh : ∀ c, ¬ D c → shown c (clear a s) = shown c s := by
    intro c hc
    have e : c ≠ a := fun e => hc (e ▸ ha)
    simp only [shown, clear, if_neg e]
  have hclra : shown a (clear a s) = none := by simp [shown, clear]
  have key : ∀ t, x.read s = some t → x ≠ .null →
      ∃ r s', store a x ok s = some (r, s') ∧ Good (fun c => D c ∧ c ≠ a) s' ∧
      (r = false ↔ x ≠ .null ∧ ok = false) ∧
      shown a s' = (if r then x.read s else none) ∧
      (∀ c, ¬ D c → shown c s' = shown c s) ∧
      (∀ y, Fine E y s → Fine E y s' ∧ y.read s' = y.read s) := by
    intro t ht hne
    cases ok with
    | false =>
      refine ⟨false, clear a s, by simp [store, ht], clear_good g a ha, by simp [hne], ?_, hsh, hclr⟩
      simp [hclra]
    | true =>
      refine ⟨true, _, by simp only [store, ht, if_true], put_good g a ha t, by simp, ?_, ?_, ?_⟩
      · simp [shown, ht]
      · intro c hc
        have e : c ≠ a := fun e => hc (e ▸ ha)
        simp only [shown, if_neg e]
        cases h : s.ptr c with
        | none => rfl
        | some b =>
          obtain ⟨t', h'⟩ := g.live c b hc h
          have : b ≠ s.next := by
            intro e; rw [e, g.fresh _ (Nat.le_refl _)] at h'; cases h'
          simp only [if_neg this]
      · intro y hy
        rcases hy with h | ⟨t', h⟩ | ⟨b, d, h, hd, hp⟩
        · subst h; exact ⟨Or.inl rfl, rfl⟩
        · subst h; exact ⟨Or.inr (Or.inl ⟨t', rfl⟩), rfl⟩
        · subst h
          have e : d ≠ a := fun e => hd (e ▸ hDE a ha)
          obtain ⟨t', h'⟩ := g.live d b (fun x => hd (hDE d x)) hp
          have hb : b ≠ s.next := by
            intro e; rw [e, g.fresh _ (Nat.le_refl _)] at h'; cases h'
          refine ⟨Or.inr (Or.inr ⟨b, d, rfl, hd, by simp only [if_neg e]; exact hp⟩), ?_⟩
          simp only [Arg.read, if_neg hb]
  cases x with
  | null =>
    refine ⟨true, clear a s, rfl, clear_good g a ha, by simp, ?_, hsh, hclr⟩
    simp [hclra, Arg.read]
  | text t => exact key t rfl (by simp)
  | block b =>
    rcases fine_read g hDE hx with h | ⟨t, h⟩
    · cases h
    · exact key t h (by simp)

/-- Replacing one text. -/
theorem replaceOne_good {s : State} (g : Good (fun _ => False) s) (a : Slot) (x : Arg) (ok : Bool)
    (hx : Fine (fun c => c = a) x s) :
    ∃ r s', replaceOne a x ok s = some (r, s') ∧ Good (fun _ => False) s' ∧
      (r = false ↔ x ≠ .null ∧ ok = false) ∧
      shown a s' = (if r then x.read s else none) ∧
      (∀ c, c ≠ a → shown c s' = shown c s) := by
  obtain ⟨s₁, h₁, g₁, p₁, m₁⟩ := release_good g a (fun x => x)
  have f₁ := release_fine (E := fun c => c = a) (fun c h => h.elim) rfl p₁ m₁ hx
  obtain ⟨r, s₂, h₂, g₂, hr, hs, ho, _⟩ := storeOpt_good (E := fun c => c = a) g₁
    (fun c h => h.elim (fun h => h.elim) id) a (Or.inr rfl) x ok f₁.1
  refine ⟨r, s₂, by simp only [replaceOne, h₁]; exact h₂, g₂.congr ?_, hr, ?_, ?_⟩
  · intro c; constructor
    · rintro ⟨h | h, h'⟩
      · exact h
      · exact h' h
    · exact fun h => h.elim
  · rw [hs, f₁.2]
  · intro c hc
    rw [ho c (fun h => h.elim (fun h => h) hc)]
    exact release_shown p₁ m₁ c (fun h => h) hc

/-- Replacing two texts, the first assignment succeeding. -/
theorem replaceTwo_good {s : State} (g : Good (fun _ => False) s) (a b : Slot) (hab : a ≠ b) (x y : Arg)
    (ok₁ ok₂ : Bool) (hx : Fine (fun c => c = a ∨ c = b) x s) (hy : Fine (fun c => c = a ∨ c = b) y s)
    (hok : x = .null ∨ ok₁ = true) :
    ∃ r s', replaceTwo a b x y ok₁ ok₂ s = some (r, s') ∧ Good (fun _ => False) s' ∧
      (r = false ↔ y ≠ .null ∧ ok₂ = false) ∧
      shown a s' = x.read s ∧ shown b s' = (if r then y.read s else none) ∧
      (∀ c, c ≠ a → c ≠ b → shown c s' = shown c s) := by
  obtain ⟨s₁, h₁, g₁, p₁, m₁⟩ := release_good g a (fun x => x)
  have hDE₁ : ∀ c, (False ∨ c = a) → (c = a ∨ c = b) := fun c h => Or.inl (h.elim (fun h => h.elim) id)
  have fx := release_fine (E := fun c => c = a ∨ c = b) (fun c h => h.elim) (Or.inl rfl) p₁ m₁ hx
  have fy := release_fine (E := fun c => c = a ∨ c = b) (fun c h => h.elim) (Or.inl rfl) p₁ m₁ hy
  obtain ⟨s₂, h₂, g₂, p₂, m₂⟩ := release_good g₁ b (fun h => h.elim (fun h => h) (fun h => hab h.symm))
  have fx₂ := release_fine (E := fun c => c = a ∨ c = b) hDE₁ (Or.inr rfl) p₂ m₂ fx.1
  have fy₂ := release_fine (E := fun c => c = a ∨ c = b) hDE₁ (Or.inr rfl) p₂ m₂ fy.1
  have hDE₂ : ∀ c, ((False ∨ c = a) ∨ c = b) → (c = a ∨ c = b) := by
    rintro c ((h | h) | h)
    · exact h.elim
    · exact Or.inl h
    · exact Or.inr h
  obtain ⟨r₃, s₃, h₃, g₃, hr₃, hs₃, ho₃, hf₃⟩ := storeOpt_good (E := fun c => c = a ∨ c = b) g₂ hDE₂ a
    (Or.inl (Or.inr rfl)) x ok₁ fx₂.1
  have hr : r₃ = true := by
    cases r₃ with
    | true => rfl
    | false =>
      obtain ⟨h, h'⟩ := hr₃.1 rfl
      rcases hok with e | e
      · exact absurd e h
      · rw [e] at h'; cases h'
  subst hr
  obtain ⟨fy₃, ry₃⟩ := hf₃ y fy₂.1
  obtain ⟨r₄, s₄, h₄, g₄, hr₄, hs₄, ho₄, _⟩ := storeOpt_good (E := fun c => c = a ∨ c = b) g₃
    (fun c h => hDE₂ c h.1) b ⟨Or.inr rfl, Ne.symm hab⟩ y ok₂ fy₃
  refine ⟨r₄, s₄, ?_, g₄.congr ?_, hr₄, ?_, ?_, ?_⟩
  · simp only [replaceTwo, h₁, h₂, storeTwo, h₃]; exact h₄
  · intro c; constructor
    · rintro ⟨⟨(h | h) | h, h'⟩, h''⟩
      · exact h
      · exact h' h
      · exact h'' h
    · exact fun h => h.elim
  · rw [ho₄ a (fun h => h.2 rfl), hs₃]
    simp only [if_true]
    rw [fx₂.2, fx.2]
  · rw [hs₄, ry₃, fy₂.2, fy.2]
  · intro c hca hcb
    rw [ho₄ c (fun h => (hDE₂ c h.1).elim hca hcb), ho₃ c (fun h => (hDE₂ c h).elim hca hcb),
      release_shown p₂ m₂ c (fun h => (hDE₁ c h).elim hca hcb) hcb,
      release_shown p₁ m₁ c (fun h => h) hca]

theorem wipe_good (l : List Slot) : ∀ {s : State}, Good (fun _ => False) s →
    ∃ s', wipe l s = some s' ∧ Good (fun _ => False) s' ∧
      ∀ c, s'.ptr c = if c ∈ l then none else s.ptr c := by
  induction l with
  | nil => intro s g; exact ⟨s, rfl, g, by simp⟩
  | cons a l ih =>
    intro s g
    obtain ⟨s₁, h₁, g₁, p₁, _⟩ := release_good g a (fun x => x)
    have g₂ : Good (fun _ => False) (clear a s₁) := (clear_good g₁ a (Or.inr rfl)).congr (by
      intro c; constructor
      · rintro ⟨h | h, h'⟩
        · exact h
        · exact h' h
      · exact fun h => h.elim)
    obtain ⟨s₃, h₃, g₃, hp⟩ := ih g₂
    refine ⟨s₃, by simp only [wipe, h₁]; exact h₃, g₃, ?_⟩
    intro c
    rw [hp c]
    by_cases hl : c ∈ l
    · simp [hl]
    · by_cases e : c = a
      · simp [e, clear]
      · simp [hl, e, clear, p₁]

theorem destroyOrder_all (c : Slot) : c ∈ destroyOrder := by
  cases c with
  | search => decide
  | cert b => cases b <;> decide
  | key b => cases b <;> decide
  | caFile b => cases b <;> decide
  | caDir b => cases b <;> decide
  | user b => cases b <;> decide
  | hosts b => cases b <;> decide

end Verif.ClientOpts
