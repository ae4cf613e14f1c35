import Verif.Model.AuthPath

namespace Verif.Props

open Verif.AuthPath

/-! ## C39: the authorized keys path -/

/-- The documented meaning of a format: tokens are replaced, other characters are kept, any other use of `%` has no meaning. -/
inductive Expands (u : User) : Text → Text → Prop where
  | nil : Expands u [] []
  | char (c : Char) (t out : Text) : c ≠ '%' → Expands u t out → Expands u (c :: t) (c :: out)
  | percent (t out : Text) : Expands u t out → Expands u ('%' :: '%' :: t) ('%' :: out)
  | home (t out : Text) : Expands u t out → Expands u ('%' :: 'h' :: t) (u.home ++ out)
  | name (t out : Text) : Expands u t out → Expands u ('%' :: 'u' :: t) (u.name ++ out)
  | uid (t out : Text) : Expands u t out → Expands u ('%' :: 'U' :: t) (u.uid ++ out)

/-- Some token occurs. -/
def HasToken (fmt : Text) : Prop := ∃ a b, ∃ c ∈ ['h', 'u', 'U', '%'], fmt = a ++ '%' :: c :: b

theorem enlarge_gt (need : Nat) : ∀ fuel size, need < fuel + size → need < enlarge need fuel size := by
  intro fuel
  induction fuel with
  | zero => intro size h; simpa [enlarge] using h
  | succ fuel ih =>
    intro size h
    rw [enlarge]
    split
    · exact ih _ (by omega)
    · omega

theorem append_ok (b : Buf) (s : Text) : ∃ n, append b s = some ⟨n, b.text ++ s⟩ := by
  unfold append
  have := enlarge_gt (s.length + b.text.length) (s.length + b.text.length + 1) b.size (by omega)
  simp only []
  rw [if_pos (by omega)]
  exact ⟨_, rfl⟩

/-- What the loop gives, as a relation. -/
theorem loop_spec (u : User) (fmt : Text) : ∀ b : Buf,
    (∀ out, loop u fmt false b = .ok out ↔ ∃ o, out = b.text ++ o ∧ (Expands u fmt o ∨ ∃ f, fmt = f ++ ['%'] ∧ Expands u f o)) ∧
    loop u fmt false b ≠ .ub := by
  induction h : fmt.length using Nat.strongRecOn generalizing fmt with
  | _ n ih =>
    subst h
    intro b
    refine ⟨?_, ?_⟩
    · intro out
      cases fmt with
      | nil =>
        rw [loop]
        constructor
        · intro h; cases h; exact ⟨[], by simp, .inl .nil⟩
        · rintro ⟨o, rfl, h | ⟨f, hf, -⟩⟩
          · cases h; simp
          · simp at hf
      | cons c t =>
        by_cases hc : c = '%'
        · subst hc
          rw [loop, if_pos rfl]
          cases t with
          | nil =>
            rw [loop]
            constructor
            · intro h; cases h; exact ⟨[], by simp, .inr ⟨[], rfl, .nil⟩⟩
            · rintro ⟨o, rfl, h | ⟨f, hf, h⟩⟩
              · cases h; rename_i h _; exact absurd rfl h
              · cases f with
                | nil => cases h; simp
                | cons _ f => simp at hf
          | cons d t =>
            rw [loop]
            have key : ∀ s, (∀ o, Expands u ('%' :: d :: t) o ↔ ∃ o', o = s ++ o' ∧ Expands u t o') →
                (∀ f o, Expands u ('%' :: d :: f) o ↔ ∃ o', o = s ++ o' ∧ Expands u f o') →
                ((match append b s with | none => Res.ub | some b => loop u t false b) = .ok out ↔
                  ∃ o, out = b.text ++ o ∧ (Expands u ('%' :: d :: t) o ∨ ∃ f, '%' :: d :: t = f ++ ['%'] ∧ Expands u f o)) := by
              intro s h1 h2
              obtain ⟨n, hn⟩ := append_ok b s
              rw [hn]
              simp only []
              rw [(ih t.length (by simp; omega) t rfl ⟨n, b.text ++ s⟩).1 out]
              constructor
              · rintro ⟨o, rfl, h | ⟨f, rfl, h⟩⟩
                · exact ⟨s ++ o, by simp, .inl ((h1 _).mpr ⟨o, rfl, h⟩)⟩
                · exact ⟨s ++ o, by simp, .inr ⟨'%' :: d :: f, rfl, (h2 f _).mpr ⟨o, rfl, h⟩⟩⟩
              · rintro ⟨o, rfl, h | ⟨f, hf, h⟩⟩
                · obtain ⟨o', rfl, h'⟩ := (h1 o).mp h
                  exact ⟨o', by simp, .inl h'⟩
                · cases f with
                  | nil => simp at hf
                  | cons x f =>
                    simp at hf
                    obtain ⟨rfl, hf⟩ := hf
                    cases f with
                    | nil =>
                      cases h; rename_i h _; exact absurd rfl h
                    | cons y f =>
                      simp at hf
                      obtain ⟨rfl, rfl⟩ := hf
                      obtain ⟨o', rfl, h'⟩ := (h2 f o).mp h
                      exact ⟨o', by simp, .inr ⟨f, rfl, h'⟩⟩
            by_cases d1 : d = '%'
            · subst d1
              simp only [if_true]
              apply key ['%'] <;>
              · intros
                constructor
                · intro h; cases h with
                  | char _ _ _ hne _ => exact absurd rfl hne
                  | percent _ o h => exact ⟨o, rfl, h⟩
                · rintro ⟨o', rfl, h⟩; exact .percent _ _ h
            by_cases d2 : d = 'h'
            · subst d2
              simp only [if_true, if_neg d1]
              apply key u.home <;>
              · intros
                constructor
                · intro h; cases h with
                  | char _ _ _ hne _ => exact absurd rfl hne
                  | home _ o h => exact ⟨o, rfl, h⟩
                · rintro ⟨o', rfl, h⟩; exact .home _ _ h
            by_cases d3 : d = 'u'
            · subst d3
              simp only [if_true, if_neg d1, if_neg d2]
              apply key u.name <;>
              · intros
                constructor
                · intro h; cases h with
                  | char _ _ _ hne _ => exact absurd rfl hne
                  | name _ o h => exact ⟨o, rfl, h⟩
                · rintro ⟨o', rfl, h⟩; exact .name _ _ h
            by_cases d4 : d = 'U'
            · subst d4
              simp only [if_true, if_neg d1, if_neg d2, if_neg d3]
              apply key u.uid <;>
              · intros
                constructor
                · intro h; cases h with
                  | char _ _ _ hne _ => exact absurd rfl hne
                  | uid _ o h => exact ⟨o, rfl, h⟩
                · rintro ⟨o', rfl, h⟩; exact .uid _ _ h
            · simp only [if_neg d1, if_neg d2, if_neg d3, if_neg d4]
              have hno : ∀ f o, ¬ Expands u ('%' :: d :: f) o := by
                intro f o h
                cases h with
                | char _ _ _ hne _ => exact hne rfl
                | percent => exact d1 rfl
                | home => exact d2 rfl
                | name => exact d3 rfl
                | uid => exact d4 rfl
              constructor
              · intro h; cases h
              · rintro ⟨o, rfl, h | ⟨f, hf, h⟩⟩
                · exact absurd h (hno _ _)
                · cases f with
                  | nil => simp at hf
                  | cons x f =>
                    simp at hf
                    obtain ⟨rfl, hf⟩ := hf
                    cases f with
                    | nil => cases h; rename_i h _; exact absurd rfl h
                    | cons y f => simp at hf; obtain ⟨rfl, rfl⟩ := hf; exact absurd h (hno _ _)
        · rw [loop, if_neg hc]
          obtain ⟨n, hn⟩ := append_ok b [c]
          rw [hn]
          simp only []
          rw [(ih t.length (by simp) t rfl ⟨n, b.text ++ [c]⟩).1 out]
          have hch : ∀ f o, Expands u (c :: f) o ↔ ∃ o', o = c :: o' ∧ Expands u f o' := by
            intro f o
            constructor
            · intro h
              cases h with
              | char _ _ o _ h => exact ⟨o, rfl, h⟩
              | percent => exact absurd rfl hc
              | home => exact absurd rfl hc
              | name => exact absurd rfl hc
              | uid => exact absurd rfl hc
            · rintro ⟨o', rfl, h⟩; exact .char _ _ _ hc h
          constructor
          · rintro ⟨o, rfl, h | ⟨f, rfl, h⟩⟩
            · exact ⟨c :: o, by simp, .inl ((hch _ _).mpr ⟨o, rfl, h⟩)⟩
            · exact ⟨c :: o, by simp, .inr ⟨c :: f, rfl, (hch _ _).mpr ⟨o, rfl, h⟩⟩⟩
          · rintro ⟨o, rfl, h | ⟨f, hf, h⟩⟩
            · obtain ⟨o', rfl, h'⟩ := (hch _ _).mp h
              exact ⟨o', by simp, .inl h'⟩
            · cases f with
              | nil => simp at hf; exact absurd hf.1 hc
              | cons x f =>
                simp at hf
                obtain ⟨rfl, rfl⟩ := hf
                obtain ⟨o', rfl, h'⟩ := (hch _ _).mp h
                exact ⟨o', by simp, .inr ⟨f, rfl, h'⟩⟩
    · cases fmt with
      | nil => simp [loop]
      | cons c t =>
        by_cases hc : c = '%'
        · subst hc
          rw [loop, if_pos rfl]
          cases t with
          | nil => simp [loop]
          | cons d t =>
            rw [loop]
            split
            · simp
            · rename_i s _
              obtain ⟨n, hn⟩ := append_ok b s
              rw [hn]
              exact (ih t.length (by simp; omega) t rfl _).2
        · rw [loop, if_neg hc]
          obtain ⟨n, hn⟩ := append_ok b [c]
          rw [hn]
          exact (ih t.length (by simp) t rfl _).2

theorem hasSub_iff (n t : Text) : hasSub n t = true ↔ ∃ a b, t = a ++ n ++ b := by
  induction t with
  | nil =>
    rw [hasSub]
    constructor
    · intro h; exact ⟨[], [], by simp at h; simp [h]⟩
    · rintro ⟨a, b, h⟩; simp at h; simp [h]
  | cons c t ih =>
    rw [hasSub, Bool.or_eq_true, ih, List.isPrefixOf_iff_prefix]
    constructor
    · rintro (⟨b, h⟩ | ⟨a, b, h⟩)
      · exact ⟨[], b, by simp [h]⟩
      · exact ⟨c :: a, b, by simp [h]⟩
    · rintro ⟨a, b, h⟩
      cases a with
      | nil => exact .inl ⟨b, by simpa using h.symm⟩
      | cons x a => simp at h; exact .inr ⟨a, b, by simp [h.2]⟩

theorem hasToken_iff (fmt : Text) :
    (hasSub "%h".toList fmt || hasSub "%U".toList fmt || hasSub "%u".toList fmt || hasSub "%%".toList fmt) = true ↔ HasToken fmt := by
  simp only [Bool.or_eq_true, hasSub_iff, HasToken]
  constructor
  · rintro (((⟨a, b, h⟩ | ⟨a, b, h⟩) | ⟨a, b, h⟩) | ⟨a, b, h⟩)
    · exact ⟨a, b, 'h', by simp, by simpa using h⟩
    · exact ⟨a, b, 'U', by simp, by simpa using h⟩
    · exact ⟨a, b, 'u', by simp, by simpa using h⟩
    · exact ⟨a, b, '%', by simp, by simpa using h⟩
  · rintro ⟨a, b, c, hc, h⟩
    simp at hc
    rcases hc with rfl | rfl | rfl | rfl
    · exact .inl (.inl (.inl ⟨a, b, by simpa using h⟩))
    · exact .inl (.inr ⟨a, b, by simpa using h⟩)
    · exact .inl (.inl (.inr ⟨a, b, by simpa using h⟩))
    · exact .inr ⟨a, b, by simpa using h⟩

theorem expands_plain (u : User) (t : Text) (h : '%' ∉ t) : Expands u t t := by
  induction t with
  | nil => exact .nil
  | cons c t ih => exact .char _ _ _ (by rintro rfl; simp at h) (ih (fun h' => h (by simp [h'])))

theorem expands_no_token (u : User) (fmt out : Text) (h : Expands u fmt out) (hn : ¬ HasToken fmt) : out = fmt := by
  induction h with
  | nil => rfl
  | char c t out _ _ ih =>
    rw [ih]
    rintro ⟨a, b, d, hd, he⟩
    exact hn ⟨c :: a, b, d, hd, by rw [he]; rfl⟩
  | percent t => exact absurd ⟨[], t, '%', by simp, rfl⟩ hn
  | home t => exact absurd ⟨[], t, 'h', by simp, rfl⟩ hn
  | name t => exact absurd ⟨[], t, 'u', by simp, rfl⟩ hn
  | uid t => exact absurd ⟨[], t, 'U', by simp, rfl⟩ hn

/-- C39, formats with a meaning: their expansion is the result, for every user, and no buffer overflows. -/
theorem keys_path_expanded (fmt out : Text) (u : User) (h : Expands u fmt out) : keysPath fmt (some u) = .ok out := by
  unfold keysPath
  split
  · exact ((loop_spec u fmt ⟨0, []⟩).1 out).mpr ⟨out, rfl, .inl h⟩
  · rename_i hn
    rw [hasToken_iff] at hn
    rw [expands_no_token u fmt out h hn]

example : keysPath "%h/.ssh/%u_%U%%".toList (some ⟨"/home/x".toList, "x".toList, "1000".toList⟩) = .ok "/home/x/.ssh/x_1000%".toList := by decide +kernel

/-- C39, partial: a format with some token is refused if it has no meaning, except for a single `%` at its end, which is ignored. Missing: that case and formats
without a token, see `keys_path_false`. Full statement: `keysPath fmt (some u) = .ok out ↔ Expands u fmt out`. -/
theorem keys_path_refused_partial (fmt : Text) (u : User) (ht : HasToken fmt) (hend : ∀ f, fmt = f ++ ['%'] → ∀ o, ¬ Expands u f o) (out : Text) :
    keysPath fmt (some u) = .ok out ↔ Expands u fmt out := by
  unfold keysPath
  rw [if_pos ((hasToken_iff fmt).mpr ht)]
  refine ((loop_spec u fmt ⟨0, []⟩).1 out).trans ?_
  constructor
  · rintro ⟨o, ho, h | ⟨f, hf, h⟩⟩
    · simpa [ho] using h
    · exact absurd h (hend f hf o)
  · intro h; exact ⟨out, rfl, .inl h⟩

example : keysPath "%h/%x".toList (some ⟨"/home/x".toList, "x".toList, "1000".toList⟩) = .err := by decide +kernel

/-- No format and no user make the code write behind its buffer. -/
theorem keys_path_memory (fmt : Text) (u : Option User) : keysPath fmt u ≠ .ub := by
  unfold keysPath
  split
  · cases u with
    | none => simp
    | some u => exact (loop_spec u fmt ⟨0, []⟩).2
  · simp

/-- C39: a wrong token is kept if there is no right one, and a `%` at the end is dropped. -/
theorem keys_path_false : ∃ u : User, keysPath "/k/%x".toList (some u) = .ok "/k/%x".toList ∧ (∀ o, ¬ Expands u "/k/%x".toList o) ∧
    keysPath "%u%".toList (some u) = .ok u.name ∧ (∀ o, ¬ Expands u "%u%".toList o) := by
  refine ⟨⟨"/h".toList, "n".toList, "1".toList⟩, by decide +kernel, ?_, by decide +kernel, ?_⟩
  · intro o h
    cases h with | char _ _ _ _ h =>
    cases h with | char _ _ _ _ h =>
    cases h with | char _ _ _ _ h =>
    cases h with | char _ _ _ h _ => exact h rfl
  · intro o h
    cases h with
    | char _ _ _ h _ => exact h rfl
    | name _ _ h => cases h with | char _ _ _ h _ => exact h rfl

end Verif.Props
