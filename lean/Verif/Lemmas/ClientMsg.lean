import Verif.Spec.ClientMsg

namespace Verif.ClientMsg
open Verif.Hello (Text)
open Spec

/-! ## Searching -/

theorem afterFirst_first (pat : Text) (hp : pat ≠ []) (r : Text) : ∀ u : Text, (∀ k < u.length, ¬ pat.isPrefixOf (u.drop k ++ (pat ++ r)) = true) →
    afterFirst pat (u ++ (pat ++ r)) = some r
  | [], _ => by
    obtain ⟨c, cs, rfl⟩ := List.exists_cons_of_ne_nil hp
    show afterFirst (c :: cs) (c :: (cs ++ r)) = some r
    simp only [afterFirst]
    rw [if_pos (by rw [List.isPrefixOf_iff_prefix]; exact ⟨r, by simp⟩)]
    simp
  | c :: u, h => by
    show afterFirst pat (c :: (u ++ (pat ++ r))) = some r
    simp only [afterFirst]
    rw [if_neg (by simpa using h 0 (by simp))]
    exact afterFirst_first pat hp r u (fun k hk => by simpa using h (k + 1) (by simpa using hk))

/-- A comment is skipped unless its text begins with what looks like its end. -/
theorem comment_skip (x r : Text) (hf : Free "--".toList x) (h1 : ∀ y, x ≠ '>' :: y) (h2 : ∀ y, x ≠ '-' :: '>' :: y) :
    afterFirst "-->".toList ("!--".toList ++ (x ++ ("-->".toList ++ r))) = some r := by
  have := afterFirst_first "-->".toList (by decide) r ("!--".toList ++ x) ?_
  · simpa using this
  intro k hk
  rw [List.isPrefixOf_iff_prefix]
  match k with
  | 0 => simp
  | 1 =>
    rintro ⟨s, hs⟩
    match x, h1 with
    | [], _ => simp at hs
    | c :: y, h1 =>
      simp at hs
      exact h1 y (by rw [← hs.1])
  | 2 =>
    rintro ⟨s, hs⟩
    match x, h2 with
    | [], _ => simp at hs
    | [c], _ => simp at hs
    | c :: d :: y, h2 =>
      simp at hs
      exact h2 y (by rw [← hs.1, ← hs.2.1])
  | k + 3 =>
    have hd : ("!--".toList ++ x).drop (k + 3) = x.drop k := by
      simp
    rw [hd]
    rintro ⟨s, hs⟩
    have hx := List.take_append_drop k x
    have hl : 0 < (x.drop k).length := by simp at hk ⊢; omega
    match hy : x.drop k with
    | [] => rw [hy] at hl; simp at hl
    | [c] => rw [hy] at hs; simp at hs
    | [c, d] => rw [hy] at hs; simp at hs
    | c :: d :: e :: y =>
      rw [hy] at hs hx
      simp at hs
      exact hf (x.take k) (e :: y) (by rw [← hs.1, ← hs.2.1] at hx; simpa using hx.symm)

theorem decl_skip (x r : Text) (hf : Free "?>".toList x) :
    afterFirst "?>".toList ("?xml".toList ++ (x ++ ("?>".toList ++ r))) = some r := by
  have := afterFirst_first "?>".toList (by decide) r ("?xml".toList ++ x) ?_
  · simpa using this
  intro k hk
  rw [List.isPrefixOf_iff_prefix]
  match k with
  | 0 => simp
  | 1 => simp
  | 2 => simp
  | 3 => simp
  | k + 4 =>
    have hd : ("?xml".toList ++ x).drop (k + 4) = x.drop k := by
      simp
    rw [hd]
    rintro ⟨s, hs⟩
    have hx := List.take_append_drop k x
    have hl : 0 < (x.drop k).length := by simp at hk ⊢; omega
    match hy : x.drop k with
    | [] => rw [hy] at hl; simp at hl
    | [c] => rw [hy] at hs; simp at hs
    | c :: d :: y =>
      rw [hy] at hs hx
      simp at hs
      exact hf (x.take k) y (by rw [← hs.1, ← hs.2.1] at hx; simpa using hx.symm)

/-! ## The type of a message -/

/-- One round of the loop of `get_msg_type`. -/
def round : Text → Option Kind
  | '<' :: s =>
    if "!--".toList.isPrefixOf s then (afterFirst "-->".toList s).bind getMsgType
    else if "?xml".toList.isPrefixOf s then (afterFirst "?>".toList s).bind getMsgType
    else if "rpc-reply".toList.isPrefixOf s then some .reply
    else if "notification".toList.isPrefixOf s then some .notif
    else none
  | _ => none

theorem getMsgType_eq (t : Text) : getMsgType t = round (t.dropWhile Hello.isSpace) := by
  rw [getMsgType]
  split
  · rename_i s hs
    rw [hs]
    simp only [round]
    split
    · split
      · rename_i h; rw [h]; rfl
      · rename_i h; rw [h]; rfl
    · split
      · split
        · rename_i h; rw [h]; rfl
        · rename_i h; rw [h]; rfl
      · rfl
  · rename_i h
    unfold round
    split
    · rename_i s hs; exact absurd hs (h s)
    · rfl

theorem getMsgType_space (c : Char) (t : Text) (hc : Hello.isSpace c = true) : getMsgType (c :: t) = getMsgType t := by
  rw [getMsgType_eq, getMsgType_eq t, List.dropWhile_cons, if_pos hc]

theorem dropWhile_lt (s : Text) : ('<' :: s).dropWhile Hello.isSpace = '<' :: s := by
  rw [List.dropWhile_cons, if_neg (by decide)]

theorem getMsgType_comment (s r : Text) (h : "!--".toList.isPrefixOf s = true) (h2 : afterFirst "-->".toList s = some r) :
    getMsgType ('<' :: s) = getMsgType r := by
  rw [getMsgType_eq, dropWhile_lt]
  simp only [round]
  rw [if_pos h, h2]
  rfl

theorem getMsgType_decl (s r : Text) (h0 : "!--".toList.isPrefixOf s = false) (h : "?xml".toList.isPrefixOf s = true) (h2 : afterFirst "?>".toList s = some r) :
    getMsgType ('<' :: s) = getMsgType r := by
  rw [getMsgType_eq, dropWhile_lt]
  simp only [round]
  rw [if_neg (by simp only [h0]; decide), if_pos h, h2]
  rfl

theorem getMsgType_root (s : Text) (h0 : "!--".toList.isPrefixOf s = false) (h : "?xml".toList.isPrefixOf s = false) :
    getMsgType ('<' :: s) = if "rpc-reply".toList.isPrefixOf s then some .reply else if "notification".toList.isPrefixOf s then some .notif else none := by
  rw [getMsgType_eq, dropWhile_lt]
  simp only [round]
  rw [if_neg (by simp only [h0]; decide), if_neg (by simp only [h]; decide)]

theorem getMsgType_prolog {ok : Text → Prop} (hok : ∀ x, ok x → (∀ y, x ≠ '>' :: y) ∧ ∀ y, x ≠ '-' :: '>' :: y) {p : Text} (hp : Prolog ok p) (t : Text) :
    getMsgType (p ++ t) = getMsgType t := by
  induction hp with
  | nil => rfl
  | space c p hc _ ih =>
    rw [List.cons_append, getMsgType_space _ _ ?_, ih]
    simp at hc
    rcases hc with rfl | rfl | rfl | rfl <;> decide
  | comment x p hf hx _ ih =>
    obtain ⟨h1, h2⟩ := hok x hx
    have he : "<!--".toList ++ x ++ "-->".toList ++ p ++ t = '<' :: ("!--".toList ++ (x ++ ("-->".toList ++ (p ++ t)))) := by
      simp
    rw [he, getMsgType_comment _ (p ++ t) (by rw [List.isPrefixOf_iff_prefix]; exact ⟨_, rfl⟩) (comment_skip x (p ++ t) hf h1 h2), ih]
  | decl x p hf _ ih =>
    have he : "<?xml".toList ++ x ++ "?>".toList ++ p ++ t = '<' :: ("?xml".toList ++ (x ++ ("?>".toList ++ (p ++ t)))) := by
      simp
    rw [he, getMsgType_decl _ (p ++ t) (by simp [List.isPrefixOf]) (by rw [List.isPrefixOf_iff_prefix]; exact ⟨_, rfl⟩) (decl_skip x (p ++ t) hf), ih]

/-! ## The buffer -/

/-- Buffered texts of a type. -/
def buffered (k : Kind) (q : List (Kind × Text)) : List Text := (q.filter (fun x => x.1 = k)).map (·.2)

theorem takeBuffered_none {k : Kind} : ∀ {q : List (Kind × Text)}, takeBuffered k q = none → buffered k q = []
  | [], _ => rfl
  | (k', t) :: q, h => by
    simp only [takeBuffered] at h
    split at h
    · cases h
    · rename_i hk
      have : takeBuffered k q = none := by simpa using h
      simp only [buffered, List.filter_cons, hk, decide_false, Bool.false_eq_true, if_false]
      exact takeBuffered_none this

theorem takeBuffered_some {k : Kind} : ∀ {q q' : List (Kind × Text)} {t : Text}, takeBuffered k q = some (t, q') →
    buffered k q = t :: buffered k q' ∧ ∀ k', k' ≠ k → buffered k' q = buffered k' q'
  | [], _, _, h => by cases h
  | (k1, t1) :: q, q', t, h => by
    simp only [takeBuffered] at h
    split at h
    · rename_i hk
      cases h
      subst hk
      refine ⟨by simp [buffered], ?_⟩
      intro k' hk'
      simp only [buffered, List.filter_cons]
      rw [if_neg (by simpa using fun h => hk' h.symm)]
    · rename_i hk
      cases h2 : takeBuffered k q with
      | none => rw [h2] at h; cases h
      | some x =>
        obtain ⟨t2, q2⟩ := x
        rw [h2] at h
        simp only [Option.map_some, Option.some.injEq, Prod.mk.injEq] at h
        obtain ⟨rfl, rfl⟩ := h
        obtain ⟨h3, h4⟩ := takeBuffered_some h2
        refine ⟨?_, ?_⟩
        · simpa [buffered, hk] using h3
        · intro k' hk'
          have := h4 k' hk'
          simp only [buffered, List.filter_cons] at this ⊢
          split <;> simp [this]

end Verif.ClientMsg
