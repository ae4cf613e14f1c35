import Verif.Spec.ConfStore

/-! Lemmas for the keystore and truststore. -/

namespace Verif.ConfStore
open Verif.ConfTree (Op Meta current ownOp)

/-! ## Lists -/

theorem findIdx_of_find {α : Type} (p : α → Bool) (l : List α) (a : α) (h : l.find? p = some a) :
    ∃ i, l.findIdx? p = some i ∧ l[i]? = some a ∧ i < l.length := by
  induction l with
  | nil => simp at h
  | cons x t ih =>
    by_cases hx : p x = true
    · refine ⟨0, ?_, ?_, by simp⟩
      · simp [List.findIdx?_cons, hx]
      · simp [List.find?, hx] at h; simp [h]
    · simp only [List.find?, hx] at h
      obtain ⟨i, h1, h2, h3⟩ := ih h
      refine ⟨i + 1, ?_, ?_, ?_⟩
      · simp [List.findIdx?_cons, hx, h1]
      · simpa using h2
      · simp; omega

theorem findIdx_none_of_find {α : Type} (p : α → Bool) (l : List α) (h : l.find? p = none) : l.findIdx? p = none := by
  simp only [List.findIdx?_eq_none_iff]
  simpa using h

theorem find_key {α : Type} (key : α → Nat) (l : List α) (n : Nat) (a : α) (h : l.find? (fun x => key x == n) = some a) : key a = n := by
  have := List.find?_some h
  simpa using this

theorem find_unique {α : Type} (key : α → Nat) (l : List α) (hn : (l.map key).Nodup) (a : α) (ha : a ∈ l) :
    l.find? (fun x => key x == key a) = some a := by
  induction l with
  | nil => simp at ha
  | cons x t ih =>
    simp only [List.map_cons, List.nodup_cons] at hn
    rcases List.mem_cons.mp ha with rfl | h
    · simp [List.find?]
    · have : key x ≠ key a := fun h' => hn.1 (h' ▸ List.mem_map_of_mem (f := key) h)
      simp [List.find?, beq_false_of_ne this, ih hn.2 h]

theorem find_iff {α : Type} (key : α → Nat) (l : List α) (hn : (l.map key).Nodup) (n : Nat) (a : α) :
    l.find? (fun x => key x == n) = some a ↔ a ∈ l ∧ key a = n := by
  constructor
  · intro h; exact ⟨List.mem_of_find?_eq_some h, find_key key l n a h⟩
  · rintro ⟨h, rfl⟩; exact find_unique key l hn a h

/-- Two lists with the same members and distinct keys give the same results of searches. -/
theorem find_ext {α : Type} (key : α → Nat) (l l' : List α) (hn : (l.map key).Nodup) (hn' : (l'.map key).Nodup) (n n' : Nat)
    (h : ∀ a, (a ∈ l ∧ key a = n) ↔ (a ∈ l' ∧ key a = n')) :
    l.find? (fun x => key x == n) = l'.find? (fun x => key x == n') := by
  apply Option.ext
  intro a
  rw [find_iff key l hn, find_iff key l' hn', h]

theorem set_perm {α : Type} (t : List α) (i : Nat) (x : α) (h : i < t.length) : (t[i] :: t.set i x).Perm (x :: t) := by
  induction t generalizing i with
  | nil => simp at h
  | cons y t ih =>
    cases i with
    | zero => simp; exact List.Perm.swap ..
    | succ i =>
      simp only [List.getElem_cons_succ, List.set_cons_succ]
      refine (List.Perm.swap ..).trans ?_
      refine (List.Perm.cons y (ih i (by simpa using h))).trans ?_
      exact List.Perm.swap ..

theorem swapDel_perm {α : Type} (l : List α) (i : Nat) (hi : i < l.length) : (l[i] :: swapDel l i).Perm l := by
  rcases List.eq_nil_or_concat l with rfl | ⟨t, x, rfl⟩
  · simp at hi
  · have hl : (t ++ [x]).getLast? = some x := by simp
    simp only [List.concat_eq_append] at hi ⊢
    unfold swapDel
    rw [hl]
    simp only [hi, if_true]
    by_cases h : i < t.length
    · rw [List.set_append_left _ _ h, List.dropLast_concat, List.getElem_append_left h]
      have h1 : (t[i] :: t.set i x).Perm (x :: t) := set_perm t i x h
      exact h1.trans (List.perm_append_singleton x t).symm
    · have : i = t.length := by simp at hi; omega
      subst this
      simp
      exact (List.perm_append_singleton x t).symm

theorem holds_nil {α β : Type} (key : α → Nat) (R : α → β → Prop) : Holds key R [] (fun _ => none) := by
  refine ⟨by simp, fun n => ?_⟩
  simp [OptRel]

theorem upd_same {α : Type} (m : Map α) (k : Nat) (v : Option α) : upd m k v k = v := by simp [upd]

theorem upd_other {α : Type} (m : Map α) (k n : Nat) (v : Option α) (h : n ≠ k) : upd m k v n = m n := by simp [upd, h]

theorem upd_upd {α : Type} (m : Map α) (k : Nat) (v w : Option α) : upd (upd m k v) k w = upd m k w := by
  funext n; simp only [upd]; split <;> rfl

theorem upd_self {α : Type} (m : Map α) (k : Nat) (v : Option α) (h : m k = v) : upd m k v = m := by
  funext n; simp only [upd]; split
  · rename_i h'; rw [h', h]
  · rfl

theorem holds_append {α β : Type} (key : α → Nat) (R : α → β → Prop) (l : List α) (m : Map β) (h : Holds key R l m) (x : α) (y : β)
    (hm : m (key x) = none) (hr : R x y) : Holds key R (l ++ [x]) (upd m (key x) (some y)) := by
  obtain ⟨hn, hf⟩ := h
  have hk : key x ∉ l.map key := by
    intro hc
    obtain ⟨a, ha, hka⟩ := List.mem_map.mp hc
    have := hf (key x)
    rw [← hka, find_unique key l hn a ha, hka, hm] at this
    exact this
  have hnd : ((l ++ [x]).map key).Nodup := by
    simp only [List.map_append, List.map_cons, List.map_nil]
    rw [List.nodup_append]
    refine ⟨hn, by simp, ?_⟩
    intro a ha b hb hab
    simp at hb; subst hb; subst hab; exact hk ha
  refine ⟨hnd, fun n => ?_⟩
  by_cases hnx : n = key x
  · subst hnx
    rw [find_unique key _ hnd x (by simp), upd_same]
    exact hr
  · rw [upd_other _ _ _ _ hnx]
    have := find_ext key (l ++ [x]) l hnd hn n n (by
      intro a
      simp only [List.mem_append, List.mem_singleton]
      constructor
      · rintro ⟨h1 | rfl, h2⟩
        · exact ⟨h1, h2⟩
        · exact absurd h2.symm hnx
      · rintro ⟨h1, h2⟩; exact ⟨Or.inl h1, h2⟩)
    rw [this]; exact hf n

theorem holds_get {α β : Type} (key : α → Nat) (R : α → β → Prop) (l : List α) (m : Map β) (h : Holds key R l m) (n : Nat) (y : β)
    (hm : m n = some y) : ∃ i a, l.findIdx? (fun x => key x == n) = some i ∧ l[i]? = some a ∧ i < l.length ∧ key a = n ∧ R a y := by
  have := h.2 n
  rw [hm] at this
  cases hf : l.find? (fun x => key x == n) with
  | none => rw [hf] at this; exact this.elim
  | some a =>
    rw [hf] at this
    obtain ⟨i, h1, h2, h3⟩ := findIdx_of_find _ l a hf
    exact ⟨i, a, h1, h2, h3, find_key key l n a hf, this⟩

theorem holds_del {α β : Type} (key : α → Nat) (R : α → β → Prop) (l : List α) (m : Map β) (h : Holds key R l m) (n i : Nat) (a : α)
    (hi : l[i]? = some a) (ha : key a = n) : Holds key R (swapDel l i) (upd m n none) := by
  obtain ⟨hn, hf⟩ := h
  have hlt : i < l.length := by
    rcases Nat.lt_or_ge i l.length with hc | hc
    · exact hc
    · rw [List.getElem?_eq_none hc] at hi; cases hi
  have hget : l[i] = a := by rw [List.getElem?_eq_getElem hlt] at hi; exact Option.some.inj hi
  have hp := swapDel_perm l i hlt
  rw [hget] at hp
  have hnd : ((a :: swapDel l i).map key).Nodup := (hp.map key).nodup_iff.mpr hn
  simp only [List.map_cons, List.nodup_cons] at hnd
  refine ⟨hnd.2, fun k => ?_⟩
  by_cases hk : k = n
  · subst hk
    rw [upd_same]
    cases hc : (swapDel l i).find? (fun x => key x == k) with
    | none => trivial
    | some b =>
      have h1 := (find_iff key _ hnd.2 k b).mp hc
      exact absurd (List.mem_map.mpr ⟨b, h1.1, h1.2.trans ha.symm⟩) hnd.1
  · rw [upd_other _ _ _ _ hk]
    have := find_ext key (swapDel l i) l hnd.2 hn k k (by
      intro b
      constructor
      · rintro ⟨h1, h2⟩; exact ⟨hp.mem_iff.mp (List.mem_cons_of_mem _ h1), h2⟩
      · rintro ⟨h1, h2⟩
        rcases List.mem_cons.mp (hp.mem_iff.mpr h1) with rfl | h3
        · exact absurd (h2.symm.trans ha) hk
        · exact ⟨h3, h2⟩)
    rw [this]; exact hf k

theorem modify_map_key {α : Type} (key : α → Nat) (f : α → α) (hk : ∀ x, key (f x) = key x) (l : List α) (i : Nat) :
    (l.modify i f).map key = l.map key := by
  induction l generalizing i with
  | nil => cases i <;> simp
  | cons x t ih => cases i with
    | zero => simp [hk]
    | succ i => simp [ih]

theorem modify_find_same {α : Type} (key : α → Nat) (f : α → α) (hk : ∀ x, key (f x) = key x) (l : List α) (n i : Nat)
    (hi : l.findIdx? (fun x => key x == n) = some i) :
    (l.modify i f).find? (fun x => key x == n) = (l.find? (fun x => key x == n)).map f := by
  induction l generalizing i with
  | nil => simp at hi
  | cons x t ih =>
    by_cases hx : key x = n
    · simp [List.findIdx?_cons, hx] at hi
      subst hi
      simp [List.find?, hk, hx]
    · have hb : (key x == n) = false := beq_false_of_ne hx
      simp only [List.findIdx?_cons, hb, Bool.false_eq_true, if_false] at hi
      cases hj : t.findIdx? (fun x => key x == n) with
      | none => rw [hj] at hi; simp at hi
      | some j =>
        rw [hj] at hi; simp at hi; subst hi
        simp [List.find?, hb, ih j hj]

theorem modify_find_other {α : Type} (key : α → Nat) (f : α → α) (hk : ∀ x, key (f x) = key x) (l : List α) (n n' i : Nat)
    (hi : l.findIdx? (fun x => key x == n) = some i) (hne : n' ≠ n) :
    (l.modify i f).find? (fun x => key x == n') = l.find? (fun x => key x == n') := by
  induction l generalizing i with
  | nil => simp at hi
  | cons x t ih =>
    by_cases hx : key x = n
    · simp [List.findIdx?_cons, hx] at hi
      subst hi
      have : (key x == n') = false := beq_false_of_ne (by rw [hx]; exact Ne.symm hne)
      simp [List.find?, hk, this]
    · have hb : (key x == n) = false := beq_false_of_ne hx
      simp only [List.findIdx?_cons, hb, Bool.false_eq_true, if_false] at hi
      cases hj : t.findIdx? (fun x => key x == n) with
      | none => rw [hj] at hi; simp at hi
      | some j =>
        rw [hj] at hi; simp at hi; subst hi
        simp only [List.modify_succ_cons, List.find?]
        split <;> simp_all

theorem holds_mod {α β : Type} (key : α → Nat) (R : α → β → Prop) (l : List α) (m : Map β) (h : Holds key R l m) (n i : Nat)
    (hi : l.findIdx? (fun x => key x == n) = some i) (a : α) (hia : l[i]? = some a) (f : α → α) (hk : ∀ x, key (f x) = key x) (y : β)
    (hr : R (f a) y) : Holds key R (l.modify i f) (upd m n (some y)) := by
  obtain ⟨hn, hf⟩ := h
  refine ⟨by rw [modify_map_key key f hk]; exact hn, fun k => ?_⟩
  by_cases hkn : k = n
  · subst hkn
    rw [modify_find_same key f hk l k i hi, upd_same]
    cases hff : l.find? (fun x => key x == k) with
    | none => rw [findIdx_none_of_find _ _ hff] at hi; cases hi
    | some b =>
      obtain ⟨j, h1, h2, -⟩ := findIdx_of_find _ l b hff
      rw [hi] at h1; cases h1
      rw [hia] at h2; cases h2
      exact hr
  · rw [modify_find_other key f hk l n k i hi hkn, upd_other _ _ _ _ hkn]
    exact hf k

/-! ## Walking through trees -/

theorem parse_meta {σ : Type} (cb : List Anc → Nat → Op → σ → Res σ) (p p' : Op) (m m' : Meta) (path : List Anc) (s : σ) (l : Label) (v : Nat)
    (ch : List Tree) (h : current m p = current m' p') : parse cb p path s (.node l v m ch) = parse cb p' path s (.node l v m' ch) := by
  simp only [parse, h]

theorem parse_set {σ : Type} (cb : List Anc → Nat → Op → σ → Res σ) (p : Op) (m : Meta) (path : List Anc) (s s' : σ) (l : Label) (v : Nat)
    (ch : List Tree) (op : Op) (h : current m p = op) (ho : op = .create ∨ op = .replace)
    (hc : cb (⟨l, (ch.head?).map Tree.val⟩ :: path) v op s = .ok s') :
    parse cb p path s (.node l v m ch) = parseList cb op (⟨l, (ch.head?).map Tree.val⟩ :: path) s' ch := by
  simp only [parse, h]
  rcases ho with rfl | rfl <;> simp [hc]

theorem parse_del {σ : Type} (cb : List Anc → Nat → Op → σ → Res σ) (p : Op) (path : List Anc) (s : σ) (l : Label) (v : Nat)
    (ch : List Tree) :
    parse cb p path s (.node l v .delete ch) = cb (⟨l, (ch.head?).map Tree.val⟩ :: path) v .delete s := by
  simp only [parse, show current .delete p = .delete from rfl]
  simp only [reduceCtorEq, if_false, if_true]
  cases cb (⟨l, (ch.head?).map Tree.val⟩ :: path) v .delete s <;> rfl

theorem parse_none {σ : Type} (cb : List Anc → Nat → Op → σ → Res σ) (p : Op) (m : Meta) (path : List Anc) (s : σ) (l : Label) (v : Nat)
    (ch : List Tree) (h : current m p = .none) :
    parse cb p path s (.node l v m ch) = parseList cb .none (⟨l, (ch.head?).map Tree.val⟩ :: path) s ch := by
  simp only [parse, h]
  simp

theorem parseList_cons {σ : Type} (cb : List Anc → Nat → Op → σ → Res σ) (p : Op) (path : List Anc) (s s' : σ) (t : Tree) (ts : List Tree)
    (h : parse cb p path s t = .ok s') : parseList cb p path s (t :: ts) = parseList cb p path s' ts := by
  simp only [parseList, h]

theorem parseList_append {σ : Type} (cb : List Anc → Nat → Op → σ → Res σ) (p : Op) (path : List Anc) (s s' : σ) (a b : List Tree)
    (h : parseList cb p path s a = .ok s') : parseList cb p path s (a ++ b) = parseList cb p path s' b := by
  induction a generalizing s with
  | nil => simp only [parseList, Res.ok.injEq] at h; subst h; rfl
  | cons t ts ih =>
    simp only [parseList, List.cons_append] at h ⊢
    cases ht : parse cb p path s t with
    | ok s1 => rw [ht] at h; exact ih s1 h
    | fail s1 => rw [ht] at h; cases h
    | ub => rw [ht] at h; cases h

theorem parseList_nil {σ : Type} (cb : List Anc → Nat → Op → σ → Res σ) (p : Op) (path : List Anc) (s : σ) :
    parseList cb p path s [] = .ok s := rfl

/-- Walking through the trees of a list of edits, given what happens for each edit. -/
theorem edits_ok {σ ι ε α : Type} (cb : List Anc → Nat → Op → σ → Res σ) (p : Op) (path : List Anc) (mk : ι → Option α) (ch : α → ε → Option α)
    (tree : Edit ι ε → Tree) (Inv : σ → Map α → Prop)
    (step : ∀ s m e m', Inv s m → patch mk ch m e = some m' → ∃ s', parse cb p path s (tree e) = .ok s' ∧ Inv s' m')
    (es : List (Edit ι ε)) : ∀ s m m', Inv s m → patchAll mk ch m es = some m' →
    ∃ s', parseList cb p path s (es.map tree) = .ok s' ∧ Inv s' m' := by
  induction es with
  | nil => intro s m m' hi h; simp only [patchAll, Option.some.injEq] at h; subst h; exact ⟨s, rfl, hi⟩
  | cons e es ih =>
    intro s m m' hi h
    simp only [patchAll] at h
    cases hp : patch mk ch m e with
    | none => rw [hp] at h; cases h
    | some m1 =>
      rw [hp] at h
      obtain ⟨s1, h1, h2⟩ := step s m e m1 hi hp
      obtain ⟨s2, h3, h4⟩ := ih s1 m1 m' h2 h
      exact ⟨s2, by rw [List.map_cons, parseList_cons _ _ _ _ _ _ _ h1]; exact h3, h4⟩

/-- The same for entries created under an inherited operation. -/
theorem creates_ok {σ ι ε α : Type} (cb : List Anc → Nat → Op → σ → Res σ) (path : List Anc) (mk : ι → Option α) (ch : α → ε → Option α)
    (data : Nat → ι → Tree) (Inv : σ → Map α → Prop)
    (step : ∀ s m k x m', Inv s m → patch mk ch m (.create k x) = some m' → ∃ s', parse cb .create path s (data k x) = .ok s' ∧ Inv s' m')
    (l : List (Nat × ι)) : ∀ s m m', Inv s m → patchAll mk ch m (l.map (fun q => (Edit.create q.1 q.2 : Edit ι ε))) = some m' →
    ∃ s', parseList cb .create path s (l.map (fun q => data q.1 q.2)) = .ok s' ∧ Inv s' m' := by
  induction l with
  | nil => intro s m m' hi h; simp only [List.map_nil, patchAll, Option.some.injEq] at h; subst h; exact ⟨s, rfl, hi⟩
  | cons q l ih =>
    intro s m m' hi h
    simp only [List.map_cons, patchAll] at h
    cases hp : patch mk ch m (.create q.1 q.2) with
    | none => rw [hp] at h; cases h
    | some m1 =>
      rw [hp] at h
      obtain ⟨s1, h1, h2⟩ := step s m q.1 q.2 m1 hi hp
      obtain ⟨s2, h3, h4⟩ := ih s1 m1 m' h2 h
      exact ⟨s2, by rw [List.map_cons, parseList_cons _ _ _ _ _ _ _ h1]; exact h3, h4⟩

theorem patch_create {ι ε α : Type} (mk : ι → Option α) (ch : α → ε → Option α) (m m' : Map α) (k : Nat) (x : ι)
    (h : patch mk ch m (.create k x) = some m') : m k = none ∧ ∃ y, mk x = some y ∧ m' = upd m k (some y) := by
  simp only [patch] at h
  cases hk : m k with
  | some y => rw [hk] at h; cases h
  | none =>
    rw [hk] at h
    refine ⟨rfl, ?_⟩
    cases hx : mk x with
    | none => rw [hx] at h; cases h
    | some y => rw [hx] at h; simp only [Option.map_some, Option.some.injEq] at h; exact ⟨y, rfl, h.symm⟩

theorem patch_delete {ι ε α : Type} (mk : ι → Option α) (ch : α → ε → Option α) (m m' : Map α) (k : Nat) (r : List Tree)
    (h : patch mk ch m (.delete k r) = some m') : (∃ y, m k = some y) ∧ m' = upd m k none := by
  simp only [patch] at h
  cases hk : m k with
  | none => rw [hk] at h; cases h
  | some y => rw [hk] at h; simp only [Option.some.injEq] at h; exact ⟨⟨y, rfl⟩, h.symm⟩

theorem patch_change {ι ε α : Type} (mk : ι → Option α) (ch : α → ε → Option α) (m m' : Map α) (k : Nat) (e : ε)
    (h : patch mk ch m (.change k e) = some m') : ∃ y z, m k = some y ∧ ch y e = some z ∧ m' = upd m k (some z) := by
  simp only [patch] at h
  cases hk : m k with
  | none => rw [hk] at h; cases h
  | some y =>
    rw [hk] at h
    simp only at h
    cases hx : ch y e with
    | none => rw [hx] at h; cases h
    | some z => rw [hx] at h; simp only [Option.map_some, Option.some.injEq] at h; exact ⟨y, z, rfl, hx, h.symm⟩

/-! ## Arrays as maps -/

/-- The array has distinct keys and is given by the map. -/
abbrev Ex {α : Type} (key : α → Nat) (l : List α) (M : Map α) : Prop := Holds key (fun a b => a = b) l M

theorem holds_ex {α β : Type} (key : α → Nat) (R : α → β → Prop) (l : List α) (m : Map β) (h : Holds key R l m) :
    ∃ M, Ex key l M ∧ ∀ n, OptRel R (M n) (m n) := by
  refine ⟨fun n => l.find? (fun x => key x == n), ⟨h.1, fun n => ?_⟩, h.2⟩
  generalize hx : l.find? (fun x => key x == n) = x
  dsimp only
  rw [hx]
  cases x <;> simp [OptRel]

theorem ex_find {α : Type} (key : α → Nat) (l : List α) (M : Map α) (h : Ex key l M) (n : Nat) : l.find? (fun x => key x == n) = M n := by
  have := h.2 n
  cases h1 : l.find? (fun x => key x == n) <;> cases h2 : M n <;> rw [h1, h2] at this <;> simp_all [OptRel]

theorem ex_holds {α β : Type} (key : α → Nat) (R : α → β → Prop) (l : List α) (M : Map α) (m : Map β) (h : Ex key l M)
    (hr : ∀ n, OptRel R (M n) (m n)) : Holds key R l m :=
  ⟨h.1, fun n => by rw [ex_find key l M h]; exact hr n⟩

theorem ex_get {α : Type} (key : α → Nat) (l : List α) (M : Map α) (h : Ex key l M) (n : Nat) (a : α) (hm : M n = some a) :
    ∃ i, l.findIdx? (fun x => key x == n) = some i ∧ l[i]? = some a ∧ key a = n := by
  obtain ⟨i, b, h1, h2, -, h4, h5⟩ := holds_get key _ l M h n a hm
  subst h5
  exact ⟨i, h1, h2, h4⟩

theorem optrel_upd {α β : Type} (R : α → β → Prop) (M : Map α) (m : Map β) (h : ∀ n, OptRel R (M n) (m n)) (k : Nat) (a : Option α)
    (b : Option β) (hr : OptRel R a b) : ∀ n, OptRel R (upd M k a n) (upd m k b n) := by
  intro n
  simp only [upd]
  split
  · exact hr
  · exact h n

theorem optrel_none {α β : Type} (R : α → β → Prop) (a : Option α) (h : OptRel R a none) : a = none := by
  cases a
  · rfl
  · exact h.elim

theorem optrel_some {α β : Type} (R : α → β → Prop) (a : Option α) (b : β) (h : OptRel R a (some b)) : ∃ x, a = some x ∧ R x b := by
  cases a with
  | none => exact h.elim
  | some x => exact ⟨x, rfl, h⟩

theorem findIdx_new {α : Type} (p : α → Bool) (l : List α) (x : α) (h : l.find? p = none) (hx : p x = true) :
    (l ++ [x]).findIdx? p = some l.length := by
  induction l with
  | nil => simp [List.findIdx?_cons, hx]
  | cons y t ih =>
    simp only [List.find?] at h
    cases hy : p y with
    | true => rw [hy] at h; cases h
    | false =>
      rw [hy] at h
      simp [List.findIdx?_cons, hy, ih h]

theorem modify_new {α : Type} (l : List α) (x : α) (f : α → α) : (l ++ [x]).modify l.length f = l ++ [f x] := by
  induction l with
  | nil => simp
  | cons y t ih => simp [ih]

theorem holds_absent {α β : Type} (key : α → Nat) (R : α → β → Prop) (l : List α) (m : Map β) (h : Holds key R l m) (n : Nat)
    (hm : m n = none) : l.find? (fun x => key x == n) = none := by
  have := h.2 n
  rw [hm] at this
  exact optrel_none R _ this

/-! ## Truststore: certificates -/

theorem keyOf_cons (l' l : Label) (a : Option Nat) (path : List Anc) (h : l' ≠ l) : keyOf (⟨l', a⟩ :: path) l = keyOf path l := by
  have : (l' == l) = false := beq_false_of_ne h
  simp [keyOf, List.find?, this]

theorem keyOf_head (l : Label) (k : Nat) (path : List Anc) : keyOf (⟨l, some k⟩ :: path) l = .found k := by
  simp [keyOf, List.find?]

theorem getCertBag_ok (path : List Anc) (s : Ts) (M : Map CertBag) (n : Nat) (b : CertBag) (hk : keyOf path .certificateBag = .found n)
    (hs : Ex CertBag.name s.certBags M) (hn : M n = some b) :
    ∃ i, getCertBag path s = .found i ∧ s.certBags.findIdx? (fun x => x.name == n) = some i ∧ s.certBags[i]? = some b ∧ b.name = n := by
  obtain ⟨i, h1, h2, h3⟩ := ex_get CertBag.name _ M hs n b hn
  exact ⟨i, by simp only [getCertBag, hk, h1], h1, h2, h3⟩

theorem ex_mod_bag (s : Ts) (M : Map CertBag) (n i : Nat) (b : CertBag) (hs : Ex CertBag.name s.certBags M)
    (h1 : s.certBags.findIdx? (fun x => x.name == n) = some i) (h2 : s.certBags[i]? = some b) (f : List Cert → List Cert) :
    Ex CertBag.name (s.certBags.modify i (fun b => { b with certs := f b.certs })) (upd M n (some { b with certs := f b.certs })) :=
  holds_mod CertBag.name _ _ M hs n i h1 b h2 (fun b => { b with certs := f b.certs }) (fun _ => rfl) _ rfl

theorem tsCert_create (path : List Anc) (s : Ts) (M : Map CertBag) (n k : Nat) (b : CertBag) (op : Op)
    (hk : keyOf path .certificateBag = .found n) (hs : Ex CertBag.name s.certBags M) (hn : M n = some b) (ho : op = .create ∨ op = .replace) (v : Nat) :
    ∃ s', tsCb (⟨.certificate, some k⟩ :: path) v op s = .ok s' ∧
      Ex CertBag.name s'.certBags (upd M n (some { b with certs := b.certs ++ [⟨k, none⟩] })) ∧ s'.pubBags = s.pubBags := by
  obtain ⟨i, h1, h2, h3, -⟩ := getCertBag_ok (⟨.certificate, some k⟩ :: path) s M n b (by rw [keyOf_cons _ _ _ _ (by decide)]; exact hk) hs hn
  have hset : setting op = true := by rcases ho with rfl | rfl <;> rfl
  refine ⟨{ s with certBags := s.certBags.modify i (fun b => { b with certs := b.certs ++ [⟨k, none⟩] }) },
    by simp only [tsCb, List.head?_cons, Option.map_some, tsCert, h1, hset, if_true, ownKey], ?_, rfl⟩
  exact ex_mod_bag s M n i b hs h2 h3 (fun l => l ++ [⟨k, none⟩])

theorem getCert_ok (path : List Anc) (s : Ts) (M : Map CertBag) (n k j : Nat) (b : CertBag) (hk : keyOf path .certificateBag = .found n)
    (hc : keyOf path .certificate = .found k) (hs : Ex CertBag.name s.certBags M) (hn : M n = some b)
    (hj : b.certs.findIdx? (fun x => x.name == k) = some j) :
    ∃ i, getCertBag path s = .found i ∧ getCert path s = .found (i, j) ∧ s.certBags.findIdx? (fun x => x.name == n) = some i ∧ s.certBags[i]? = some b := by
  obtain ⟨i, h1, h2, h3, -⟩ := getCertBag_ok path s M n b hk hs hn
  exact ⟨i, h1, by simp only [getCert, h1, hc, h3, Option.bind_some, hj], h2, h3⟩

theorem tsCert_delete (path : List Anc) (s : Ts) (M : Map CertBag) (n k j : Nat) (b : CertBag)
    (hk : keyOf path .certificateBag = .found n) (hs : Ex CertBag.name s.certBags M) (hn : M n = some b)
    (hj : b.certs.findIdx? (fun x => x.name == k) = some j) (v : Nat) :
    ∃ s', tsCb (⟨.certificate, some k⟩ :: path) v .delete s = .ok s' ∧
      Ex CertBag.name s'.certBags (upd M n (some { b with certs := swapDel b.certs j })) ∧ s'.pubBags = s.pubBags := by
  obtain ⟨i, h0, h1, h2, h3⟩ := getCert_ok (⟨.certificate, some k⟩ :: path) s M n k j b (by rw [keyOf_cons _ _ _ _ (by decide)]; exact hk)
    (keyOf_head _ _ _) hs hn hj
  refine ⟨{ s with certBags := s.certBags.modify i (fun b => { b with certs := swapDel b.certs j }) },
    by simp [tsCb, tsCert, h0, h1, setting], ?_, rfl⟩
  exact ex_mod_bag s M n i b hs h2 h3 (fun l => swapDel l j)

theorem tsCertData_set (path : List Anc) (a : Option Nat) (s : Ts) (M : Map CertBag) (n k j : Nat) (b : CertBag) (op : Op)
    (hk : keyOf path .certificateBag = .found n) (hc : keyOf path .certificate = .found k) (hs : Ex CertBag.name s.certBags M) (hn : M n = some b)
    (hj : b.certs.findIdx? (fun x => x.name == k) = some j) (ho : op = .create ∨ op = .replace) (v : Nat) :
    ∃ s', tsCb (⟨.certData, a⟩ :: path) v op s = .ok s' ∧
      Ex CertBag.name s'.certBags (upd M n (some { b with certs := b.certs.modify j (fun c => { c with data := some v }) })) ∧
      s'.pubBags = s.pubBags := by
  obtain ⟨i, -, h1, h2, h3⟩ := getCert_ok (⟨.certData, a⟩ :: path) s M n k j b (by rw [keyOf_cons _ _ _ _ (by decide)]; exact hk)
    (by rw [keyOf_cons _ _ _ _ (by decide)]; exact hc) hs hn hj
  have hset : setting op = true := by rcases ho with rfl | rfl <;> rfl
  refine ⟨{ s with certBags := s.certBags.modify i (fun b => { b with certs := b.certs.modify j (fun c => { c with data := some v }) }) },
    by simp only [tsCb, List.head?_cons, Option.map_some, tsCertData, h1, hset, if_true], ?_, rfl⟩
  exact ex_mod_bag s M n i b hs h2 h3 (fun l => l.modify j (fun c => { c with data := some v }))

/-- Leaves that mean nothing to the callback. -/
theorem parse_name_ts (p : Op) (path : List Anc) (s : Ts) (v : Nat) (h : p = .create ∨ p = .replace ∨ p = .none) :
    parse tsCb p path s (leaf .name v) = .ok s := by
  rcases h with rfl | rfl | rfl <;> simp [leaf, parse, parseList, current, Verif.ConfTree.ownOp, tsCb]

theorem cert_create_ok (path : List Anc) (s : Ts) (M : Map CertBag) (n k d : Nat) (b : CertBag) (m : Meta) (p : Op)
    (hop : current m p = .create)
    (hk : keyOf path .certificateBag = .found n) (hs : Ex CertBag.name s.certBags M) (hn : M n = some b)
    (hf : b.certs.find? (fun x => x.name == k) = none) :
    ∃ s', parse tsCb p path s (certData k d m) = .ok s' ∧
      Ex CertBag.name s'.certBags (upd M n (some { b with certs := b.certs ++ [⟨k, some d⟩] })) ∧ s'.pubBags = s.pubBags := by
  obtain ⟨s1, h1, h2, h3⟩ := tsCert_create path s M n k b .create hk hs hn (Or.inl rfl) 0
  obtain ⟨s2, h4, h5, h6⟩ := tsCertData_set (⟨.certificate, some k⟩ :: path) none s1 _ n k b.certs.length { b with certs := b.certs ++ [⟨k, none⟩] }
    .create (by rw [keyOf_cons _ _ _ _ (by decide)]; exact hk) (keyOf_head _ _ _) h2 (upd_same _ _ _)
    (findIdx_new _ _ _ hf (by simp)) (Or.inl rfl) d
  refine ⟨s2, ?_, ?_, by rw [h6, h3]⟩
  · unfold certData
    rw [parse_set tsCb p m path s s1 _ _ _ .create hop (Or.inl rfl) h1, parseList_cons _ _ _ _ _ _ _ (parse_name_ts _ _ _ _ (Or.inl rfl)),
      parseList_cons _ _ _ _ s2 _ _ ?_, parseList_nil]
    unfold leaf
    rw [parse_set tsCb .create .absent _ s1 s2 _ _ _ .create rfl (Or.inl rfl) h4, parseList_nil]
  · rw [upd_upd] at h5
    simp only [modify_new] at h5
    exact h5

/-- The bag `n` holds the certificates `m`, all else is given. -/
def CertInv (n : Nat) (M : Map CertBag) (P : List PubBag) (s : Ts) (m : Map Nat) : Prop :=
  ∃ b, Ex CertBag.name s.certBags (upd M n (some b)) ∧ HoldsCerts b.certs m ∧ s.pubBags = P

theorem cert_new_ok (path : List Anc) (n : Nat) (M : Map CertBag) (P : List PubBag) (hk : keyOf path .certificateBag = .found n)
    (p : Op) (mt : Meta) (hop : current mt p = .create) (s : Ts) (m : Map Nat) (k d : Nat) (m' : Map Nat) (hi : CertInv n M P s m)
    (hp : patch some (fun _ d => some d) m (.create k d) = some m') :
    ∃ s', parse tsCb p path s (certData k d mt) = .ok s' ∧ CertInv n M P s' m' := by
  obtain ⟨b, h1, h2, h3⟩ := hi
  obtain ⟨ha, y, hy, rfl⟩ := patch_create _ _ _ _ _ _ hp
  cases hy
  obtain ⟨s', h4, h5, h6⟩ := cert_create_ok path s _ n k d b mt p hop hk h1 (upd_same _ _ _) (holds_absent _ _ _ _ h2 k ha)
  rw [upd_upd] at h5
  exact ⟨s', h4, _, h5, holds_append Cert.name _ _ _ h2 ⟨k, some d⟩ d ha rfl, h6.trans h3⟩

theorem cert_step (path : List Anc) (n : Nat) (M : Map CertBag) (P : List PubBag) (hk : keyOf path .certificateBag = .found n)
    (s : Ts) (m : Map Nat) (e : CertEdit) (m' : Map Nat) (hi : CertInv n M P s m)
    (hp : patch some (fun _ d => some d) m e = some m') :
    ∃ s', parse tsCb .none path s (certTree e) = .ok s' ∧ CertInv n M P s' m' := by
  cases e with
  | create k d => exact cert_new_ok path n M P hk .none .create rfl s m k d m' hi hp
  | delete k r =>
    obtain ⟨b, h1, h2, h3⟩ := hi
    obtain ⟨⟨y, hy⟩, rfl⟩ := patch_delete _ _ _ _ _ _ hp
    obtain ⟨j, c, hj, hjc, -, hcn, hcd⟩ := holds_get _ _ _ _ h2 k y hy
    obtain ⟨s', h4, h5, h6⟩ := tsCert_delete path s _ n k j b hk h1 (upd_same _ _ _) hj 0
    rw [upd_upd] at h5
    refine ⟨s', ?_, _, h5, holds_del Cert.name _ _ _ h2 k j c hjc hcn, h6.trans h3⟩
    unfold certTree
    rw [parse_del]
    exact h4
  | change k d =>
    obtain ⟨b, h1, h2, h3⟩ := hi
    obtain ⟨y, z, hy, hz, rfl⟩ := patch_change _ _ _ _ _ _ hp
    cases hz
    obtain ⟨j, c, hj, hjc, -, hcn, hcd⟩ := holds_get _ _ _ _ h2 k y hy
    obtain ⟨s', h4, h5, h6⟩ := tsCertData_set (⟨.certificate, some k⟩ :: path) none s _ n k j b .replace
      (by rw [keyOf_cons _ _ _ _ (by decide)]; exact hk) (keyOf_head _ _ _) h1 (upd_same _ _ _) hj (Or.inr rfl) d
    rw [upd_upd] at h5
    refine ⟨s', ?_, _, h5, holds_mod Cert.name _ _ _ h2 k j hj c hjc (fun c => { c with data := some d }) (fun _ => rfl) d rfl, h6.trans h3⟩
    unfold certTree
    rw [parse_none _ _ _ _ _ _ _ _ rfl, parseList_cons _ _ _ _ _ _ _ (parse_name_ts _ _ _ _ (by simp)), parseList_cons _ _ _ _ s' _ _ ?_, parseList_nil]
    unfold leaf
    rw [parse_set tsCb .none .replace _ s s' _ _ _ .replace rfl (Or.inr rfl) h4, parseList_nil]

/-! ## Truststore: bags of certificates -/

/-- The truststore holds the bags of certificates `m`, all else is given. -/
def CertBagInv (P : List PubBag) (s : Ts) (m : Map (Map Nat)) : Prop :=
  Holds CertBag.name (fun b m => HoldsCerts b.certs m) s.certBags m ∧ s.pubBags = P

theorem certInv_bags (n : Nat) (M : Map CertBag) (cm : Map (Map Nat)) (P : List PubBag) (s : Ts) (m : Map Nat)
    (hr : ∀ x, x ≠ n → OptRel (fun b m => HoldsCerts (CertBag.certs b) m) (M x) (cm x)) (h : CertInv n M P s m) :
    CertBagInv P s (upd cm n (some m)) := by
  obtain ⟨b, h1, h2, h3⟩ := h
  refine ⟨ex_holds CertBag.name _ _ _ _ h1 ?_, h3⟩
  intro x
  simp only [upd]
  split
  · exact h2
  · rename_i hx; exact hr x hx

theorem certBag_new_ok (path : List Anc) (P : List PubBag) (p : Op) (mt : Meta) (hop : current mt p = .create) (s : Ts) (cm : Map (Map Nat))
    (k : Nat) (l : List (Nat × Nat)) (cm' : Map (Map Nat)) (hi : CertBagInv P s cm)
    (hp : patch certMap patchCerts cm (.create k l) = some cm') :
    ∃ s', parse tsCb p path s (certBagData k l mt) = .ok s' ∧ CertBagInv P s' cm' := by
  obtain ⟨h1, h2⟩ := hi
  obtain ⟨ha, y, hy, rfl⟩ := patch_create _ _ _ _ _ _ hp
  obtain ⟨M, h3, h4⟩ := holds_ex _ _ _ _ h1
  have hnone : M k = none := optrel_none _ _ (ha ▸ h4 k)
  have h5 : Ex CertBag.name (s.certBags ++ [⟨k, []⟩]) (upd M k (some ⟨k, []⟩)) :=
    holds_append CertBag.name _ _ _ h3 ⟨k, []⟩ _ hnone rfl
  obtain ⟨s', h6, h7⟩ := creates_ok tsCb (⟨.certificateBag, some k⟩ :: path) some (fun _ d => some d) (fun k d => certData k d)
    (CertInv k M P) (fun s m k' x m' hi hp => cert_new_ok _ k M P (keyOf_head _ _ _) .create .absent rfl s m k' x m' hi hp) l
    { s with certBags := s.certBags ++ [⟨k, []⟩] } (fun _ => none) y ⟨⟨k, []⟩, h5, holds_nil _ _, h2⟩ hy
  refine ⟨s', ?_, certInv_bags k M cm P s' y (fun x _ => h4 x) h7⟩
  unfold certBagData
  rw [parse_set tsCb p mt path s { s with certBags := s.certBags ++ [⟨k, []⟩] } _ _ _ .create hop (Or.inl rfl) (by rfl),
    parseList_cons _ _ _ _ _ _ _ (parse_name_ts _ _ _ _ (Or.inl rfl))]
  exact h6

theorem certBag_step (path : List Anc) (P : List PubBag) (s : Ts) (cm : Map (Map Nat)) (e : CertBagEdit) (cm' : Map (Map Nat))
    (hi : CertBagInv P s cm) (hp : patch certMap patchCerts cm e = some cm') :
    ∃ s', parse tsCb .none path s (certBagTree e) = .ok s' ∧ CertBagInv P s' cm' := by
  cases e with
  | create k l => exact certBag_new_ok path P .none .create rfl s cm k l cm' hi hp
  | delete k r =>
    obtain ⟨h1, h2⟩ := hi
    obtain ⟨⟨y, hy⟩, rfl⟩ := patch_delete _ _ _ _ _ _ hp
    obtain ⟨j, c, hj, hjc, -, hcn, hcd⟩ := holds_get _ _ _ _ h1 k y hy
    refine ⟨{ s with certBags := swapDel s.certBags j }, ?_, holds_del CertBag.name _ _ _ h1 k j c hjc hcn, h2⟩
    unfold certBagTree
    rw [parse_del]
    have : getCertBag (⟨.certificateBag, some k⟩ :: path) s = .found j := by simp only [getCertBag, keyOf_head, hj]
    simp [tsCb, tsCertBag, setting, Tree.val, leaf, this]
  | change k es =>
    obtain ⟨h1, h2⟩ := hi
    obtain ⟨y, z, hy, hz, rfl⟩ := patch_change _ _ _ _ _ _ hp
    obtain ⟨M, h3, h4⟩ := holds_ex _ _ _ _ h1
    obtain ⟨b, hb, hbc⟩ := optrel_some _ _ _ (hy ▸ h4 k)
    obtain ⟨s', h6, h7⟩ := edits_ok tsCb .none (⟨.certificateBag, some k⟩ :: path) some (fun _ d => some d) certTree
      (CertInv k M P) (fun s m e m' hi hp => cert_step _ k M P (keyOf_head _ _ _) s m e m' hi hp) es
      s y z ⟨b, by rw [upd_self _ _ _ hb]; exact h3, hbc, h2⟩ hz
    refine ⟨s', ?_, certInv_bags k M cm P s' z (fun x _ => h4 x) h7⟩
    unfold certBagTree
    rw [parse_none _ _ _ _ _ _ _ _ rfl, parseList_cons _ _ _ _ _ _ _ (parse_name_ts _ _ _ _ (by simp))]
    exact h6

/-! ## Truststore: public keys -/

theorem getPubBag_ok (path : List Anc) (s : Ts) (M : Map PubBag) (n : Nat) (b : PubBag) (hk : keyOf path .publicKeyBag = .found n)
    (hs : Ex PubBag.name s.pubBags M) (hn : M n = some b) :
    ∃ i, getPubBag path s = .found i ∧ s.pubBags.findIdx? (fun x => x.name == n) = some i ∧ s.pubBags[i]? = some b ∧ b.name = n := by
  obtain ⟨i, h1, h2, h3⟩ := ex_get PubBag.name _ M hs n b hn
  exact ⟨i, by simp only [getPubBag, hk, h1], h1, h2, h3⟩

theorem ex_mod_pbag (s : Ts) (M : Map PubBag) (n i : Nat) (b : PubBag) (hs : Ex PubBag.name s.pubBags M)
    (h1 : s.pubBags.findIdx? (fun x => x.name == n) = some i) (h2 : s.pubBags[i]? = some b) (f : List PubKey → List PubKey) :
    Ex PubBag.name (s.pubBags.modify i (fun b => { b with keys := f b.keys })) (upd M n (some { b with keys := f b.keys })) :=
  holds_mod PubBag.name _ _ M hs n i h1 b h2 (fun b => { b with keys := f b.keys }) (fun _ => rfl) _ rfl

theorem getPubKey_ok (path : List Anc) (s : Ts) (M : Map PubBag) (n k j : Nat) (b : PubBag) (hk : keyOf path .publicKeyBag = .found n)
    (hc : pubKeyKey path = .found k) (hs : Ex PubBag.name s.pubBags M) (hn : M n = some b)
    (hj : b.keys.findIdx? (fun x => x.name == k) = some j) :
    ∃ i, getPubBag path s = .found i ∧ getPubKey path s = .found (i, j) ∧ s.pubBags.findIdx? (fun x => x.name == n) = some i ∧ s.pubBags[i]? = some b := by
  obtain ⟨i, h1, h2, h3, -⟩ := getPubBag_ok path s M n b hk hs hn
  exact ⟨i, h1, by simp only [getPubKey, h1, hc, h3, Option.bind_some, hj], h2, h3⟩

theorem tsPub_create (path : List Anc) (s : Ts) (M : Map PubBag) (n k : Nat) (b : PubBag)
    (hs : Ex PubBag.name s.pubBags M) (hn : M n = some b) (v : Nat) :
    ∃ s', tsCb (⟨.publicKey, some k⟩ :: ⟨.publicKeyBag, some n⟩ :: path) v .create s = .ok s' ∧
      Ex PubBag.name s'.pubBags (upd M n (some { b with keys := b.keys ++ [⟨k, 0, none⟩] })) ∧ s'.certBags = s.certBags := by
  obtain ⟨i, h1, h2, h3, -⟩ := getPubBag_ok (⟨.publicKey, some k⟩ :: ⟨.publicKeyBag, some n⟩ :: path) s M n b
    (by rw [keyOf_cons _ _ _ _ (by decide)]; exact keyOf_head _ _ _) hs hn
  refine ⟨{ s with pubBags := s.pubBags.modify i (fun b => { b with keys := b.keys ++ [⟨k, 0, none⟩] }) },
    by simp [tsCb, tsPubKey, h1, setting, ownKey, parentIs], ?_, rfl⟩
  exact ex_mod_pbag s M n i b hs h2 h3 (fun l => l ++ [⟨k, 0, none⟩])

theorem tsPub_delete (path : List Anc) (s : Ts) (M : Map PubBag) (n k j : Nat) (b : PubBag)
    (hs : Ex PubBag.name s.pubBags M) (hn : M n = some b)
    (hj : b.keys.findIdx? (fun x => x.name == k) = some j) (v : Nat) :
    ∃ s', tsCb (⟨.publicKey, some k⟩ :: ⟨.publicKeyBag, some n⟩ :: path) v .delete s = .ok s' ∧
      Ex PubBag.name s'.pubBags (upd M n (some { b with keys := swapDel b.keys j })) ∧ s'.certBags = s.certBags := by
  obtain ⟨i, h0, h1, h2, h3⟩ := getPubKey_ok (⟨.publicKey, some k⟩ :: ⟨.publicKeyBag, some n⟩ :: path) s M n k j b
    (by rw [keyOf_cons _ _ _ _ (by decide)]; exact keyOf_head _ _ _) (by simp [pubKeyKey, List.find?]) hs hn hj
  refine ⟨{ s with pubBags := s.pubBags.modify i (fun b => { b with keys := swapDel b.keys j }) },
    by simp [tsCb, tsPubKey, h0, h1, setting, parentIs], ?_, rfl⟩
  exact ex_mod_pbag s M n i b hs h2 h3 (fun l => swapDel l j)

theorem tsPub_data (path : List Anc) (s : Ts) (M : Map PubBag) (n k j : Nat) (b : PubBag) (op : Op)
    (hs : Ex PubBag.name s.pubBags M) (hn : M n = some b) (hj : b.keys.findIdx? (fun x => x.name == k) = some j) (v : Nat) :
    ∃ s', tsCb (⟨.publicKey, none⟩ :: ⟨.publicKey, some k⟩ :: ⟨.publicKeyBag, some n⟩ :: path) v op s = .ok s' ∧
      Ex PubBag.name s'.pubBags (upd M n (some { b with keys := b.keys.modify j (fun c => { c with data := some v }) })) ∧
      s'.certBags = s.certBags := by
  obtain ⟨i, h0, h1, h2, h3⟩ := getPubKey_ok (⟨.publicKey, none⟩ :: ⟨.publicKey, some k⟩ :: ⟨.publicKeyBag, some n⟩ :: path) s M n k j b
    (by rw [keyOf_cons _ _ _ _ (by decide), keyOf_cons _ _ _ _ (by decide)]; exact keyOf_head _ _ _)
    (by simp [pubKeyKey, List.find?]) hs hn hj
  refine ⟨{ s with pubBags := s.pubBags.modify i (fun b => { b with keys := b.keys.modify j (fun c => { c with data := some v }) }) },
    by simp [tsCb, tsPubKey, h0, h1, parentIs], ?_, rfl⟩
  exact ex_mod_pbag s M n i b hs h2 h3 (fun l => l.modify j (fun c => { c with data := some v }))

theorem tsPub_fmt (path : List Anc) (s : Ts) (M : Map PubBag) (n k j : Nat) (b : PubBag) (op : Op)
    (hs : Ex PubBag.name s.pubBags M) (hn : M n = some b) (hj : b.keys.findIdx? (fun x => x.name == k) = some j) (v : Nat) :
    ∃ s', tsCb (⟨.publicKeyFormat, none⟩ :: ⟨.publicKey, some k⟩ :: ⟨.publicKeyBag, some n⟩ :: path) v op s = .ok s' ∧
      Ex PubBag.name s'.pubBags (upd M n (some { b with keys := b.keys.modify j (fun c => { c with type := pubType v c.type }) })) ∧
      s'.certBags = s.certBags := by
  obtain ⟨i, h0, h1, h2, h3⟩ := getPubKey_ok (⟨.publicKeyFormat, none⟩ :: ⟨.publicKey, some k⟩ :: ⟨.publicKeyBag, some n⟩ :: path) s M n k j b
    (by rw [keyOf_cons _ _ _ _ (by decide), keyOf_cons _ _ _ _ (by decide)]; exact keyOf_head _ _ _)
    (by simp [pubKeyKey, List.find?]) hs hn hj
  refine ⟨{ s with pubBags := s.pubBags.modify i (fun b => { b with keys := b.keys.modify j (fun c => { c with type := pubType v c.type }) }) },
    by simp [tsCb, tsPubFormat, h1], ?_, rfl⟩
  exact ex_mod_pbag s M n i b hs h2 h3 (fun l => l.modify j (fun c => { c with type := pubType v c.type }))

theorem pubType_ok (v old : Nat) (h : fmtOk v = true) : pubType v old = v := by
  unfold fmtOk at h
  simp at h
  unfold pubType
  rcases h with rfl | rfl <;> simp

/-- A leaf processed by the callback. -/
theorem parse_leaf {σ : Type} (cb : List Anc → Nat → Op → σ → Res σ) (p : Op) (m : Meta) (path : List Anc) (s s' : σ) (l : Label) (v : Nat)
    (op : Op) (h : current m p = op) (ho : op = .create ∨ op = .replace) (hc : cb (⟨l, none⟩ :: path) v op s = .ok s') :
    parse cb p path s (leaf l v m) = .ok s' := by
  unfold leaf
  rw [parse_set cb p m path s s' l v [] op h ho hc, parseList_nil]

/-- The bag `n` holds the public keys `m`, all else is given. -/
def PubInv (n : Nat) (M : Map PubBag) (P : List CertBag) (s : Ts) (m : Map (Nat × Nat)) : Prop :=
  ∃ b, Ex PubBag.name s.pubBags (upd M n (some b)) ∧ HoldsPubs b.keys m ∧ s.certBags = P

theorem pub_new_ok (path : List Anc) (n : Nat) (M : Map PubBag) (P : List CertBag)
    (p : Op) (mt : Meta) (hop : current mt p = .create) (s : Ts) (m : Map (Nat × Nat)) (k : Nat) (d : Nat × Nat) (m' : Map (Nat × Nat))
    (hi : PubInv n M P s m) (ch : Nat × Nat → PubChange → Option (Nat × Nat))
    (hp : patch (fun p => if fmtOk p.1 then some p else none) ch m (.create k d) = some m') :
    ∃ s', parse tsCb p (⟨.publicKeyBag, some n⟩ :: path) s (pubData k d mt) = .ok s' ∧ PubInv n M P s' m' := by
  obtain ⟨b, h1, h2, h3⟩ := hi
  obtain ⟨ha, y, hy, rfl⟩ := patch_create _ _ _ _ _ _ hp
  by_cases hf : fmtOk d.1 = true
  · simp only [hf, if_true, Option.some.injEq] at hy
    subst hy
    have hfind := holds_absent _ _ _ _ h2 k ha
    obtain ⟨s1, a1, a2, a3⟩ := tsPub_create path s _ n k b h1 (upd_same _ _ _) 0
    rw [upd_upd] at a2
    obtain ⟨s2, b1, b2, b3⟩ := tsPub_fmt path s1 _ n k b.keys.length _ .create a2 (upd_same _ _ _) (findIdx_new _ _ _ hfind (by simp)) d.1
    rw [upd_upd] at b2
    simp only [modify_new, pubType_ok _ _ hf] at b2
    obtain ⟨s3, c1, c2, c3⟩ := tsPub_data path s2 _ n k b.keys.length _ .create b2 (upd_same _ _ _) (findIdx_new _ _ _ hfind (by simp)) d.2
    rw [upd_upd] at c2
    simp only [modify_new] at c2
    refine ⟨s3, ?_, _, c2, holds_append PubKey.name _ _ _ h2 ⟨k, d.1, some d.2⟩ d ha ⟨rfl, rfl⟩, c3.trans (b3.trans (a3.trans h3))⟩
    unfold pubData
    rw [parse_set tsCb p mt _ s s1 _ _ _ .create hop (Or.inl rfl) a1, parseList_cons _ _ _ _ _ _ _ (parse_name_ts _ _ _ _ (Or.inl rfl)),
      parseList_cons _ _ _ _ s2 _ _ ?_, parseList_cons _ _ _ _ s3 _ _ ?_, parseList_nil]
    · exact parse_leaf _ .create .absent _ _ _ _ _ .create rfl (Or.inl rfl) c1
    · exact parse_leaf _ .create .absent _ _ _ _ _ .create rfl (Or.inl rfl) b1
  · simp [hf] at hy

theorem pub_step (path : List Anc) (n : Nat) (M : Map PubBag) (P : List CertBag)
    (s : Ts) (m : Map (Nat × Nat)) (e : PubEdit) (m' : Map (Nat × Nat)) (hi : PubInv n M P s m)
    (hp : patch (fun p => if fmtOk p.1 then some p else none)
      (fun p c => if fmtOk (c.fmt.getD p.1) then some (c.fmt.getD p.1, c.data.getD p.2) else none) m e = some m') :
    ∃ s', parse tsCb .none (⟨.publicKeyBag, some n⟩ :: path) s (pubTree e) = .ok s' ∧ PubInv n M P s' m' := by
  cases e with
  | create k d => exact pub_new_ok path n M P .none .create rfl s m k d m' hi _ hp
  | delete k r =>
    obtain ⟨b, h1, h2, h3⟩ := hi
    obtain ⟨⟨y, hy⟩, rfl⟩ := patch_delete _ _ _ _ _ _ hp
    obtain ⟨j, c, hj, hjc, -, hcn, hcd⟩ := holds_get _ _ _ _ h2 k y hy
    obtain ⟨s', h4, h5, h6⟩ := tsPub_delete path s _ n k j b h1 (upd_same _ _ _) hj 0
    rw [upd_upd] at h5
    refine ⟨s', ?_, _, h5, holds_del PubKey.name _ _ _ h2 k j c hjc hcn, h6.trans h3⟩
    unfold pubTree
    rw [parse_del]
    exact h4
  | change k d =>
    obtain ⟨b, h1, h2, h3⟩ := hi
    obtain ⟨y, z, hy, hz, rfl⟩ := patch_change _ _ _ _ _ _ hp
    by_cases hf : fmtOk (d.fmt.getD y.1) = true
    · simp only [hf, if_true, Option.some.injEq] at hz
      subst hz
      unfold pubTree
      rw [parse_none _ _ _ _ _ _ _ _ rfl, parseList_cons _ _ _ _ _ _ _ (parse_name_ts _ _ _ _ (by simp))]
      -- the format
      have hA : ∃ s1, parseList tsCb .none (⟨.publicKey, some k⟩ :: ⟨.publicKeyBag, some n⟩ :: path) s (replaced .publicKeyFormat d.fmt) = .ok s1 ∧
          PubInv n M P s1 (upd m k (some (d.fmt.getD y.1, y.2))) := by
        cases hd : d.fmt with
        | none => refine ⟨s, rfl, b, h1, ?_, h3⟩; rw [Option.getD_none, upd_self _ _ _ hy]; exact h2
        | some f =>
          obtain ⟨j, c, hj, hjc, -, hcn, hcd⟩ := holds_get _ _ _ _ h2 k y hy
          obtain ⟨s1, b1, b2, b3⟩ := tsPub_fmt path s _ n k j b .replace h1 (upd_same _ _ _) hj f
          rw [upd_upd] at b2
          rw [hd] at hf
          refine ⟨s1, ?_, _, b2, holds_mod PubKey.name _ _ _ h2 k j hj c hjc (fun c => { c with type := pubType f c.type }) (fun _ => rfl) _
            ⟨pubType_ok _ _ hf, hcd.2⟩, b3.trans h3⟩
          unfold replaced
          rw [parseList_cons _ _ _ _ s1 _ _ (parse_leaf _ _ _ _ _ _ _ _ .replace rfl (Or.inr rfl) b1), parseList_nil]
      obtain ⟨s1, e1, b', f1, f2, f3⟩ := hA
      rw [show ((leaf Label.name k :: (replaced Label.publicKeyFormat d.fmt ++ replaced Label.publicKey d.data)).head?).map Tree.val = some k from rfl,
        parseList_append _ _ _ _ _ _ _ e1]
      cases hd : d.data with
      | none => exact ⟨s1, rfl, b', f1, f2, f3⟩
      | some v =>
        obtain ⟨j, c, hj, hjc, -, hcn, hcd⟩ := holds_get _ _ _ _ f2 k _ (upd_same _ _ _)
        obtain ⟨s2, b1, b2, b3⟩ := tsPub_data path s1 _ n k j b' .replace f1 (upd_same _ _ _) hj v
        rw [upd_upd] at b2
        have := holds_mod PubKey.name _ _ _ f2 k j hj c hjc (fun c => { c with data := some v }) (fun _ => rfl) (d.fmt.getD y.1, v)
            ⟨hcd.1, rfl⟩
        rw [upd_upd] at this
        refine ⟨s2, ?_, _, b2, this, b3.trans f3⟩
        unfold replaced
        rw [parseList_cons _ _ _ _ s2 _ _ (parse_leaf _ _ _ _ _ _ _ _ .replace rfl (Or.inr rfl) b1), parseList_nil]
    · simp [hf] at hz

/-- The truststore holds the bags of public keys `m`, all else is given. -/
def PubBagInv (P : List CertBag) (s : Ts) (m : Map (Map (Nat × Nat))) : Prop :=
  Holds PubBag.name (fun b m => HoldsPubs b.keys m) s.pubBags m ∧ s.certBags = P

theorem pubInv_bags (n : Nat) (M : Map PubBag) (cm : Map (Map (Nat × Nat))) (P : List CertBag) (s : Ts) (m : Map (Nat × Nat))
    (hr : ∀ x, x ≠ n → OptRel (fun b m => HoldsPubs (PubBag.keys b) m) (M x) (cm x)) (h : PubInv n M P s m) :
    PubBagInv P s (upd cm n (some m)) := by
  obtain ⟨b, h1, h2, h3⟩ := h
  refine ⟨ex_holds PubBag.name _ _ _ _ h1 ?_, h3⟩
  intro x
  simp only [upd]
  split
  · exact h2
  · rename_i hx; exact hr x hx

theorem pubBag_new_ok (path : List Anc) (P : List CertBag) (p : Op) (mt : Meta) (hop : current mt p = .create) (s : Ts) (cm : Map (Map (Nat × Nat)))
    (k : Nat) (l : List (Nat × (Nat × Nat))) (cm' : Map (Map (Nat × Nat))) (hi : PubBagInv P s cm)
    (hp : patch pubMap patchPubs cm (.create k l) = some cm') :
    ∃ s', parse tsCb p path s (pubBagData k l mt) = .ok s' ∧ PubBagInv P s' cm' := by
  obtain ⟨h1, h2⟩ := hi
  obtain ⟨ha, y, hy, rfl⟩ := patch_create _ _ _ _ _ _ hp
  obtain ⟨M, h3, h4⟩ := holds_ex _ _ _ _ h1
  have hnone : M k = none := optrel_none _ _ (ha ▸ h4 k)
  have h5 : Ex PubBag.name (s.pubBags ++ [⟨k, []⟩]) (upd M k (some ⟨k, []⟩)) :=
    holds_append PubBag.name _ _ _ h3 ⟨k, []⟩ _ hnone rfl
  obtain ⟨s', h6, h7⟩ := creates_ok tsCb (⟨.publicKeyBag, some k⟩ :: path) _ _ (fun k d => pubData k d)
    (PubInv k M P) (fun s m k' x m' hi hp => pub_new_ok path k M P .create .absent rfl s m k' x m' hi _ hp) l
    { s with pubBags := s.pubBags ++ [⟨k, []⟩] } (fun _ => none) y ⟨⟨k, []⟩, h5, holds_nil _ _, h2⟩ hy
  refine ⟨s', ?_, pubInv_bags k M cm P s' y (fun x _ => h4 x) h7⟩
  unfold pubBagData
  rw [parse_set tsCb p mt path s { s with pubBags := s.pubBags ++ [⟨k, []⟩] } _ _ _ .create hop (Or.inl rfl) (by rfl),
    parseList_cons _ _ _ _ _ _ _ (parse_name_ts _ _ _ _ (Or.inl rfl))]
  exact h6

theorem pubBag_step (path : List Anc) (P : List CertBag) (s : Ts) (cm : Map (Map (Nat × Nat))) (e : PubBagEdit) (cm' : Map (Map (Nat × Nat)))
    (hi : PubBagInv P s cm) (hp : patch pubMap patchPubs cm e = some cm') :
    ∃ s', parse tsCb .none path s (pubBagTree e) = .ok s' ∧ PubBagInv P s' cm' := by
  cases e with
  | create k l => exact pubBag_new_ok path P .none .create rfl s cm k l cm' hi hp
  | delete k r =>
    obtain ⟨h1, h2⟩ := hi
    obtain ⟨⟨y, hy⟩, rfl⟩ := patch_delete _ _ _ _ _ _ hp
    obtain ⟨j, c, hj, hjc, -, hcn, hcd⟩ := holds_get _ _ _ _ h1 k y hy
    refine ⟨{ s with pubBags := swapDel s.pubBags j }, ?_, holds_del PubBag.name _ _ _ h1 k j c hjc hcn, h2⟩
    unfold pubBagTree
    rw [parse_del]
    have : getPubBag (⟨.publicKeyBag, some k⟩ :: path) s = .found j := by simp only [getPubBag, keyOf_head, hj]
    simp [tsCb, tsPubBag, setting, Tree.val, leaf, this]
  | change k es =>
    obtain ⟨h1, h2⟩ := hi
    obtain ⟨y, z, hy, hz, rfl⟩ := patch_change _ _ _ _ _ _ hp
    obtain ⟨M, h3, h4⟩ := holds_ex _ _ _ _ h1
    obtain ⟨b, hb, hbc⟩ := optrel_some _ _ _ (hy ▸ h4 k)
    obtain ⟨s', h6, h7⟩ := edits_ok tsCb .none (⟨.publicKeyBag, some k⟩ :: path) _ _ pubTree
      (PubInv k M P) (fun s m e m' hi hp => pub_step path k M P s m e m' hi hp) es
      s y z ⟨b, by rw [upd_self _ _ _ hb]; exact h3, hbc, h2⟩ hz
    refine ⟨s', ?_, pubInv_bags k M cm P s' z (fun x _ => h4 x) h7⟩
    unfold pubBagTree
    rw [parse_none _ _ _ _ _ _ _ _ rfl, parseList_cons _ _ _ _ _ _ _ (parse_name_ts _ _ _ _ (by simp))]
    exact h6

/-! ## Truststore -/

theorem certBags_edits (path : List Anc) (s : Ts) (c : Map (Map Nat)) (cs : List CertBagEdit) (c' : Map (Map Nat))
    (h : Holds CertBag.name (fun b m => HoldsCerts b.certs m) s.certBags c) (hp : patchCertBags c cs = some c') :
    ∃ s', parseList tsCb .none path s (cs.map certBagTree) = .ok s' ∧
      Holds CertBag.name (fun b m => HoldsCerts b.certs m) s'.certBags c' ∧ s'.pubBags = s.pubBags :=
  edits_ok tsCb .none path _ _ certBagTree (CertBagInv s.pubBags) (fun s1 m e m' hi hp => certBag_step path _ s1 m e m' hi hp) cs s c c' ⟨h, rfl⟩ hp

theorem pubBags_edits (path : List Anc) (s : Ts) (c : Map (Map (Nat × Nat))) (cs : List PubBagEdit) (c' : Map (Map (Nat × Nat)))
    (h : Holds PubBag.name (fun b m => HoldsPubs b.keys m) s.pubBags c) (hp : patchPubBags c cs = some c') :
    ∃ s', parseList tsCb .none path s (cs.map pubBagTree) = .ok s' ∧
      Holds PubBag.name (fun b m => HoldsPubs b.keys m) s'.pubBags c' ∧ s'.certBags = s.certBags :=
  edits_ok tsCb .none path _ _ pubBagTree (PubBagInv s.certBags) (fun s1 m e m' hi hp => pubBag_step path _ s1 m e m' hi hp) cs s c c' ⟨h, rfl⟩ hp

theorem ts_diff_ok (s : Ts) (c : TsConf) (d : TsDiff) (c' : TsConf) (hs : HoldsTs s c) (hp : patchTs c d = some c') :
    ∃ s', fillTs (some (tsTree d)) .unknown s = .ok s' ∧ HoldsTs s' c' := by
  obtain ⟨hc, hq⟩ := hs
  cases d with
  | edit cs ps =>
    simp only [patchTs] at hp
    cases h1 : patchCertBags c.certBags cs with
    | none => rw [h1] at hp; cases hp
    | some a =>
      cases h2 : patchPubBags c.pubBags ps with
      | none => rw [h1, h2] at hp; cases hp
      | some b =>
        rw [h1, h2] at hp; simp only [Option.some.injEq] at hp; subst hp
        obtain ⟨s1, a1, a2, a3⟩ := certBags_edits (⟨.certificateBags, ((cs.map certBagTree).head?).map Tree.val⟩ ::
          [⟨.truststore, some 0⟩]) s _ cs a hc h1
        obtain ⟨s2, b1, b2, b3⟩ := pubBags_edits (⟨.publicKeyBags, ((ps.map pubBagTree).head?).map Tree.val⟩ ::
          [⟨.truststore, some 0⟩]) s1 _ ps b (a3 ▸ hq) h2
        refine ⟨s2, ?_, b3 ▸ a2, b2⟩
        unfold fillTs tsTree
        dsimp only
        rw [parse_none _ _ _ _ _ _ _ _ rfl, parseList_cons _ _ _ _ s1 _ _ ?_, parseList_cons _ _ _ _ s2 _ _ ?_, parseList_nil]
        · rw [parse_none _ _ _ _ _ _ _ _ rfl]; exact b1
        · rw [parse_none _ _ _ _ _ _ _ _ rfl]; exact a1
  | clearCerts r ps =>
    simp only [patchTs] at hp
    cases h2 : patchPubBags c.pubBags ps with
    | none => rw [h2] at hp; cases hp
    | some b =>
      rw [h2] at hp; simp only [Option.some.injEq] at hp; subst hp
      obtain ⟨s2, b1, b2, b3⟩ := pubBags_edits (⟨.publicKeyBags, ((ps.map pubBagTree).head?).map Tree.val⟩ ::
        [⟨.truststore, some 0⟩]) { s with certBags := [] } _ ps b hq h2
      refine ⟨s2, ?_, ?_, b2⟩
      · unfold fillTs tsTree
        dsimp only
        rw [parse_none _ _ _ _ _ _ _ _ rfl, parseList_cons _ _ _ _ { s with certBags := [] } _ _ ?_, parseList_cons _ _ _ _ s2 _ _ ?_, parseList_nil]
        · rw [parse_none _ _ _ _ _ _ _ _ rfl]; exact b1
        · rw [parse_del]; rfl
      · rw [b3]; exact holds_nil _ _
  | clearPubs cs r =>
    simp only [patchTs] at hp
    cases h1 : patchCertBags c.certBags cs with
    | none => rw [h1] at hp; cases hp
    | some a =>
      rw [h1] at hp; simp only [Option.some.injEq] at hp; subst hp
      obtain ⟨s1, a1, a2, a3⟩ := certBags_edits (⟨.certificateBags, ((cs.map certBagTree).head?).map Tree.val⟩ ::
        [⟨.truststore, some 0⟩]) s _ cs a hc h1
      refine ⟨{ s1 with pubBags := [] }, ?_, a2, holds_nil _ _⟩
      unfold fillTs tsTree
      dsimp only
      rw [parse_none _ _ _ _ _ _ _ _ rfl, parseList_cons _ _ _ _ s1 _ _ ?_, parseList_cons _ _ _ _ { s1 with pubBags := [] } _ _ ?_, parseList_nil]
      · rw [parse_del]; rfl
      · rw [parse_none _ _ _ _ _ _ _ _ rfl]; exact a1
  | clear r =>
    simp only [patchTs, Option.some.injEq] at hp; subst hp
    exact ⟨⟨[], []⟩, rfl, holds_nil _ _, holds_nil _ _⟩

theorem ts_data_ok (d : TsData) (c : TsConf) (h : d.conf = some c) :
    ∃ s', fillTs (some d.tree) .create ⟨[], []⟩ = .ok s' ∧ HoldsTs s' c := by
  simp only [TsData.conf, patchTs] at h
  cases h1 : patchCertBags TsConf.empty.certBags (d.certBags.map (fun b => .create b.1 b.2)) with
  | none => rw [h1] at h; cases h
  | some a =>
    cases h2 : patchPubBags TsConf.empty.pubBags (d.pubBags.map (fun b => .create b.1 b.2)) with
    | none => rw [h1, h2] at h; cases h
    | some b =>
      rw [h1, h2] at h; simp only [Option.some.injEq] at h; subst h
      obtain ⟨s1, a1, a2, a3⟩ := creates_ok tsCb
        (⟨.certificateBags, ((d.certBags.map (fun b => certBagData b.1 b.2)).head?).map Tree.val⟩ :: [⟨.truststore, some 0⟩]) _ _
        (fun k l => certBagData k l) (CertBagInv [])
        (fun s m k x m' hi hp => certBag_new_ok _ _ .create .absent rfl s m k x m' hi hp) d.certBags ⟨[], []⟩ _ a ⟨holds_nil _ _, rfl⟩ h1
      obtain ⟨s2, b1, b2, b3⟩ := creates_ok tsCb
        (⟨.publicKeyBags, ((d.pubBags.map (fun b => pubBagData b.1 b.2)).head?).map Tree.val⟩ :: [⟨.truststore, some 0⟩]) _ _
        (fun k l => pubBagData k l) (PubBagInv s1.certBags)
        (fun s m k x m' hi hp => pubBag_new_ok _ _ .create .absent rfl s m k x m' hi hp) d.pubBags s1 _ b ⟨by rw [a3]; exact holds_nil _ _, rfl⟩ h2
      refine ⟨s2, ?_, b3 ▸ a2, b2⟩
      unfold fillTs TsData.tree
      dsimp only
      rw [parse_set tsCb .create .absent [] _ ⟨[], []⟩ _ _ _ .create rfl (Or.inl rfl) (by rfl), parseList_cons _ _ _ _ s1 _ _ ?_,
        parseList_cons _ _ _ _ s2 _ _ ?_, parseList_nil]
      · rw [parse_set tsCb .create .absent _ _ s1 _ _ _ .create rfl (Or.inl rfl) (by rfl)]; exact b1
      · rw [parse_set tsCb .create .absent _ _ ⟨[], []⟩ _ _ _ .create rfl (Or.inl rfl) (by rfl)]; exact a1

/-! ## Keystore: leaves of a key -/

theorem getKey_ok (path : List Anc) (s : Ks) (M : Map AsymKey) (n : Nat) (a : AsymKey) (hk : keyOf path .asymmetricKey = .found n)
    (hs : Ex AsymKey.name s.keys M) (hn : M n = some a) :
    ∃ i, getKey path s = .found i ∧ s.keys.findIdx? (fun x => x.name == n) = some i ∧ s.keys[i]? = some a ∧ a.name = n := by
  obtain ⟨i, h1, h2, h3⟩ := ex_get AsymKey.name _ M hs n a hn
  exact ⟨i, by simp only [getKey, hk, h1], h1, h2, h3⟩

/-- The key `n` is `a`, all else is given. -/
def KInv (n : Nat) (M : Map AsymKey) (s : Ks) (a : AsymKey) : Prop := Ex AsymKey.name s.keys (upd M n (some a))

theorem kinv_mod (n : Nat) (M : Map AsymKey) (s : Ks) (a : AsymKey) (i : Nat) (h : KInv n M s a)
    (h1 : s.keys.findIdx? (fun x => x.name == n) = some i) (h2 : s.keys[i]? = some a) (f : AsymKey → AsymKey)
    (hf : ∀ x, (f x).name = x.name) : KInv n M { s with keys := s.keys.modify i f } (f a) := by
  have := holds_mod AsymKey.name _ _ _ h n i h1 a h2 f hf (f a) rfl
  rw [upd_upd] at this
  exact this

theorem ksMod_ok (path : List Anc) (n : Nat) (M : Map AsymKey) (s : Ks) (a : AsymKey) (hk : keyOf path .asymmetricKey = .found n)
    (h : KInv n M s a) (f : AsymKey → AsymKey) (hf : ∀ x, (f x).name = x.name) : ∃ s', ksMod path f s = .ok s' ∧ KInv n M s' (f a) := by
  obtain ⟨i, h1, h2, h3, -⟩ := getKey_ok path s _ n a hk h (upd_same _ _ _)
  exact ⟨{ s with keys := s.keys.modify i f }, by simp only [ksMod, h1], kinv_mod n M s a i h h2 h3 f hf⟩

theorem keyOf_leaf (l : Label) (x : Option Nat) (n : Nat) (path : List Anc) (h : l ≠ .asymmetricKey) :
    keyOf (⟨l, x⟩ :: ⟨.asymmetricKey, some n⟩ :: path) .asymmetricKey = .found n := by
  rw [keyOf_cons _ _ _ _ h]; exact keyOf_head _ _ _

theorem ks_fmt (path : List Anc) (n : Nat) (M : Map AsymKey) (s : Ks) (a : AsymKey) (h : KInv n M s a) (v : Nat) (op : Op) :
    ∃ s', ksCb (⟨.publicKeyFormat, none⟩ :: ⟨.asymmetricKey, some n⟩ :: path) v op s = .ok s' ∧
      KInv n M s' { a with pubType := pubType v a.pubType } :=
  ksMod_ok (⟨.publicKeyFormat, none⟩ :: ⟨.asymmetricKey, some n⟩ :: path) n M s a (keyOf_leaf _ _ _ _ (by decide)) h
    (fun k => { k with pubType := pubType v k.pubType }) (fun _ => rfl)

theorem ks_pub (path : List Anc) (n : Nat) (M : Map AsymKey) (s : Ks) (a : AsymKey) (h : KInv n M s a) (v : Nat) (op : Op) :
    ∃ s', ksCb (⟨.publicKey, none⟩ :: ⟨.asymmetricKey, some n⟩ :: path) v op s = .ok s' ∧ KInv n M s' { a with pubData := some v } :=
  ksMod_ok (⟨.publicKey, none⟩ :: ⟨.asymmetricKey, some n⟩ :: path) n M s a (keyOf_leaf _ _ _ _ (by decide)) h
    (fun k => { k with pubData := some v }) (fun _ => rfl)

theorem ks_priv (path : List Anc) (n : Nat) (M : Map AsymKey) (s : Ks) (a : AsymKey) (h : KInv n M s a) (v : Nat) (op : Op)
    (ho : op = .create ∨ op = .replace) :
    ∃ s', ksCb (⟨.cleartextPrivateKey, none⟩ :: ⟨.asymmetricKey, some n⟩ :: path) v op s = .ok s' ∧ KInv n M s' { a with privData := some v } := by
  have hset : setting op = true := by rcases ho with rfl | rfl <;> rfl
  obtain ⟨s', h1, h2⟩ := ksMod_ok (⟨.cleartextPrivateKey, none⟩ :: ⟨.asymmetricKey, some n⟩ :: path) n M s a (keyOf_leaf _ _ _ _ (by decide)) h
    (fun k => { k with privData := if setting op then some v else if op = .delete then none else k.privData }) (fun _ => rfl)
  refine ⟨s', h1, ?_⟩
  simpa only [hset, if_true] using h2

theorem ks_pfmt (path : List Anc) (n : Nat) (M : Map AsymKey) (s : Ks) (a : AsymKey) (h : KInv n M s a) (v : Nat) (op : Op)
    (hv : privOk v = true) :
    ∃ s', ksCb (⟨.privateKeyFormat, none⟩ :: ⟨.asymmetricKey, some n⟩ :: path) v op s = .ok s' ∧ KInv n M s' { a with privType := v } := by
  obtain ⟨i, h1, h2, h3, -⟩ := getKey_ok (⟨.privateKeyFormat, none⟩ :: ⟨.asymmetricKey, some n⟩ :: path) s _ n a (keyOf_leaf _ _ _ _ (by decide)) h (upd_same _ _ _)
  have hp : privSupported v = true := by
    simp only [privOk, Bool.or_eq_true, beq_iff_eq] at hv
    simp only [privSupported, decide_eq_true_eq]; omega
  refine ⟨{ s with keys := s.keys.modify i (fun k => { k with privType := v }) }, ?_, kinv_mod n M s a i h h2 h3 (fun k => { k with privType := v }) (fun _ => rfl)⟩
  simp only [ksCb, List.head?_cons, Option.map_some, ksPrivFormat, h1, hp, if_true]

theorem parse_name_ks (p : Op) (path : List Anc) (s : Ks) (v : Nat) (h : p = .create ∨ p = .replace ∨ p = .none) :
    parse ksCb p path s (leaf .name v) = .ok s := by
  rcases h with rfl | rfl | rfl <;> simp [leaf, parse, parseList, current, Verif.ConfTree.ownOp, ksCb]

/-! ## Keystore: certificates of a key -/

theorem getKeyCert_ok (path : List Anc) (n : Nat) (M : Map AsymKey) (s : Ks) (a : AsymKey) (k j : Nat) (hk : keyOf path .asymmetricKey = .found n)
    (hc : keyOf path .certificate = .found k) (h : KInv n M s a) (hj : a.certs.findIdx? (fun x => x.name == k) = some j) :
    ∃ i, getKey path s = .found i ∧ getKeyCert path s = .found (i, j) ∧ s.keys.findIdx? (fun x => x.name == n) = some i ∧ s.keys[i]? = some a := by
  obtain ⟨i, h1, h2, h3, -⟩ := getKey_ok path s _ n a hk h (upd_same _ _ _)
  exact ⟨i, h1, by simp only [getKeyCert, h1, hc, h3, Option.bind_some, hj], h2, h3⟩

theorem ksCert_create (path : List Anc) (n : Nat) (M : Map AsymKey) (s : Ks) (a : AsymKey) (hk : keyOf path .asymmetricKey = .found n)
    (h : KInv n M s a) (k v : Nat) :
    ∃ s', ksCb (⟨.certificate, some k⟩ :: path) v .create s = .ok s' ∧ KInv n M s' { a with certs := a.certs ++ [⟨k, none⟩] } := by
  obtain ⟨i, h1, h2, h3, -⟩ := getKey_ok (⟨.certificate, some k⟩ :: path) s _ n a (by rw [keyOf_cons _ _ _ _ (by decide)]; exact hk) h (upd_same _ _ _)
  refine ⟨{ s with keys := s.keys.modify i (fun b => { b with certs := b.certs ++ [⟨k, none⟩] }) }, ?_,
    kinv_mod n M s a i h h2 h3 (fun b => { b with certs := b.certs ++ [⟨k, none⟩] }) (fun _ => rfl)⟩
  simp [ksCb, ksCert, h1, setting, ownKey]

theorem ksCert_delete (path : List Anc) (n : Nat) (M : Map AsymKey) (s : Ks) (a : AsymKey) (hk : keyOf path .asymmetricKey = .found n)
    (h : KInv n M s a) (k v j : Nat) (hj : a.certs.findIdx? (fun x => x.name == k) = some j) :
    ∃ s', ksCb (⟨.certificate, some k⟩ :: path) v .delete s = .ok s' ∧ KInv n M s' { a with certs := swapDel a.certs j } := by
  obtain ⟨i, h0, h1, h2, h3⟩ := getKeyCert_ok (⟨.certificate, some k⟩ :: path) n M s a k j (by rw [keyOf_cons _ _ _ _ (by decide)]; exact hk)
    (keyOf_head _ _ _) h hj
  refine ⟨{ s with keys := s.keys.modify i (fun b => { b with certs := swapDel b.certs j }) }, ?_,
    kinv_mod n M s a i h h2 h3 (fun b => { b with certs := swapDel b.certs j }) (fun _ => rfl)⟩
  simp [ksCb, ksCert, h0, h1, setting]

theorem ksCertData_set (path : List Anc) (n : Nat) (M : Map AsymKey) (s : Ks) (a : AsymKey) (hk : keyOf path .asymmetricKey = .found n)
    (h : KInv n M s a) (k v j : Nat) (hj : a.certs.findIdx? (fun x => x.name == k) = some j) (op : Op) (ho : op = .create ∨ op = .replace) :
    ∃ s', ksCb (⟨.certData, none⟩ :: ⟨.certificate, some k⟩ :: path) v op s = .ok s' ∧
      KInv n M s' { a with certs := a.certs.modify j (fun c => { c with data := some v }) } := by
  obtain ⟨i, h0, h1, h2, h3⟩ := getKeyCert_ok (⟨.certData, none⟩ :: ⟨.certificate, some k⟩ :: path) n M s a k j
    (by rw [keyOf_cons _ _ _ _ (by decide), keyOf_cons _ _ _ _ (by decide)]; exact hk)
    (by rw [keyOf_cons _ _ _ _ (by decide)]; exact keyOf_head _ _ _) h hj
  have hset : setting op = true := by rcases ho with rfl | rfl <;> rfl
  refine ⟨{ s with keys := s.keys.modify i (fun b => { b with certs := b.certs.modify j (fun c => { c with data := some v }) }) }, ?_,
    kinv_mod n M s a i h h2 h3 (fun b => { b with certs := b.certs.modify j (fun c => { c with data := some v }) }) (fun _ => rfl)⟩
  simp [ksCb, ksCertData, h1, hset]

/-- The key `n` is `a` with the certificates `m`. -/
def KCertInv (n : Nat) (M : Map AsymKey) (a : AsymKey) (s : Ks) (m : Map Nat) : Prop :=
  ∃ l, KInv n M s { a with certs := l } ∧ HoldsCerts l m

theorem kcert_new_ok (path : List Anc) (n : Nat) (M : Map AsymKey) (a : AsymKey) (hk : keyOf path .asymmetricKey = .found n)
    (p : Op) (mt : Meta) (hop : current mt p = .create) (s : Ks) (m : Map Nat) (k d : Nat) (m' : Map Nat) (hi : KCertInv n M a s m)
    (hp : patch some (fun _ d => some d) m (.create k d) = some m') :
    ∃ s', parse ksCb p path s (certData k d mt) = .ok s' ∧ KCertInv n M a s' m' := by
  obtain ⟨l, h1, h2⟩ := hi
  obtain ⟨ha, y, hy, rfl⟩ := patch_create _ _ _ _ _ _ hp
  cases hy
  have hf := holds_absent _ _ _ _ h2 k ha
  obtain ⟨s1, a1, a2⟩ := ksCert_create path n M s _ hk h1 k 0
  obtain ⟨s2, b1, b2⟩ := ksCertData_set path n M s1 _ hk a2 k d l.length (findIdx_new _ _ _ hf (by simp)) .create (Or.inl rfl)
  simp only [modify_new] at b2
  refine ⟨s2, ?_, _, b2, holds_append Cert.name _ _ _ h2 ⟨k, some d⟩ d ha rfl⟩
  unfold certData
  rw [parse_set ksCb p mt path s s1 _ _ _ .create hop (Or.inl rfl) a1, parseList_cons _ _ _ _ _ _ _ (parse_name_ks _ _ _ _ (Or.inl rfl)),
    parseList_cons _ _ _ _ s2 _ _ ?_, parseList_nil]
  exact parse_leaf _ .create .absent _ _ _ _ _ .create rfl (Or.inl rfl) b1

theorem kcert_step (path : List Anc) (n : Nat) (M : Map AsymKey) (a : AsymKey) (hk : keyOf path .asymmetricKey = .found n)
    (s : Ks) (m : Map Nat) (e : CertEdit) (m' : Map Nat) (hi : KCertInv n M a s m)
    (hp : patch some (fun _ d => some d) m e = some m') :
    ∃ s', parse ksCb .none path s (certTree e) = .ok s' ∧ KCertInv n M a s' m' := by
  cases e with
  | create k d => exact kcert_new_ok path n M a hk .none .create rfl s m k d m' hi hp
  | delete k r =>
    obtain ⟨l, h1, h2⟩ := hi
    obtain ⟨⟨y, hy⟩, rfl⟩ := patch_delete _ _ _ _ _ _ hp
    obtain ⟨j, c, hj, hjc, -, hcn, hcd⟩ := holds_get _ _ _ _ h2 k y hy
    obtain ⟨s', h4, h5⟩ := ksCert_delete path n M s _ hk h1 k 0 j hj
    refine ⟨s', ?_, _, h5, holds_del Cert.name _ _ _ h2 k j c hjc hcn⟩
    unfold certTree
    rw [parse_del]
    exact h4
  | change k d =>
    obtain ⟨l, h1, h2⟩ := hi
    obtain ⟨y, z, hy, hz, rfl⟩ := patch_change _ _ _ _ _ _ hp
    cases hz
    obtain ⟨j, c, hj, hjc, -, hcn, hcd⟩ := holds_get _ _ _ _ h2 k y hy
    obtain ⟨s', h4, h5⟩ := ksCertData_set path n M s _ hk h1 k d j hj .replace (Or.inr rfl)
    refine ⟨s', ?_, _, h5, holds_mod Cert.name _ _ _ h2 k j hj c hjc (fun c => { c with data := some d }) (fun _ => rfl) d rfl⟩
    unfold certTree
    rw [parse_none _ _ _ _ _ _ _ _ rfl, parseList_cons _ _ _ _ _ _ _ (parse_name_ks _ _ _ _ (by simp)), parseList_cons _ _ _ _ s' _ _ ?_, parseList_nil]
    exact parse_leaf _ .none .replace _ _ _ _ _ .replace rfl (Or.inr rfl) h4

/-! ## Keystore: keys -/

/-- A key is as configured. -/
def KRel (k : AsymKey) (d : KeyConf) : Prop :=
  (∀ f, d.pubFmt = some f → k.pubType = f) ∧ k.pubData = d.pub ∧ k.privType = d.privFmt ∧ k.privData = some d.priv ∧ HoldsCerts k.certs d.certs

theorem kinv_keys (n : Nat) (M : Map AsymKey) (cm : Map KeyConf) (s : Ks) (a : AsymKey) (d : KeyConf)
    (hr : ∀ x, x ≠ n → OptRel KRel (M x) (cm x)) (h : KInv n M s a) (hd : KRel a d) : HoldsKs s (upd cm n (some d)) := by
  refine ex_holds AsymKey.name KRel _ _ _ h ?_
  intro x
  simp only [upd]
  split
  · exact hd
  · rename_i hx; exact hr x hx

theorem opt_pub_ok (path : List Anc) (n : Nat) (M : Map AsymKey) (s : Ks) (a : AsymKey) (h : KInv n M s a) (o : Option Nat) :
    ∃ s', parseList ksCb .create (⟨.asymmetricKey, some n⟩ :: path) s (optLeaf .publicKey o) = .ok s' ∧
      KInv n M s' { a with pubData := o.or a.pubData } := by
  cases o with
  | none => exact ⟨s, rfl, h⟩
  | some v =>
    obtain ⟨s', h1, h2⟩ := ks_pub path n M s a h v .create
    refine ⟨s', ?_, h2⟩
    unfold optLeaf
    rw [parseList_cons _ _ _ _ s' _ _ (parse_leaf _ .create .absent _ _ _ _ _ .create rfl (Or.inl rfl) h1), parseList_nil]

theorem opt_fmt_ok (path : List Anc) (n : Nat) (M : Map AsymKey) (s : Ks) (a : AsymKey) (h : KInv n M s a) (o : Option Nat)
    (ho : o.all fmtOk = true) :
    ∃ s', parseList ksCb .create (⟨.asymmetricKey, some n⟩ :: path) s (optLeaf .publicKeyFormat o) = .ok s' ∧
      KInv n M s' { a with pubType := o.getD a.pubType } := by
  cases o with
  | none => exact ⟨s, rfl, h⟩
  | some v =>
    obtain ⟨s', h1, h2⟩ := ks_fmt path n M s a h v .create
    rw [pubType_ok v _ ho] at h2
    refine ⟨s', ?_, h2⟩
    unfold optLeaf
    rw [parseList_cons _ _ _ _ s' _ _ (parse_leaf _ .create .absent _ _ _ _ _ .create rfl (Or.inl rfl) h1), parseList_nil]

theorem head_leaf (l : Label) (v : Nat) (m : Meta) (t : List Tree) : ((leaf l v m :: t).head?).map Tree.val = some v := rfl

theorem key_new_ok (path : List Anc) (p : Op) (mt : Meta) (hop : current mt p = .create) (s : Ks) (cm : Map KeyConf)
    (k : Nat) (d : KeyData) (cm' : Map KeyConf) (hi : HoldsKs s cm) (hp : patch KeyData.conf KeyConf.change cm (.create k d) = some cm') :
    ∃ s', parse ksCb p path s (keyData k d mt) = .ok s' ∧ HoldsKs s' cm' := by
  obtain ⟨ha, y, hy, rfl⟩ := patch_create _ _ _ _ _ _ hp
  obtain ⟨M, h3, h4⟩ := holds_ex AsymKey.name KRel _ _ hi
  have hnone : M k = none := optrel_none _ _ (ha ▸ h4 k)
  simp only [KeyData.conf] at hy
  by_cases hv : (d.pubFmt.all fmtOk && privOk d.privFmt) = true
  · simp only [hv, if_true] at hy
    simp only [Bool.and_eq_true] at hv
    cases hm : certMap d.certs with
    | none => rw [hm] at hy; cases hy
    | some m =>
      rw [hm] at hy; simp only [Option.map_some, Option.some.injEq] at hy; subst hy
      have h5 : KInv k M { s with keys := s.keys ++ [⟨k, 0, none, 0, none, []⟩] } ⟨k, 0, none, 0, none, []⟩ :=
        holds_append AsymKey.name _ _ _ h3 ⟨k, 0, none, 0, none, []⟩ _ hnone rfl
      obtain ⟨s1, a1, a2⟩ := opt_fmt_ok path k M _ _ h5 d.pubFmt hv.1
      obtain ⟨s2, b1, b2⟩ := opt_pub_ok path k M _ _ a2 d.pub
      obtain ⟨s3, c1, c2⟩ := ks_pfmt path k M _ _ b2 d.privFmt .create hv.2
      obtain ⟨s4, d1, d2⟩ := ks_priv path k M _ _ c2 d.priv .create (Or.inl rfl)
      simp only [Option.or_none] at d2
      obtain ⟨s5, e1, l, e2, e3⟩ := creates_ok ksCb
        (⟨.other, ((d.certs.map (fun p => certData p.1 p.2)).head?).map Tree.val⟩ :: ⟨.asymmetricKey, some k⟩ :: path) some (fun _ d => some d)
        (fun k d => certData k d) (KCertInv k M ⟨k, d.pubFmt.getD 0, d.pub, d.privFmt, some d.priv, []⟩)
        (fun s m k' x m' hi hp => kcert_new_ok _ k M _ (keyOf_leaf _ _ _ _ (by decide)) .create .absent rfl s m k' x m' hi hp) d.certs s4 (fun _ => none) m
        ⟨[], d2, holds_nil _ _⟩ hm
      refine ⟨s5, ?_, kinv_keys k M cm s5 _ _ (fun x _ => h4 x) e2 ⟨?_, ?_, rfl, rfl, e3⟩⟩
      · unfold keyData
        rw [parse_set ksCb p mt path s { s with keys := s.keys ++ [⟨k, 0, none, 0, none, []⟩] } _ _ _ .create hop (Or.inl rfl) (by rfl),
          parseList_cons _ _ _ _ _ _ _ (parse_name_ks _ _ _ _ (Or.inl rfl)), head_leaf, parseList_append _ _ _ _ s1 _ _ a1, parseList_append _ _ _ _ s2 _ _ b1,
          parseList_cons _ _ _ _ s3 _ _ ?_, parseList_cons _ _ _ _ s4 _ _ ?_, parseList_cons _ _ _ _ s5 _ _ ?_, parseList_nil]
        · rw [parse_set ksCb .create .absent _ s4 s4 _ _ _ .create rfl (Or.inl rfl) (by rfl)]; exact e1
        · exact parse_leaf _ .create .absent _ _ _ _ _ .create rfl (Or.inl rfl) d1
        · exact parse_leaf _ .create .absent _ _ _ _ _ .create rfl (Or.inl rfl) c1
      · intro f hf
        simp only at hf ⊢
        rw [hf]; rfl
      · rfl
  · simp [hv] at hy

theorem edit_fmt_ok (path : List Anc) (n : Nat) (M : Map AsymKey) (s : Ks) (a : AsymKey) (h : KInv n M s a) (e : LeafEdit) (o o' : Option Nat)
    (he : e.apply o = some o') (hr : ∀ f, o = some f → a.pubType = f) (hok : o'.all fmtOk = true) :
    ∃ s' t, parseList ksCb .none (⟨.asymmetricKey, some n⟩ :: path) s (leafTree .publicKeyFormat e) = .ok s' ∧
      KInv n M s' { a with pubType := t } ∧ ∀ f, o' = some f → t = f := by
  cases e with
  | keep => simp only [LeafEdit.apply, Option.some.injEq] at he; subst he; exact ⟨s, a.pubType, rfl, h, hr⟩
  | create v =>
    cases o with
    | some w => simp [LeafEdit.apply] at he
    | none =>
      simp only [LeafEdit.apply, Option.some.injEq] at he; subst he
      obtain ⟨s', h1, h2⟩ := ks_fmt path n M s a h v .create
      rw [pubType_ok v _ hok] at h2
      refine ⟨s', v, ?_, h2, by simp⟩
      unfold leafTree
      rw [parseList_cons _ _ _ _ s' _ _ (parse_leaf _ .none .create _ _ _ _ _ .create rfl (Or.inl rfl) h1), parseList_nil]
  | replace v =>
    cases o with
    | none => simp [LeafEdit.apply] at he
    | some w =>
      simp only [LeafEdit.apply, Option.some.injEq] at he; subst he
      obtain ⟨s', h1, h2⟩ := ks_fmt path n M s a h v .replace
      rw [pubType_ok v _ hok] at h2
      refine ⟨s', v, ?_, h2, by simp⟩
      unfold leafTree
      rw [parseList_cons _ _ _ _ s' _ _ (parse_leaf _ .none .replace _ _ _ _ _ .replace rfl (Or.inr rfl) h1), parseList_nil]
  | delete v =>
    cases o with
    | none => simp [LeafEdit.apply] at he
    | some w =>
      simp only [LeafEdit.apply] at he
      by_cases hvw : v = w
      · simp only [hvw, if_true, Option.some.injEq] at he; subst he
        obtain ⟨s', h1, h2⟩ := ks_fmt path n M s a h v .delete
        refine ⟨s', _, ?_, h2, by simp⟩
        unfold leafTree
        rw [parseList_cons _ _ _ _ s' _ _ ?_, parseList_nil]
        unfold leaf
        rw [parse_del]; exact h1
      · simp [hvw] at he

theorem edit_pub_ok (path : List Anc) (n : Nat) (M : Map AsymKey) (s : Ks) (a : AsymKey) (h : KInv n M s a) (e : LeafEdit) (o' : Option Nat)
    (he : e.apply a.pubData = some o') (hd : ∀ v, e ≠ .delete v) :
    ∃ s', parseList ksCb .none (⟨.asymmetricKey, some n⟩ :: path) s (leafTree .publicKey e) = .ok s' ∧ KInv n M s' { a with pubData := o' } := by
  cases e with
  | keep => simp only [LeafEdit.apply, Option.some.injEq] at he; subst he; exact ⟨s, rfl, h⟩
  | create v =>
    cases ho : a.pubData with
    | some w => rw [ho] at he; simp [LeafEdit.apply] at he
    | none =>
      rw [ho] at he; simp only [LeafEdit.apply, Option.some.injEq] at he; subst he
      obtain ⟨s', h1, h2⟩ := ks_pub path n M s a h v .create
      refine ⟨s', ?_, h2⟩
      unfold leafTree
      rw [parseList_cons _ _ _ _ s' _ _ (parse_leaf _ .none .create _ _ _ _ _ .create rfl (Or.inl rfl) h1), parseList_nil]
  | replace v =>
    cases ho : a.pubData with
    | none => rw [ho] at he; simp [LeafEdit.apply] at he
    | some w =>
      rw [ho] at he; simp only [LeafEdit.apply, Option.some.injEq] at he; subst he
      obtain ⟨s', h1, h2⟩ := ks_pub path n M s a h v .replace
      refine ⟨s', ?_, h2⟩
      unfold leafTree
      rw [parseList_cons _ _ _ _ s' _ _ (parse_leaf _ .none .replace _ _ _ _ _ .replace rfl (Or.inr rfl) h1), parseList_nil]
  | delete v => exact absurd rfl (hd v)

theorem repl_pfmt_ok (path : List Anc) (n : Nat) (M : Map AsymKey) (s : Ks) (a : AsymKey) (h : KInv n M s a) (o : Option Nat) (old : Nat)
    (ha : a.privType = old) (hok : privOk (o.getD old) = true) :
    ∃ s', parseList ksCb .none (⟨.asymmetricKey, some n⟩ :: path) s (replaced .privateKeyFormat o) = .ok s' ∧
      KInv n M s' { a with privType := o.getD old } := by
  cases o with
  | none => subst ha; exact ⟨s, rfl, h⟩
  | some v =>
    obtain ⟨s', h1, h2⟩ := ks_pfmt path n M s a h v .replace hok
    refine ⟨s', ?_, h2⟩
    unfold replaced
    rw [parseList_cons _ _ _ _ s' _ _ (parse_leaf _ .none .replace _ _ _ _ _ .replace rfl (Or.inr rfl) h1), parseList_nil]

theorem repl_priv_ok (path : List Anc) (n : Nat) (M : Map AsymKey) (s : Ks) (a : AsymKey) (h : KInv n M s a) (o : Option Nat) (old : Nat)
    (ha : a.privData = some old) :
    ∃ s', parseList ksCb .none (⟨.asymmetricKey, some n⟩ :: path) s (replaced .cleartextPrivateKey o) = .ok s' ∧
      KInv n M s' { a with privData := some (o.getD old) } := by
  cases o with
  | none =>
    refine ⟨s, rfl, ?_⟩
    rw [Option.getD_none, ← ha]; exact h
  | some v =>
    obtain ⟨s', h1, h2⟩ := ks_priv path n M s a h v .replace (Or.inr rfl)
    refine ⟨s', ?_, h2⟩
    unfold replaced
    rw [parseList_cons _ _ _ _ s' _ _ (parse_leaf _ .none .replace _ _ _ _ _ .replace rfl (Or.inr rfl) h1), parseList_nil]

theorem key_step (path : List Anc) (s : Ks) (cm : Map KeyConf) (e : KeyEdit) (cm' : Map KeyConf) (hi : HoldsKs s cm)
    (hno : ∀ k c v, e = .change k c → c.pub ≠ .delete v)
    (hp : patch KeyData.conf KeyConf.change cm e = some cm') : ∃ s', parse ksCb .none path s (keyTree e) = .ok s' ∧ HoldsKs s' cm' := by
  cases e with
  | create k d => exact key_new_ok path .none .create rfl s cm k d cm' hi hp
  | delete k r =>
    obtain ⟨⟨y, hy⟩, rfl⟩ := patch_delete _ _ _ _ _ _ hp
    obtain ⟨j, c, hj, hjc, -, hcn, hcd⟩ := holds_get _ _ _ _ hi k y hy
    refine ⟨{ s with keys := swapDel s.keys j }, ?_, holds_del AsymKey.name _ _ _ hi k j c hjc hcn⟩
    unfold keyTree
    rw [parse_del]
    have : getKey (⟨.asymmetricKey, some k⟩ :: path) s = .found j := by simp only [getKey, keyOf_head, hj]
    simp [ksCb, ksKey, setting, Tree.val, leaf, this]
  | change k c =>
    obtain ⟨y, z, hy, hz, rfl⟩ := patch_change _ _ _ _ _ _ hp
    obtain ⟨M, h3, h4⟩ := holds_ex AsymKey.name KRel _ _ hi
    obtain ⟨a, ha, hr1, hr2, hr3, hr4, hr5⟩ := optrel_some _ _ _ (hy ▸ h4 k)
    have hk : KInv k M s a := by unfold KInv; rw [upd_self _ _ _ ha]; exact h3
    simp only [KeyConf.change] at hz
    cases hf : c.pubFmt.apply y.pubFmt with
    | none => simp [hf] at hz
    | some f =>
      cases hpb : c.pub.apply y.pub with
      | none => simp [hf, hpb] at hz
      | some q =>
        cases hcs : patchCerts y.certs c.certs with
        | none => simp [hf, hpb, hcs] at hz
        | some m =>
          simp only [hf, hpb, hcs] at hz
          by_cases hv : (f.all fmtOk && privOk (c.privFmt.getD y.privFmt)) = true
          · simp only [hv, if_true, Option.some.injEq] at hz
            subst hz
            simp only [Bool.and_eq_true] at hv
            obtain ⟨s1, t, a1, a2, a3⟩ := edit_fmt_ok path k M s a hk c.pubFmt y.pubFmt f hf hr1 hv.1
            obtain ⟨s2, b1, b2⟩ := edit_pub_ok path k M s1 _ a2 c.pub q (by rw [← hr2] at hpb; exact hpb) (fun v => hno k c v rfl)
            obtain ⟨s3, c1, c2⟩ := repl_pfmt_ok path k M s2 _ b2 c.privFmt y.privFmt hr3 hv.2
            obtain ⟨s4, d1, d2⟩ := repl_priv_ok path k M s3 _ c2 c.priv y.priv hr4
            obtain ⟨s5, e1, l, e2, e3⟩ := edits_ok ksCb .none
              (⟨.other, ((c.certs.map certTree).head?).map Tree.val⟩ :: ⟨.asymmetricKey, some k⟩ :: path) some (fun _ d => some d)
              certTree (KCertInv k M ⟨a.name, t, q, c.privFmt.getD y.privFmt, some (c.priv.getD y.priv), a.certs⟩)
              (fun s m e m' hi hp => kcert_step _ k M _ (keyOf_leaf _ _ _ _ (by decide)) s m e m' hi hp) c.certs s4 y.certs m
              ⟨a.certs, d2, hr5⟩ hcs
            refine ⟨s5, ?_, kinv_keys k M cm s5 _ _ (fun x _ => h4 x) e2 ⟨a3, rfl, rfl, rfl, e3⟩⟩
            unfold keyTree
            rw [parse_none _ _ _ _ _ _ _ _ rfl, parseList_cons _ _ _ _ _ _ _ (parse_name_ks _ _ _ _ (by simp)), head_leaf,
              parseList_append _ _ _ _ s1 _ _ a1, parseList_append _ _ _ _ s2 _ _ b1, parseList_append _ _ _ _ s3 _ _ c1,
              parseList_append _ _ _ _ s4 _ _ d1, parseList_cons _ _ _ _ s5 _ _ ?_, parseList_nil]
            rw [parse_none _ _ _ _ _ _ _ _ rfl]; exact e1
          · simp [hv] at hz

theorem keys_edits (path : List Anc) (es : List KeyEdit) : ∀ (s : Ks) (c c' : Map KeyConf), HoldsKs s c →
    (∀ k x v, Edit.change k x ∈ es → x.pub ≠ .delete v) → patchKeys c es = some c' →
    ∃ s', parseList ksCb .none path s (es.map keyTree) = .ok s' ∧ HoldsKs s' c' := by
  induction es with
  | nil => intro s c c' hi _ h; simp only [patchKeys, patchAll, Option.some.injEq] at h; subst h; exact ⟨s, rfl, hi⟩
  | cons e es ih =>
    intro s c c' hi hno h
    simp only [patchKeys, patchAll] at h
    cases hp : patch KeyData.conf KeyConf.change c e with
    | none => rw [hp] at h; cases h
    | some c1 =>
      rw [hp] at h
      obtain ⟨s1, h1, h2⟩ := key_step path s c e c1 hi (fun k x v hx => hno k x v (by rw [hx]; simp)) hp
      obtain ⟨s2, h3, h4⟩ := ih s1 c1 c' h2 (fun k x v hx => hno k x v (by simp [hx])) h
      exact ⟨s2, by rw [List.map_cons, parseList_cons _ _ _ _ _ _ _ h1]; exact h3, h4⟩

theorem ks_diff_ok (s : Ks) (c : Map KeyConf) (d : KsDiff) (c' : Map KeyConf) (hs : HoldsKs s c) (hno : d.noPubDelete)
    (hp : patchKs c d = some c') : ∃ s', fillKs (some (ksTree d)) .unknown s = .ok s' ∧ HoldsKs s' c' := by
  cases d with
  | edit es =>
    simp only [patchKs] at hp
    obtain ⟨s1, h1, h2⟩ := keys_edits (⟨.asymmetricKeys, ((es.map keyTree).head?).map Tree.val⟩ :: [⟨.keystore, some 0⟩]) es s c c' hs hno hp
    refine ⟨s1, ?_, h2⟩
    unfold fillKs ksTree
    dsimp only
    rw [parse_none _ _ _ _ _ _ _ _ rfl, parseList_cons _ _ _ _ s1 _ _ ?_, parseList_nil]
    rw [parse_none _ _ _ _ _ _ _ _ rfl]; exact h1
  | clearKeys r =>
    simp only [patchKs, Option.some.injEq] at hp; subst hp
    refine ⟨⟨[]⟩, ?_, holds_nil _ _⟩
    unfold fillKs ksTree
    dsimp only
    rw [parse_none _ _ _ _ _ _ _ _ rfl, parseList_cons _ _ _ _ ⟨[]⟩ _ _ ?_, parseList_nil]
    rw [parse_del]; rfl
  | clear r =>
    simp only [patchKs, Option.some.injEq] at hp; subst hp
    exact ⟨⟨[]⟩, rfl, holds_nil _ _⟩

theorem ks_data_ok (l : List (Nat × KeyData)) (c : Map KeyConf) (h : ksDataConf l = some c) :
    ∃ s', fillKs (some (ksDataTree l)) .create ⟨[]⟩ = .ok s' ∧ HoldsKs s' c := by
  obtain ⟨s1, a1, a2⟩ := creates_ok ksCb
    (⟨.asymmetricKeys, ((l.map (fun b => keyData b.1 b.2)).head?).map Tree.val⟩ :: [⟨.keystore, some 0⟩]) _ _
    (fun k d => keyData k d) HoldsKs
    (fun s m k x m' hi hp => key_new_ok _ .create .absent rfl s m k x m' hi hp) l ⟨[]⟩ _ c (holds_nil _ _) h
  refine ⟨s1, ?_, a2⟩
  unfold fillKs ksDataTree
  dsimp only
  rw [parse_set ksCb .create .absent [] _ ⟨[]⟩ _ _ _ .create rfl (Or.inl rfl) (by rfl), parseList_cons _ _ _ _ s1 _ _ ?_, parseList_nil]
  rw [parse_set ksCb .create .absent _ _ ⟨[]⟩ _ _ _ .create rfl (Or.inl rfl) (by rfl)]; exact a1

end Verif.ConfStore
