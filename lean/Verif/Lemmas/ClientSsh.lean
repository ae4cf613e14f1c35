import Verif.Model.ClientSsh
import Verif.Spec.Chars

/-!
# Lemmas about the SSH client
-/

namespace Verif.ClientSsh

/-! ## Host keys -/

/-- The lines of a text. -/
def linesOf : Text → List Text
  | [] => [[]]
  | c :: t =>
    if c = '\n' then [] :: linesOf t
    else match linesOf t with
      | [] => [[c]]
      | l :: ls => (c :: l) :: ls

theorem linesOf_ne (s : Text) : linesOf s ≠ [] := by
  cases s with
  | nil => simp [linesOf]
  | cons c t => simp only [linesOf]; split; simp; split <;> simp

theorem linesOf_line {l r : Text} (h : '\n' ∉ l) : linesOf (l ++ '\n' :: r) = l :: linesOf r := by
  induction l with
  | nil => simp [linesOf]
  | cons c t ih =>
    simp only [List.mem_cons, not_or] at h
    have := ih h.2
    simp [linesOf, this, Ne.symm h.1]

theorem linesOf_last {l : Text} (h : '\n' ∉ l) : linesOf l = [l] := by
  induction l with
  | nil => rfl
  | cons c t ih =>
    simp only [List.mem_cons, not_or] at h
    simp [linesOf, ih h.2, Ne.symm h.1]

/-- The first word of a line. -/
def firstWord (l : Text) : Text := (l.dropWhile Spec.wsChar).takeWhile (fun c => !Spec.wsChar c)

theorem wsChar_isSpace : Spec.wsChar = isSpace := by
  funext c
  unfold Spec.wsChar isSpace
  rw [show Char.ofNat 11 = '\x0b' from rfl, show Char.ofNat 12 = '\x0c' from rfl, Bool.eq_iff_iff]
  simp only [Bool.or_eq_true, beq_iff_eq, decide_eq_true_eq]
  constructor <;> (rintro (((((h | h) | h) | h) | h) | h) <;> simp [h])

theorem firstWord_eq (l : Text) : firstWord l = (l.dropWhile isSpace).takeWhile (fun c => !isSpace c) := by
  unfold firstWord; rw [wsChar_isSpace]

theorem split_line (s : Text) : ('\n' ∉ s) ∨ ∃ l r, s = l ++ '\n' :: r ∧ '\n' ∉ l := by
  induction s with
  | nil => simp
  | cons c t ih =>
    by_cases hc : c = '\n'
    · exact .inr ⟨[], t, by simp [hc], by simp⟩
    · rcases ih with h | ⟨l, r, e, h⟩
      · exact .inl (by simp [h, Ne.symm hc])
      · exact .inr ⟨c :: l, r, by simp [e], by simp [h, Ne.symm hc]⟩

theorem isSpace_nl : isSpace '\n' = true := by decide

theorem dropWhile_blank {l r : Text} (h : l.dropWhile isSpace = []) : (l ++ r).dropWhile isSpace = r.dropWhile isSpace := by
  induction l with
  | nil => rfl
  | cons c t ih =>
    simp only [List.dropWhile_cons] at h
    split at h
    · rename_i hc
      simp [hc, ih h]
    · cases h

theorem dropWhile_some {l r : Text} (h : l.dropWhile isSpace ≠ []) : (l ++ r).dropWhile isSpace = l.dropWhile isSpace ++ r := by
  induction l with
  | nil => simp at h
  | cons c t ih =>
    simp only [List.dropWhile_cons] at h ⊢
    split at h
    · rename_i hc
      simp [hc, ih h]
    · rename_i hc
      simp [hc]

theorem firstWord_nil {l : Text} : firstWord l = [] ↔ l.dropWhile isSpace = [] := by
  rw [firstWord_eq]
  constructor
  · intro h
    cases e : l.dropWhile isSpace with
    | nil => rfl
    | cons c t =>
      have hc : isSpace c = false := by
        have := List.head?_dropWhile_not isSpace l
        rw [e] at this
        simpa using this
      rw [e] at h
      simp [hc] at h
  · intro h; simp [h]

theorem readAnswer_blank {l r : Text} (h : firstWord l = []) : readAnswer (l ++ '\n' :: r) = readAnswer r := by
  have := dropWhile_blank (r := '\n' :: r) (firstWord_nil.mp h)
  unfold readAnswer
  rw [this]
  simp [isSpace_nl]

theorem readAnswer_none {l : Text} (h : firstWord l = []) : readAnswer l = none := by
  unfold readAnswer; rw [firstWord_nil.mp h]

theorem mem_of_dropWhile {l : Text} {x : Char} (p : Char → Bool) (h : x ∈ l.dropWhile p) : x ∈ l := (List.dropWhile_sublist _).subset h

theorem takeWhile_append_stop {l r : Text} {p : Char → Bool} {c : Char} (hc : p c = false) : (l ++ c :: r).takeWhile p = l.takeWhile p := by
  induction l with
  | nil => simp [hc]
  | cons a t ih => simp only [List.cons_append, List.takeWhile_cons]; split <;> simp [ih]

theorem takeWhile_is_prefix (l : Text) (p : Char → Bool) : ∃ r, l = l.takeWhile p ++ r := ⟨l.dropWhile p, by simp⟩

theorem dropWhile_ne_nl {l r : Text} (h : '\n' ∉ l) : (l ++ '\n' :: r).dropWhile (· ≠ '\n') = '\n' :: r := by
  induction l with
  | nil => simp
  | cons c t ih =>
    simp only [List.mem_cons, not_or] at h
    rw [List.cons_append, List.dropWhile_cons]
    simp only [ne_eq, decide_not]
    rw [if_pos (by simp [Ne.symm h.1])]
    simpa using ih h.2

theorem dropWhile_ne_nl_last {l : Text} (h : '\n' ∉ l) : l.dropWhile (· ≠ '\n') = [] := by
  induction l with
  | nil => rfl
  | cons c t ih =>
    simp only [List.mem_cons, not_or] at h
    rw [List.dropWhile_cons]
    rw [if_pos (by simp [Ne.symm h.1])]
    exact ih h.2

theorem readAnswer_word {l r : Text} (hl : '\n' ∉ l) (h : firstWord l ≠ []) :
    readAnswer (l ++ '\n' :: r) = some ((firstWord l).take 4, r) := by
  have hd : l.dropWhile isSpace ≠ [] := fun e => h (firstWord_nil.mpr e)
  unfold readAnswer
  rw [dropWhile_some hd]
  cases e : l.dropWhile isSpace with
  | nil => exact absurd e hd
  | cons c t =>
    have hnl : '\n' ∉ c :: t := by rw [← e]; exact fun x => hl (mem_of_dropWhile _ x)
    have hw : firstWord l = (c :: t).takeWhile (fun c => !isSpace c) := by rw [firstWord_eq, e]
    simp only [List.cons_append]
    have h1 : (c :: (t ++ '\n' :: r)).takeWhile (fun c => !isSpace c) = firstWord l := by
      rw [hw, ← List.cons_append]; exact takeWhile_append_stop (by simp [isSpace_nl])
    rw [h1]
    have hlen : ((firstWord l).take 4).length ≤ (c :: t).length := by
      rw [hw, List.length_take]
      have := (List.takeWhile_sublist (fun c => !isSpace c) (l := c :: t)).length_le
      omega
    have h2 : (c :: (t ++ '\n' :: r)).drop ((firstWord l).take 4).length = (c :: t).drop ((firstWord l).take 4).length ++ '\n' :: r := by
      rw [← List.cons_append, List.drop_append_of_le_length hlen]
    have h3 : '\n' ∉ (c :: t).drop ((firstWord l).take 4).length := fun x => hnl (List.mem_of_mem_drop x)
    rw [h2, dropWhile_ne_nl h3]
    rfl

theorem readAnswer_word_last {l : Text} (hl : '\n' ∉ l) (h : firstWord l ≠ []) :
    readAnswer l = some ((firstWord l).take 4, []) := by
  have hd : l.dropWhile isSpace ≠ [] := fun e => h (firstWord_nil.mpr e)
  unfold readAnswer
  cases e : l.dropWhile isSpace with
  | nil => exact absurd e hd
  | cons c t =>
    have hnl : '\n' ∉ c :: t := by rw [← e]; exact fun x => hl (mem_of_dropWhile _ x)
    have hw : firstWord l = (c :: t).takeWhile (fun c => !isSpace c) := by rw [firstWord_eq, e]
    simp only
    rw [← hw]
    have h3 : '\n' ∉ (c :: t).drop ((firstWord l).take 4).length := fun x => hnl (List.mem_of_mem_drop x)
    rw [dropWhile_ne_nl_last h3]
    rfl

theorem take4_eq {w : Text} {a : Text} (ha : a.length < 4) : w.take 4 = a ↔ w = a := by
  constructor
  · intro h
    have hl : (w.take 4).length = a.length := by rw [h]
    rw [List.length_take] at hl
    rw [← h, List.take_of_length_le (by omega)]
  · rintro rfl; exact List.take_of_length_le (by omega)

/-- What the user decides: the first line whose first word is `yes` or `no`. -/
def decision (s : Text) : Option Text := ((linesOf s).map firstWord).find? (fun w => w = ['y', 'e', 's'] || w = ['n', 'o'])

theorem decision_none {l : Text} (h : '\n' ∉ l) (hw : firstWord l ≠ ['y', 'e', 's']) (hn : firstWord l ≠ ['n', 'o']) : decision l = none := by
  simp [decision, linesOf_last h, hw, hn]

theorem decision_line {l r : Text} (h : '\n' ∉ l) :
    decision (l ++ '\n' :: r) = if firstWord l = ['y', 'e', 's'] ∨ firstWord l = ['n', 'o'] then some (firstWord l) else decision r := by
  simp only [decision, linesOf_line h, List.map_cons, List.find?_cons]
  by_cases h1 : firstWord l = ['y', 'e', 's']
  · simp [h1]
  · by_cases h2 : firstWord l = ['n', 'o']
    · simp [h2]
    · simp [h1, h2]

theorem askLoop_eq {rw' : Nat → Bool} {n : Nat} {s w r : Text} (h : readAnswer s = some (w, r)) :
    askLoop rw' n s = if w = ['y', 'e', 's'] then true else if w = ['n', 'o'] then false else if rw' n then askLoop rw' (n + 1) r else false := by
  rw [askLoop]
  split
  · rename_i e; rw [h] at e; cases e
  · rename_i w' r' e; rw [h] at e; cases e; rfl

theorem askLoop_eq_none {rw' : Nat → Bool} {n : Nat} {s : Text} (h : readAnswer s = none) : askLoop rw' n s = false := by
  rw [askLoop]
  split
  · rfl
  · rename_i w' r' e; rw [h] at e; cases e

theorem askLoop_congr {rw' : Nat → Bool} {n : Nat} {a b : Text} (h : readAnswer a = readAnswer b) : askLoop rw' n a = askLoop rw' n b := by
  cases e : readAnswer b with
  | none => rw [askLoop_eq_none e, askLoop_eq_none (h.trans e)]
  | some x =>
    obtain ⟨w, r⟩ := x
    rw [askLoop_eq e, askLoop_eq (h.trans e)]

/-- The loop goes on exactly if the user said yes (and asking again does not fail). -/
theorem askLoop_decision (rw' : Nat → Bool) (n : Nat) (s : Text) :
    (askLoop rw' n s = true → decision s = some ['y', 'e', 's']) ∧ ((∀ i, rw' i = true) → decision s = some ['y', 'e', 's'] → askLoop rw' n s = true) := by
  induction hk : s.length using Nat.strongRecOn generalizing s n with
  | ind k ih =>
    rcases split_line s with hnl | ⟨l, r, e, hnl⟩
    · by_cases hb : firstWord s = []
      · rw [askLoop_eq_none (readAnswer_none hb)]
        have : decision s = none := decision_none hnl (by rw [hb]; decide) (by rw [hb]; decide)
        simp [this]
      · rw [askLoop_eq (readAnswer_word_last hnl hb)]
        have hnil : ∀ m, askLoop rw' m [] = false := fun m => askLoop_eq_none (by simp [readAnswer])
        by_cases h1 : firstWord s = ['y', 'e', 's']
        · simp [h1, decision, linesOf_last hnl]
        · have h1' : (firstWord s).take 4 ≠ ['y', 'e', 's'] := fun x => h1 ((take4_eq (by decide)).mp x)
          by_cases h2 : firstWord s = ['n', 'o']
          · simp [h2, decision, linesOf_last hnl]
          · have h2' : (firstWord s).take 4 ≠ ['n', 'o'] := fun x => h2 ((take4_eq (by decide)).mp x)
            rw [if_neg h1', if_neg h2', hnil, decision_none hnl h1 h2]
            simp
    · subst e
      have hlen : r.length < k := by simp at hk; omega
      by_cases hb : firstWord l = []
      · rw [askLoop_congr (readAnswer_blank hb), decision_line hnl]
        have : ¬ (firstWord l = ['y', 'e', 's'] ∨ firstWord l = ['n', 'o']) := by rw [hb]; decide
        rw [if_neg this]
        exact ih _ hlen _ _ rfl
      · rw [askLoop_eq (readAnswer_word hnl hb), decision_line hnl]
        by_cases h1 : firstWord l = ['y', 'e', 's']
        · simp [h1]
        · have h1' : (firstWord l).take 4 ≠ ['y', 'e', 's'] := fun x => h1 ((take4_eq (by decide)).mp x)
          by_cases h2 : firstWord l = ['n', 'o']
          · simp [h2]
          · have h2' : (firstWord l).take 4 ≠ ['n', 'o'] := fun x => h2 ((take4_eq (by decide)).mp x)
            rw [if_neg h1', if_neg h2', if_neg (c := firstWord l = _ ∨ _) (not_or.mpr ⟨h1, h2⟩)]
            have := ih _ hlen (n + 1) r rfl
            constructor
            · intro h
              split at h
              · exact this.1 h
              · cases h
            · intro ha hd
              rw [if_pos (ha n)]
              exact this.2 ha hd

/-! ## Key pairs -/

theorem fgets_line {l r : Text} (h : '\n' ∉ l) (hl : l.length < 127) : fgets (l ++ '\n' :: r) = some (l ++ ['\n'], r) := by
  have h1 : (l ++ '\n' :: r).takeWhile (· ≠ '\n') = l := by
    induction l with
    | nil => simp
    | cons c t ih =>
      simp only [List.mem_cons, not_or] at h
      rw [List.cons_append, List.takeWhile_cons, if_pos (by simp [Ne.symm h.1])]
      simp only [List.length_cons] at hl
      rw [ih h.2 (by omega)]
  unfold fgets
  simp only [h1]
  have h2 : (l ++ '\n' :: r).drop l.length = '\n' :: r := by simp
  rw [h2]
  simp only [reduceCtorEq, ↓reduceIte]
  rw [List.take_of_length_le (by simp; omega)]
  simp [List.drop_append]

theorem dropLast_set_eraseIdx {α} {l : List α} {i : Nat} {x : α} (hi : i < l.length - 1) (hx : l[l.length - 1]? = some x) :
    ((l.set i x).dropLast).Perm (l.eraseIdx i) := by
  have hne : l ≠ [] := by rintro rfl; simp at hi
  obtain ⟨m, rfl⟩ : ∃ m, l = m ++ [x] := by
    refine ⟨l.dropLast, ?_⟩
    have := List.dropLast_concat_getLast hne
    rw [List.getLast_eq_getElem] at this
    rw [List.getElem?_eq_getElem (by omega)] at hx
    rw [Option.some.inj hx] at this
    exact this.symm
  simp only [List.length_append, List.length_cons, List.length_nil] at hi
  have hi' : i < m.length := by omega
  rw [List.set_append_left _ _ hi', List.dropLast_concat, List.eraseIdx_append_of_lt_length hi']
  have h1 : m.set i x = m.take i ++ x :: m.drop (i + 1) := by rw [List.set_eq_take_append_cons_drop, if_pos hi']
  rw [h1, List.eraseIdx_eq_take_drop_succ, List.append_assoc]
  refine List.Perm.append_left _ ?_
  exact (List.perm_append_singleton _ _).symm

/-! ## Authentication -/

theorem authLoop_none {σ} {srv : Server σ} {o : Opts} {kf : KeyFiles} {l : Methods} {ret : Res} {s : σ} (h : choose o.pref l = none) :
    authLoop srv o kf l ret s = (.fail, []) := by
  rw [authLoop]; split
  · rfl
  · rename_i m e; rw [h] at e; cases e

theorem authLoop_some {σ} {srv : Server σ} {o : Opts} {kf : KeyFiles} {l : Methods} {ret : Res} {s : σ} {m : Method} (h : choose o.pref l = some m) :
    authLoop srv o kf l ret s = (match attempt srv o kf m ret s with
      | none => (.fail, [])
      | some (r, s', evs) =>
        match r with
        | .again => (.timeout, evs)
        | .error | .info => (.fail, evs)
        | .success => (.ok, evs)
        | .denied | .part => ((authLoop srv o kf (l.erase m) r s').1, evs ++ (authLoop srv o kf (l.erase m) r s').2)) := by
  conv => lhs; rw [authLoop]
  split
  · rename_i e; rw [h] at e; cases e
  · rename_i m' e; rw [h] at e; cases e; rfl

/-- The four ways an attempt can end. -/
theorem authLoop_step {σ} {srv : Server σ} {o : Opts} {kf : KeyFiles} {l : Methods} {ret : Res} {s : σ} {m : Method} (h : choose o.pref l = some m)
    {r : Res} {s' : σ} {evs : List Ev} (ha : attempt srv o kf m ret s = some (r, s', evs)) :
    ((r = .denied ∨ r = .part) ∧ authLoop srv o kf l ret s =
      ((authLoop srv o kf (l.erase m) r s').1, evs ++ (authLoop srv o kf (l.erase m) r s').2)) ∨
    (r = .again ∧ authLoop srv o kf l ret s = (.timeout, evs)) ∨ ((r = .error ∨ r = .info) ∧ authLoop srv o kf l ret s = (.fail, evs)) ∨
    (r = .success ∧ authLoop srv o kf l ret s = (.ok, evs)) := by
  rw [authLoop_some h, ha]
  cases r <;> simp

/-- The method an event belongs to. -/
def methodOf : Ev → Option Method
  | .none _ => none
  | .password .. => some .pw
  | .kbd _ => some .kbd
  | .tryKey .. | .passphrase _ | .sign .. => some .key

theorem keysLoop_method {σ} (srv : Server σ) (kf : KeyFiles) (ks : List Key) (ret : Res) (s : σ) :
    ∀ ev ∈ (keysLoop srv kf ks ret s).2.2, methodOf ev = some .key := by
  induction ks generalizing ret s with
  | nil => simp [keysLoop]
  | cons k t ih =>
    simp only [keysLoop]
    split
    · exact ih _ _
    · split
      · intro ev h
        simp only [List.mem_cons] at h
        rcases h with rfl | h
        · rfl
        · exact ih _ _ ev h
      · have ha : ∀ ev ∈ (if k.crypt = true then [Ev.passphrase k] else []), methodOf ev = some .key := by
          split <;> simp [methodOf]
        split
        · intro ev h
          simp only [List.cons_append, List.mem_cons, List.mem_append] at h
          rcases h with rfl | h | h
          · rfl
          · exact ha ev h
          · exact ih _ _ ev h
        · split
          · intro ev h
            simp only [List.cons_append, List.mem_cons, List.mem_append] at h
            rcases h with rfl | h | rfl | h
            · rfl
            · exact ha ev h
            · rfl
            · exact ih _ _ ev h
          · intro ev h
            simp only [List.cons_append, List.mem_cons, List.mem_append, List.not_mem_nil, or_false] at h
            rcases h with rfl | h | rfl
            · rfl
            · exact ha ev h
            · rfl
      · intro ev h
        simp only [List.mem_cons, List.not_mem_nil, or_false] at h
        subst h; rfl

theorem attempt_method {σ} {srv : Server σ} {o : Opts} {kf : KeyFiles} {m : Method} {ret : Res} {s : σ} {r : Res} {s' : σ} {evs : List Ev}
    (h : attempt srv o kf m ret s = some (r, s', evs)) : ∀ ev ∈ evs, methodOf ev = some m := by
  cases m with
  | key =>
    simp only [attempt, Option.some.injEq] at h
    have := keysLoop_method srv kf o.keys ret s
    rw [h] at this
    exact this
  | pw =>
    simp only [attempt] at h
    split at h
    · cases h
    · cases h; simp [methodOf]
  | kbd =>
    simp only [attempt] at h
    split at h <;> cases h <;> simp [methodOf]

theorem has_erase {l : Methods} {m x : Method} : (l.erase m).has x = true ↔ l.has x = true ∧ x ≠ m := by
  rcases l with ⟨a, b, c⟩
  cases m <;> cases x <;> simp [Methods.erase, Methods.has]

theorem choose_max {pref : Method → Int} {l : Methods} {m : Method} (h : choose pref l = some m) (hp : ∀ x, l.has x = true → 0 ≤ pref x) :
    ∀ x, l.has x = true → pref x ≤ pref m := by
  have h1 := hp .kbd; have h2 := hp .pw; have h3 := hp .key
  rcases l with ⟨a, b, c⟩
  intro x hx
  cases a <;> cases b <;> cases c <;> cases m <;> cases x <;>
    simp [choose, Methods.has] at h h1 h2 h3 hx ⊢ <;> (repeat' split at h) <;> simp_all <;> omega

theorem choose_none {pref : Method → Int} {l : Methods} (h : choose pref l = none) :
    l.kbd = false ∧ ∀ x, l.has x = true → pref x ≤ 0 := by
  rcases l with ⟨a, b, c⟩
  cases a <;> cases b <;> cases c <;>
    simp [choose] at h ⊢ <;> (repeat' split at h) <;>
    (try (intro x; cases x)) <;> simp_all [Methods.has]

/-- Induction over the loop. -/
theorem authLoop_ind {σ} (srv : Server σ) (o : Opts) (kf : KeyFiles) {P : Methods → Res → σ → Prop}
    (h : ∀ l ret s, (∀ m r s' evs, choose o.pref l = some m → attempt srv o kf m ret s = some (r, s', evs) → r = .denied ∨ r = .part →
      P (l.erase m) r s') → P l ret s) (l : Methods) (ret : Res) (s : σ) : P l ret s := by
  induction hk : l.card using Nat.strongRecOn generalizing l ret s with
  | ind k ih =>
    refine h l ret s fun m r s' evs hc _ _ => ?_
    exact ih _ (by rw [← hk]; exact card_erase (choose_has hc)) _ _ _ rfl

/-- Every event of the loop belongs to a method of the set. -/
theorem authLoop_method {σ} (srv : Server σ) (o : Opts) (kf : KeyFiles) (l : Methods) (ret : Res) (s : σ) :
    ∀ ev ∈ (authLoop srv o kf l ret s).2, ∃ m, methodOf ev = some m ∧ l.has m = true := by
  refine authLoop_ind srv o kf (P := fun l ret s => ∀ ev ∈ (authLoop srv o kf l ret s).2, ∃ m, methodOf ev = some m ∧ l.has m = true) ?_ l ret s
  intro l ret s ih
  cases hc : choose o.pref l with
  | none => rw [authLoop_none hc]; simp
  | some m =>
    rw [authLoop_some hc]
    cases ha : attempt srv o kf m ret s with
    | none => simp
    | some x =>
      obtain ⟨r, s', evs⟩ := x
      have hm := attempt_method ha
      have hh := choose_has hc
      have base : ∀ ev ∈ evs, ∃ m, methodOf ev = some m ∧ l.has m = true := fun ev h => ⟨m, hm ev h, hh⟩
      rw [← ha, ← authLoop_some hc]
      rcases authLoop_step hc ha with ⟨hr, e⟩ | ⟨_, e⟩ | ⟨_, e⟩ | ⟨_, e⟩ <;> rw [e]
      · intro ev h
        rcases List.mem_append.mp h with h | h
        · exact base ev h
        · obtain ⟨x, h1, h2⟩ := ih m r s' evs hc ha hr ev h
          exact ⟨x, h1, (has_erase.mp h2).1⟩
      all_goals exact base

/-- Result of the loop over the keys: success comes from an accepted signature if all keys can be read. -/
theorem keysLoop_granted {σ} (srv : Server σ) (kf : KeyFiles) (ks : List Key) (ret : Res) (s : σ)
    (hk : ∀ k ∈ ks, kf.pub k = .ok → kf.priv k k.crypt = .ok) (h : (keysLoop srv kf ks ret s).1 = .success) :
    ret = .success ∨ ∃ k ∈ ks, Ev.sign k .success ∈ (keysLoop srv kf ks ret s).2.2 := by
  induction ks generalizing ret s with
  | nil => exact .inl (by simpa [keysLoop] using h)
  | cons k t ih =>
    have ih' := fun ret s => ih ret s (fun x hx => hk x (by simp [hx]))
    simp only [keysLoop] at h ⊢
    split at h
    · rename_i hp
      rw [if_pos hp]
      rcases ih' _ _ h with h | ⟨x, hx, h⟩
      · exact .inl h
      · exact .inr ⟨x, by simp [hx], h⟩
    · rename_i hp
      rw [if_neg hp]
      have hpr : kf.priv k k.crypt = .ok := hk k (by simp) (by simpa using hp)
      right
      split at h
      · rename_i s' e
        rcases ih' _ _ h with h | ⟨x, hx, h⟩
        · cases h
        · exact ⟨x, by simp [hx], by simp [h]⟩
      · rename_i s' e
        rw [if_neg (by simp [hpr])] at h
        simp only [if_neg (show ¬ kf.priv k k.crypt ≠ .ok by simp [hpr])]
        split at h
        · rename_i s'' e2
          rcases ih' _ _ h with h | ⟨x, hx, h⟩
          · cases h
          · exact ⟨x, by simp [hx], by simp [h]⟩
        · rename_i x s'' hne e2
          simp only at h
          subst h
          exact ⟨k, by simp, by simp⟩
      · rename_i x s' h1 h2 e
        simp only at h
        subst h
        exact absurd rfl h2

/-- Signatures are made, and passphrases asked for, only for keys the server would accept. -/
theorem keysLoop_accepted {σ} (srv : Server σ) (kf : KeyFiles) (ks : List Key) (ret : Res) (s : σ) (k : Key)
    (h : Ev.passphrase k ∈ (keysLoop srv kf ks ret s).2.2 ∨ ∃ x, Ev.sign k x ∈ (keysLoop srv kf ks ret s).2.2) :
    k ∈ ks ∧ Ev.tryKey k .success ∈ (keysLoop srv kf ks ret s).2.2 ∧
      (Ev.passphrase k ∈ (keysLoop srv kf ks ret s).2.2 → k.crypt = true) := by
  induction ks generalizing ret s with
  | nil => simp [keysLoop] at h
  | cons k' t ih =>
    simp only [keysLoop] at h ⊢
    split at h
    · rename_i hp
      simp only [if_pos hp]
      obtain ⟨h1, h2, h3⟩ := ih _ _ h
      exact ⟨by simp [h1], h2, h3⟩
    · rename_i hp
      simp only [if_neg hp]
      split at h
      · rename_i s' e
        simp only [List.mem_cons, reduceCtorEq, false_or] at h
        obtain ⟨h1, h2, h3⟩ := ih _ _ h
        exact ⟨by simp [h1], by simp [h2], by simpa using h3⟩
      · rename_i s' e
        have key : ∀ R : Res × σ × List Ev, ∀ more : List Ev,
            (∀ x, Ev.sign k x ∈ more → k = k') → Ev.passphrase k ∉ more →
            (Ev.passphrase k ∈ R.2.2 ∨ (∃ x, Ev.sign k x ∈ R.2.2) →
              k ∈ t ∧ Ev.tryKey k .success ∈ R.2.2 ∧ (Ev.passphrase k ∈ R.2.2 → k.crypt = true)) →
            (Ev.passphrase k ∈ (Ev.tryKey k' .success :: (if k'.crypt = true then [Ev.passphrase k'] else []) ++ (more ++ R.2.2)) ∨
              ∃ x, Ev.sign k x ∈ (Ev.tryKey k' .success :: (if k'.crypt = true then [Ev.passphrase k'] else []) ++ (more ++ R.2.2))) →
            k ∈ k' :: t ∧ Ev.tryKey k .success ∈ (Ev.tryKey k' .success :: (if k'.crypt = true then [Ev.passphrase k'] else []) ++ (more ++ R.2.2)) ∧
              (Ev.passphrase k ∈ (Ev.tryKey k' .success :: (if k'.crypt = true then [Ev.passphrase k'] else []) ++ (more ++ R.2.2)) →
                k.crypt = true) := by
          intro R more hs hn hR hh
          by_cases hkk : k = k'
          · subst hkk
            refine ⟨by simp, by simp, fun hq => ?_⟩
            by_cases hcr : k.crypt = true
            · exact hcr
            · simp only [if_neg hcr, List.nil_append, List.cons_append, List.mem_cons, reduceCtorEq, false_or, List.mem_append, hn] at hq
              exact (hR (.inl hq)).2.2 hq
          · have hnp : Ev.passphrase k ∉ (if k'.crypt = true then [Ev.passphrase k'] else []) := by
              split <;> simp [hkk]
            have hns : ∀ x, Ev.sign k x ∉ (if k'.crypt = true then [Ev.passphrase k'] else []) := by
              intro x; split <;> simp
            have hms : ∀ x, Ev.sign k x ∉ more := fun x hx => hkk (hs x hx)
            simp only [List.cons_append, List.mem_cons, reduceCtorEq, false_or, List.mem_append, hnp, hn, hns, hms] at hh
            obtain ⟨h1, h2, h3⟩ := hR hh
            refine ⟨by simp [h1], by simp [h2], ?_⟩
            simp only [List.cons_append, List.mem_cons, reduceCtorEq, false_or, List.mem_append, hnp, hn]
            exact h3
        split at h
        · rename_i hpr
          simp only [if_pos hpr]
          have := key (keysLoop srv kf t .success s') [] (by simp) (by simp) (ih .success s')
          simpa using this (by simpa using h)
        · rename_i hpr
          simp only [if_neg hpr]
          cases e2 : srv.sign k' s' with
          | mk r s'' =>
            rw [e2] at h
            cases r with
            | denied =>
              have := key (keysLoop srv kf t .denied s'') [.sign k' .denied] (by simp) (by simp) (ih .denied s'')
              simpa using this (by simpa using h)
            | success => have := key (.success, s'', []) [.sign k' .success] (by simp) (by simp) (by simp); simpa using this (by simpa using h)
            | part => have := key (.part, s'', []) [.sign k' .part] (by simp) (by simp) (by simp); simpa using this (by simpa using h)
            | error => have := key (.error, s'', []) [.sign k' .error] (by simp) (by simp) (by simp); simpa using this (by simpa using h)
            | again => have := key (.again, s'', []) [.sign k' .again] (by simp) (by simp) (by simp); simpa using this (by simpa using h)
            | info => have := key (.info, s'', []) [.sign k' .info] (by simp) (by simp) (by simp); simpa using this (by simpa using h)
      · rename_i x s' h1 h2 e
        simp at h

/-- If nothing but refusals come, every readable key is tried. -/
theorem keysLoop_all {σ} (srv : Server σ) (kf : KeyFiles) (ks : List Key) (ret : Res) (s : σ)
    (hk : ∀ k x, Ev.tryKey k x ∈ (keysLoop srv kf ks ret s).2.2 → x = .denied ∨ x = .success)
    (hs : ∀ k x, Ev.sign k x ∈ (keysLoop srv kf ks ret s).2.2 → x = .denied) :
    ∀ k ∈ ks, kf.pub k = .ok → ∃ x, Ev.tryKey k x ∈ (keysLoop srv kf ks ret s).2.2 := by
  induction ks generalizing ret s with
  | nil => simp
  | cons k' t ih =>
    simp only [keysLoop] at hk hs ⊢
    split
    · rename_i hp
      simp only [if_pos hp] at hk hs
      intro k hkm hpk
      rcases List.mem_cons.mp hkm with rfl | hm
      · exact absurd hpk hp
      · exact ih _ _ hk hs k hm hpk
    · rename_i hp
      simp only [if_neg hp] at hk hs
      cases e : srv.tryKey k' s with
      | mk r s' =>
        rw [e] at hk hs
        cases r with
        | denied =>
          simp only at hk hs ⊢
          intro k hkm hpk
          rcases List.mem_cons.mp hkm with rfl | hm
          · exact ⟨.denied, by simp⟩
          · obtain ⟨x, hx⟩ := ih .denied s' (fun k x h => hk k x (by simp [h])) (fun k x h => hs k x (by simp [h])) k hm hpk
            exact ⟨x, by simp [hx]⟩
        | success =>
          simp only at hk hs ⊢
          split
          · rename_i hpr
            simp only [if_pos hpr] at hk hs
            intro k hkm hpk
            rcases List.mem_cons.mp hkm with rfl | hm
            · exact ⟨.success, by simp⟩
            · obtain ⟨x, hx⟩ := ih .success s' (fun k x h => hk k x (by simp [h])) (fun k x h => hs k x (by simp [h])) k hm hpk
              exact ⟨x, by simp [hx]⟩
          · rename_i hpr
            simp only [if_neg hpr] at hk hs
            cases e2 : srv.sign k' s' with
            | mk r s'' =>
              rw [e2] at hk hs
              by_cases hr : r = .denied
              · subst hr
                simp only at hk hs ⊢
                intro k hkm hpk
                rcases List.mem_cons.mp hkm with rfl | hm
                · exact ⟨.success, by simp⟩
                · obtain ⟨x, hx⟩ := ih .denied s'' (fun k x h => hk k x (by simp [h])) (fun k x h => hs k x (by simp [h])) k hm hpk
                  exact ⟨x, by simp [hx]⟩
              · have : r = .denied := by cases r <;> first | exact absurd rfl hr | exact hs k' _ (by simp)
                exact absurd this hr
        | part => have := hk k' .part (by simp); simp at this
        | error => have := hk k' .error (by simp); simp at this
        | again => have := hk k' .again (by simp); simp at this
        | info => have := hk k' .info (by simp); simp at this

end Verif.ClientSsh
