import Verif.Spec.Compat
import Verif.Props.AuthKeys
import Verif.Lemmas.KeyUtil

/-!
# Lemmas about the replacements of system functions
-/

namespace Verif.Compat
open Verif.Props (tw_stop tw_whole tw_split)

theorem fgets_line {l t : Text} (h : l.length < 255) (hn : '\n' ∉ l) : fgets (l ++ '\n' :: t) = l ++ ['\n'] := by
  have e : (l ++ '\n' :: t).take 255 = l ++ '\n' :: t.take (254 - l.length) := by
    rw [List.take_append, List.take_of_length_le (by omega)]
    obtain ⟨k, hk⟩ : ∃ k, 255 - l.length = k + 1 := ⟨254 - l.length, by omega⟩
    rw [hk, List.take_succ_cons, show 254 - l.length = k by omega]
  unfold fgets
  rw [e, tw_stop (p := fun c => decide (c ≠ '\n')) (by intro x hx; simp; rintro rfl; exact hn hx) (by simp)]
  simp

theorem fgets_last {l : Text} (h : l.length < 255) (hn : '\n' ∉ l) : fgets l = l := by
  unfold fgets
  rw [List.take_of_length_le (by omega), tw_whole (by intro x hx; simp; rintro rfl; exact hn hx)]
  simp

theorem short_line {l t : Text} (size : Option Nat) (h : Short l) : getline (l ++ '\n' :: t) size = .line l t (some 256) := by
  obtain ⟨h1, h2, h3⟩ := h
  unfold getline
  rw [if_neg (by simp), fgets_line h1 h2]
  have e1 : (l ++ ['\n']).takeWhile (fun c => decide (c ≠ '\x00')) = l ++ ['\n'] := tw_whole (by
    intro x hx
    rcases List.mem_append.mp hx with hx | hx
    · simp; rintro rfl; exact h3 hx
    · simp at hx; subst hx; decide)
  have e2 : (l ++ ['\n']).takeWhile (fun c => decide (c ≠ '\n')) = l :=
    tw_stop (r := []) (by intro x hx; simp; rintro rfl; exact h2 hx) (by simp)
  simp only [e1, e2]
  rw [if_pos (by omega)]
  simp

theorem short_last {l : Text} (size : Option Nat) (h : Short l) (h0 : l ≠ []) : getline l size = .line l [] (some 256) := by
  obtain ⟨h1, h2, h3⟩ := h
  unfold getline
  rw [if_neg h0, fgets_last h1 h2]
  have e1 : l.takeWhile (fun c => decide (c ≠ '\x00')) = l := tw_whole (by intro x hx; simp; rintro rfl; exact h3 hx)
  have e2 : l.takeWhile (fun c => decide (c ≠ '\n')) = l := tw_whole (by intro x hx; simp; rintro rfl; exact h2 hx)
  simp only [e1, e2]
  rw [if_pos (by omega)]
  simp

theorem sys_getline_line {l t : Text} (h : '\n' ∉ l) : AuthKeys.getline (l ++ '\n' :: t) = (l ++ ['\n'], t) := by
  unfold AuthKeys.getline
  rw [tw_stop (p := fun c => decide (c ≠ '\n')) (by intro x hx; simp; rintro rfl; exact h hx) (by simp)]
  simp

theorem sys_getline_last {l : Text} (h : '\n' ∉ l) : AuthKeys.getline l = (l, []) := by
  unfold AuthKeys.getline
  rw [tw_whole (p := fun c => decide (c ≠ '\n')) (by intro x hx; simp; rintro rfl; exact h hx)]
  simp

theorem nul_free {l : Text} (h : '\x00' ∉ l) : l.takeWhile (fun c => decide (c ≠ '\x00')) = l :=
  tw_whole (by intro x hx; simp; rintro rfl; exact h hx)

theorem tw_snoc (p : Char → Bool) {l : Text} {c : Char} (hc : p c = false) : (l ++ [c]).takeWhile p = l.takeWhile p := by
  induction l with
  | nil => simp [hc]
  | cons a t ih => simp only [List.cons_append, List.takeWhile_cons, ih]

theorem tw_proper {p : Char → Bool} {l : Text} (h : ∃ c ∈ l, p c = false) : (l.takeWhile p).length < l.length := by
  induction l with
  | nil => simp at h
  | cons a t ih =>
    rw [List.takeWhile_cons]
    split
    · rename_i ha
      have : ∃ c ∈ t, p c = false := by
        obtain ⟨c, hc, e⟩ := h
        rcases List.mem_cons.mp hc with rfl | hc
        · simp [ha] at e
        · exact ⟨c, hc, e⟩
      have := ih this
      simp only [List.length_cons]; omega
    · simp

/-- A line of an authorized keys file means the same without its line end. -/
theorem parse_same (kt : Text → Bool) {l : Text} (h0 : l ≠ []) (hn : '\n' ∉ l) (hz : '\x00' ∉ l)
    (h : l.head? = some '#' ∨ ∃ c ∈ l, AuthKeys.isSpace c = true) : AuthKeys.parseLine kt (l ++ ['\n']) = AuthKeys.parseLine kt l := by
  have hz' : '\x00' ∉ l ++ ['\n'] := by
    intro hx
    rcases List.mem_append.mp hx with hx | hx
    · exact hz hx
    · simp at hx
  cases l with
  | nil => exact absurd rfl h0
  | cons a t =>
    have ha : a ≠ '\n' := by rintro rfl; exact hn (by simp)
    unfold AuthKeys.parseLine
    simp only [nul_free hz, nul_free hz']
    by_cases hc : a = '#'
    · simp [hc]
    · have hs : ∃ c ∈ a :: t, (fun c => !AuthKeys.isSpace c) c = false := by
        rcases h with h | ⟨c, hc, hs⟩
        · simp at h; exact absurd h hc
        · exact ⟨c, hc, by simp [hs]⟩
      have hl := tw_proper hs
      rw [if_neg (by simp [ha, hc]), if_neg (by simp [ha, hc]), tw_snoc _ (by decide)]
      rw [List.drop_append_of_le_length (by omega)]
      generalize (a :: t).takeWhile (fun c => !AuthKeys.isSpace c) = ty at hl ⊢
      cases hd : (a :: t).drop ty.length with
      | nil =>
        have := congrArg List.length hd
        rw [List.length_drop] at this
        simp only [List.length_nil] at this
        omega
      | cons x r =>
        simp only [List.cons_append]
        rw [tw_snoc _ (by decide)]

theorem keys_same (kt : Text → Bool) (ls : List Text) (last : Text)
    (h : ∀ l ∈ ls, l ≠ [] ∧ Short l ∧ (l.head? = some '#' ∨ ∃ c ∈ l, AuthKeys.isSpace c = true)) (hl : Short last) :
    ∀ size keys, keysLoop kt (fileOf ls last) size keys = asRead (AuthKeys.readLines kt (fileOf ls last) keys) := by
  induction ls with
  | nil =>
    intro size keys
    simp only [fileOf, List.map_nil, List.flatten_nil, List.nil_append]
    by_cases h0 : last = []
    · subst h0; rw [keysLoop, AuthKeys.readLines]; simp [getline, asRead]
    · rw [keysLoop, AuthKeys.readLines, dif_neg h0, sys_getline_last hl.2.1]
      have e : ∀ size keys, keysLoop kt [] size keys = asRead (AuthKeys.readLines kt [] keys) := by
        intro size keys; rw [keysLoop, AuthKeys.readLines]; simp [getline, asRead]
      split <;> rename_i hg <;> rw [short_last size hl h0] at hg <;> cases hg
      cases AuthKeys.parseLine kt last with
      | skip => exact e _ _
      | error => rfl
      | key d => exact e _ _
  | cons l t ih =>
    intro size keys
    obtain ⟨h0, hs, hp⟩ := h l (by simp)
    have hf : fileOf (l :: t) last = l ++ '\n' :: fileOf t last := by simp [fileOf]
    have ih := ih (fun x hx => h x (by simp [hx]))
    rw [keysLoop, AuthKeys.readLines, hf, dif_neg (by simp), sys_getline_line hs.2.1, parse_same kt h0 hs.2.1 hs.2.2 hp]
    split <;> rename_i hg <;> rw [short_line size hs] at hg <;> cases hg
    cases AuthKeys.parseLine kt l with
    | skip => exact ih _ _
    | error => rfl
    | key d => exact ih _ _

/-- No line has a line end. -/
theorem getline_no_nl {s : Text} {size : Option Nat} {l rest : Text} {n : Option Nat} (h : getline s size = .line l rest n) : '\n' ∉ l := by
  have key : ∀ t : Text, '\n' ∉ t.takeWhile (fun c => decide (c ≠ '\n')) := by
    intro t hx
    have := Verif.Props.tw_all _ t _ hx
    simp at this
  unfold getline at h
  split at h
  · cases h
  · dsimp only at h
    split at h
    · cases h; exact key _
    · split at h
      · cases h
      · split at h
        · cases h; exact key _
        · cases h

theorem starts_no_nl {l p : Text} (hl : '\n' ∉ l) (hp : '\n' ∈ p) : KeyUtil.starts l p = false := by
  rw [Bool.eq_false_iff]
  intro h
  obtain ⟨r, rfl⟩ := (KeyUtil.starts_iff _ _).1 h
  exact hl (by simp [hp])

theorem format_no_nl {l : Text} (hl : '\n' ∉ l) : KeyUtil.privkeyFormat l = none := by
  unfold KeyUtil.privkeyFormat
  rw [starts_no_nl hl (by decide +kernel), starts_no_nl hl (by decide +kernel), starts_no_nl hl (by decide +kernel),
    starts_no_nl hl (by decide +kernel)]
  simp

theorem starts_nl {l q : Text} (hl : '\n' ∉ l) (hne : l ≠ q) : KeyUtil.starts (l ++ ['\n']) (q ++ ['\n']) = false := by
  rw [Bool.eq_false_iff]
  intro h
  obtain ⟨r, hr⟩ := (KeyUtil.starts_iff _ _).1 h
  rcases List.eq_nil_or_concat r with rfl | ⟨r', x, rfl⟩
  · simp at hr; exact hne hr
  · have hr' : l ++ ['\n'] = (q ++ ['\n'] ++ r') ++ [x] := by rw [hr]; simp
    have := (List.append_inj' hr' rfl).1
    exact hl (by rw [this]; simp)

theorem lines_last {l : Text} (h0 : l ≠ []) (hl : '\n' ∉ l) : KeyUtil.lines l = [l] := by
  induction l with
  | nil => exact absurd rfl h0
  | cons c t ih =>
    simp only [List.mem_cons, not_or] at hl
    rw [KeyUtil.lines, if_neg (Ne.symm hl.1)]
    by_cases ht : t = []
    · subst ht; rfl
    · rw [ih ht hl.2]

/-! ## strndup -/

theorem strnlen_spec {mem : Text} {n len : Nat} (h : strnlen mem n = some len) :
    len ≤ n ∧ len ≤ mem.length ∧ '\x00' ∉ mem.take len ∧ (len = n ∨ mem[len]? = some '\x00') := by
  induction n generalizing mem len with
  | zero => simp [strnlen] at h; subst h; simp
  | succ n ih =>
    cases mem with
    | nil => simp [strnlen] at h
    | cons c t =>
      simp only [strnlen] at h
      split at h
      · rename_i hc; cases h; simp [hc]
      · rename_i hc
        cases hs : strnlen t n with
        | none => simp [hs] at h
        | some k =>
          simp only [hs, Option.map_some, Option.some.injEq] at h
          subst h
          obtain ⟨h1, h2, h3, h4⟩ := ih hs
          refine ⟨by omega, by simp; omega, ?_, ?_⟩
          · simp only [List.take_succ_cons, List.mem_cons, not_or]
            exact ⟨fun e => hc e.symm, h3⟩
          · rcases h4 with rfl | h4
            · exact .inl rfl
            · exact .inr (by simpa using h4)

theorem strnlen_defined {mem : Text} {n : Nat} (h : n ≤ mem.length ∨ '\x00' ∈ mem) : strnlen mem n ≠ none := by
  induction n generalizing mem with
  | zero => simp [strnlen]
  | succ n ih =>
    cases mem with
    | nil => simp at h
    | cons c t =>
      simp only [strnlen]
      split
      · simp
      · rename_i hc
        have : n ≤ t.length ∨ '\x00' ∈ t := by
          rcases h with h | h
          · left; simpa using h
          · rcases List.mem_cons.mp h with h | h
            · exact absurd h.symm hc
            · exact .inr h
        have := ih this
        cases hs : strnlen t n <;> simp_all

/-! ## crypt_r -/

/-- What holds of a state after some actions (compat/compat.c:378-391). -/
def CryptInv (crypt : Text → Text → Option Text) (checks : Nat → Check) (seen : List Act) (st : Crypt) : Prop :=
  (∀ h, st.buf = some h → ∃ j, Act.hash j ∈ seen ∧ crypt (checks j).pw (checks j).stored = some h) ∧
  (∀ i, i ∈ st.holds → Act.hash i ∈ seen) ∧
  (∀ i, (i, true) ∈ st.results → ∃ j, Act.hash j ∈ seen ∧ crypt (checks j).pw (checks j).stored = some (checks i).stored)

theorem crypt_step_inv {crypt : Text → Text → Option Text} {checks : Nat → Check} {seen : List Act} {st : Crypt} (a : Act)
    (h : CryptInv crypt checks seen st) : CryptInv crypt checks (seen ++ [a]) (cryptStep crypt checks st a) := by
  obtain ⟨h1, h2, h3⟩ := h
  have w1 : ∀ h, st.buf = some h → ∃ j, Act.hash j ∈ seen ++ [a] ∧ crypt (checks j).pw (checks j).stored = some h := by
    intro h hh; obtain ⟨j, hj, e⟩ := h1 h hh; exact ⟨j, by simp [hj], e⟩
  have w2 : ∀ i, i ∈ st.holds → Act.hash i ∈ seen ++ [a] := fun i hi => by simp [h2 i hi]
  have w3 : ∀ i, (i, true) ∈ st.results → ∃ j, Act.hash j ∈ seen ++ [a] ∧ crypt (checks j).pw (checks j).stored = some (checks i).stored := by
    intro i hi; obtain ⟨j, hj, e⟩ := h3 i hi; exact ⟨j, by simp [hj], e⟩
  cases a with
  | hash i =>
    simp only [cryptStep]
    split
    · exact ⟨w1, w2, w3⟩
    · split
      · refine ⟨w1, w2, ?_⟩
        intro k hk
        simp at hk
        exact w3 k hk
      · rename_i h hc
        refine ⟨?_, ?_, w3⟩
        · intro h' e
          simp at e; subst e
          exact ⟨i, by simp, hc⟩
        · intro k hk
          simp at hk
          rcases hk with rfl | hk
          · simp
          · exact w2 k hk
  | compare i =>
    simp only [cryptStep]
    split
    · refine ⟨w1, ?_, ?_⟩
      · intro k hk
        exact w2 k (List.mem_filter.mp hk).1
      · intro k hk
        simp at hk
        rcases hk with hk | ⟨rfl, hk⟩
        · exact w3 k hk
        · exact w1 _ hk
    · exact ⟨w1, w2, w3⟩

theorem crypt_run_inv (crypt : Text → Text → Option Text) (checks : Nat → Check) (acts : List Act) :
    ∀ seen st, CryptInv crypt checks seen st → CryptInv crypt checks (seen ++ acts) (acts.foldl (cryptStep crypt checks) st) := by
  induction acts with
  | nil => intro seen st h; simpa using h
  | cons a t ih =>
    intro seen st h
    have := ih _ _ (crypt_step_inv a h)
    simpa using this

theorem crypt_inv (crypt : Text → Text → Option Text) (checks : Nat → Check) (acts : List Act) : CryptInv crypt checks acts (cryptRun crypt checks acts) := by
  have := crypt_run_inv crypt checks acts [] {} ⟨by simp, by simp, by simp⟩
  exact this

/-- Without hashing, the buffer stays, and so does the pointer of a thread that does not compare. -/
theorem crypt_mid (crypt : Text → Text → Option Text) (checks : Nat → Check) (i : Nat) (mid : List Act) (hm : ∀ j, Act.hash j ∉ mid)
    (hc : Act.compare i ∉ mid) : ∀ st : Crypt, i ∈ st.holds →
    (mid.foldl (cryptStep crypt checks) st).buf = st.buf ∧ i ∈ (mid.foldl (cryptStep crypt checks) st).holds := by
  induction mid with
  | nil => intro st h; exact ⟨rfl, h⟩
  | cons a t ih =>
    intro st h
    have ih := ih (fun j hj => hm j (by simp [hj])) (fun hj => hc (by simp [hj]))
    cases a with
    | hash j => exact absurd (by simp) (hm j)
    | compare j =>
      have hji : i ≠ j := by rintro rfl; exact hc (by simp)
      simp only [List.foldl_cons]
      have hb : (cryptStep crypt checks st (.compare j)).buf = st.buf := by simp only [cryptStep]; split <;> rfl
      have hh : i ∈ (cryptStep crypt checks st (.compare j)).holds := by
        simp only [cryptStep]
        split
        · exact List.mem_filter.mpr ⟨h, by simpa using hji⟩
        · exact h
      obtain ⟨e1, e2⟩ := ih _ hh
      exact ⟨e1.trans hb, e2⟩

/-! ## Timed locks -/

theorem nsecDiff_eq (a c : Ts) : nsecDiff a c = a.ns - c.ns := by
  simp only [nsecDiff, Ts.ns]; omega

end Verif.Compat
