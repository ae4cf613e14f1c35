import Verif.Model.ThreadCtx

/-!
# Contexts of client threads (C50)
-/

namespace Verif.Props
open Verif.ThreadCtx

/-! ## What should happen -/

/-- Which thread uses which context, and how many contexts were created. -/
structure Use where
  of : Nat → Option Nat
  made : Nat

/-- A thread without a context gets its own: the main thread the static one, another thread a new one. -/
def Use.own (u : Use) (t : Nat) : Use :=
  if (u.of t).isSome then u else if t = 0 then ⟨fun x => if x = t then some 0 else u.of x, u.made⟩ else ⟨fun x => if x = t then some u.made else u.of x, u.made + 1⟩

/-- Who uses what after an operation. -/
def Use.step (u : Use) : Op → Use
  | .use t => u.own t
  | .set t c => ⟨fun x => if x = t then some c else (u.own t).of x, (u.own t).made⟩
  | .exit t => ⟨fun x => if x = t then none else u.of x, u.made⟩

/-- Operations are made by threads below `T`, and a context is taken over only while it is used by some thread or static. -/
def Legal (T : Nat) : List Op → Use → Prop
  | [], _ => True
  | o :: os, u => (match o with | .use t => t < T | .set t c => t < T ∧ (c = 0 ∨ ∃ t', t' < T ∧ u.of t' = some c) | .exit t => t < T) ∧ Legal T os (u.step o)

/-! ## Proof -/

/-- Number of threads using a context. -/
def users (T : Nat) (f : Nat → Option Nat) (c : Nat) : Nat := (List.range T).countP fun t => f t == some c

theorem countP_upd (f : Nat → Option Nat) (t c : Nat) (v : Option Nat) : ∀ l : List Nat, l.Nodup → t ∈ l →
    l.countP (fun x => upd f t v x == some c) + (if f t = some c then 1 else 0) = l.countP (fun x => f x == some c) + (if v = some c then 1 else 0)
  | [], _, h => by cases h
  | a :: l, hn, h => by
    rw [List.nodup_cons] at hn
    rw [List.countP_cons, List.countP_cons]
    by_cases hta : t = a
    · subst hta
      have : l.countP (fun x => upd f t v x == some c) = l.countP (fun x => f x == some c) := by
        apply List.countP_congr
        intro x hx
        have : x ≠ t := fun e => hn.1 (by rw [← e]; exact hx)
        simp [upd, this]
      rw [this]
      simp only [upd, if_true, beq_iff_eq]
      omega
    · have hm : t ∈ l := by simpa [hta] using h
      have ih := countP_upd f t c v l hn.2 hm
      have e : upd f t v a = f a := by simp [upd, Ne.symm hta]
      rw [e]
      omega

theorem users_upd (T : Nat) (f : Nat → Option Nat) (t c : Nat) (v : Option Nat) (h : t < T) :
    users T (upd f t v) c + (if f t = some c then 1 else 0) = users T f c + (if v = some c then 1 else 0) :=
  countP_upd f t c v _ List.nodup_range (List.mem_range.mpr h)

theorem users_le (T : Nat) (f : Nat → Option Nat) (c : Nat) : users T f c ≤ T := by
  have := List.countP_le_length (p := fun t => f t == some c) (l := List.range T)
  simpa [users] using this

theorem users_pos (T : Nat) (f : Nat → Option Nat) (c : Nat) : 0 < users T f c ↔ ∃ t, t < T ∧ f t = some c := by
  simp [users, List.countP_pos_iff]

/-- The state agrees with who uses what; the count of context `x` may be off by `d`. -/
structure Ok (T : Nat) (s : St) (u : Use) : Prop where
  cur : ∀ t, s.cur t = u.of t
  fresh : s.fresh = u.made
  below : ∀ t c, u.of t = some c → t < T ∧ c < u.made
  pos : 0 < u.made
  zero : (s.refc 0).isSome = true
  count : ∀ c, c ≠ 0 → s.refc c = if users T u.of c = 0 then none else some (users T u.of c)
  freed : s.freed.Nodup
  gone : ∀ c, c ∈ s.freed ↔ c ≠ 0 ∧ c < u.made ∧ users T u.of c = 0

theorem ok_use {T : Nat} {s : St} {u : Use} (h : Ok T s u) (t : Nat) (ht : t < T) :
    (location t s).1 = ((u.own t).of t).getD 0 ∧ ((u.own t).of t).isSome = true ∧ Ok T (location t s).2 (u.own t) := by
  cases hc : u.of t with
  | some c =>
    have h1 := h.cur t
    rw [hc] at h1
    simp only [location, h1, Use.own, hc, Option.isSome_some, if_true, Option.getD_some]
    exact ⟨trivial, trivial, h⟩
  | none =>
    have h1 := h.cur t
    rw [hc] at h1
    by_cases h0 : t = 0
    · subst h0
      simp only [location, h1, Use.own, hc, Option.isSome_none, Bool.false_eq_true, if_false, if_true, Option.getD_some]
      refine ⟨trivial, rfl, ?_⟩
      have hu : ∀ c, c ≠ 0 → users T (fun x => if x = 0 then some 0 else u.of x) c = users T u.of c := by
        intro c hc0
        have := users_upd T u.of 0 c (some 0) ht
        simp only [hc] at this
        have e : (upd u.of 0 (some 0)) = fun x => if x = 0 then some 0 else u.of x := rfl
        rw [e] at this
        simpa [Ne.symm hc0] using this
      constructor
      · intro x; simp only [upd]; split <;> simp [h.cur]
      · exact h.fresh
      · intro x c
        simp only
        split
        · rintro ⟨⟩; subst_vars; exact ⟨ht, h.pos⟩
        · exact h.below x c
      · exact h.pos
      · exact h.zero
      · intro c hc0
        simp only [hu c hc0]
        exact h.count c hc0
      · exact h.freed
      · intro c
        simp only
        rw [h.gone]
        by_cases hc0 : c = 0
        · simp [hc0]
        · simp [hc0, hu c hc0]
    · simp only [location, h1, h0, Use.own, hc, Option.isSome_none, Bool.false_eq_true, if_false, if_true, Option.getD_some]
      refine ⟨h.fresh, rfl, ?_⟩
      have hnew : users T u.of u.made = 0 := by
        rcases Nat.eq_zero_or_pos (users T u.of u.made) with h2 | h2
        · exact h2
        · obtain ⟨x, -, hx⟩ := (users_pos T u.of u.made).mp h2
          exact absurd (h.below x _ hx).2 (Nat.lt_irrefl _)
      have hu : ∀ c, users T (fun x => if x = t then some u.made else u.of x) c = users T u.of c + if c = u.made then 1 else 0 := by
        intro c
        have := users_upd T u.of t c (some u.made) ht
        have e : (upd u.of t (some u.made)) = fun x => if x = t then some u.made else u.of x := rfl
        rw [e] at this
        simp only [hc] at this
        simpa [eq_comm (a := u.made)] using this
      constructor
      · intro x; simp only [upd]; rw [h.fresh]; split <;> simp [h.cur]
      · simp [h.fresh]
      · intro x c
        simp only
        split
        · rintro ⟨⟩; subst_vars; exact ⟨ht, by omega⟩
        · intro hx; have := h.below x c hx; exact ⟨this.1, by omega⟩
      · exact Nat.succ_pos _
      · simp only [upd]
        split
        · rfl
        · exact h.zero
      · intro c hc0
        simp only [hu, upd, h.fresh]
        by_cases hcm : c = u.made
        · subst hcm; simp [hnew]
        · simp only [hcm, if_false, Nat.add_zero]; exact h.count c hc0
      · exact h.freed
      · intro c
        simp only
        rw [h.gone, hu]
        by_cases hcm : c = u.made
        · subst hcm; simp
        · simp only [hcm, if_false, Nat.add_zero]
          constructor
          · rintro ⟨a, b, d⟩; exact ⟨a, by omega, d⟩
          · rintro ⟨a, b, d⟩; exact ⟨a, by omega, d⟩

/-- Releasing the context of a thread. -/
theorem ok_release {T : Nat} (hT : T < 2 ^ 32) {s : St} {u : Use} (h : Ok T s u) {t c : Nat} (ht : u.of t = some c) :
    ∃ s', release c s = some s' ∧ s'.cur = s.cur ∧ Ok T { s' with cur := upd s'.cur t none } ⟨fun x => if x = t then none else u.of x, u.made⟩ := by
  obtain ⟨htT, hcm⟩ := h.below t c ht
  have hu : ∀ x, users T (fun x => if x = t then none else u.of x) x + (if x = c then 1 else 0) = users T u.of x := by
    intro x
    have := users_upd T u.of t x none htT
    have e : (upd u.of t none) = fun x => if x = t then none else u.of x := rfl
    rw [e, ht] at this
    simpa [eq_comm (a := c)] using this
  have hbelow : ∀ x d, (if x = t then none else u.of x) = some d → x < T ∧ d < u.made := by
    intro x d
    split
    · rintro ⟨⟩
    · exact h.below x d
  have hcur : ∀ x, upd s.cur t none x = if x = t then none else u.of x := by
    intro x; simp only [upd]; split <;> simp [h.cur]
  by_cases hc0 : c = 0
  · subst hc0
    obtain ⟨r, hr⟩ := Option.isSome_iff_exists.mp h.zero
    have : release 0 s = some { s with refc := upd s.refc 0 (some ((r + (2 ^ 32 - 1)) % 2 ^ 32)) } := by
      simp only [release, hr, ne_eq, not_true, if_false, ite_self]
    refine ⟨_, this, rfl, ?_⟩
    have hu' : ∀ x, x ≠ 0 → users T (fun x => if x = t then none else u.of x) x = users T u.of x := by
      intro x hx; have := hu x; simpa [hx] using this
    constructor
    · exact hcur
    · exact h.fresh
    · exact hbelow
    · exact h.pos
    · simp [upd]
    · intro x hx
      simp only [upd, hx, if_false, hu' x hx]
      exact h.count x hx
    · exact h.freed
    · intro x
      simp only
      rw [h.gone]
      by_cases hx : x = 0
      · simp [hx]
      · simp [hx, hu' x hx]
  · have hpos : 0 < users T u.of c := (users_pos T u.of c).mpr ⟨t, htT, ht⟩
    have hr := h.count c hc0
    rw [if_neg (by omega)] at hr
    have hle := users_le T u.of c
    have huc := hu c
    simp only [if_true] at huc
    have hmod : (users T u.of c + (2 ^ 32 - 1)) % 2 ^ 32 = users T u.of c - 1 := by
      have e : users T u.of c + (2 ^ 32 - 1) = (users T u.of c - 1) + 2 ^ 32 := by omega
      rw [e, Nat.add_mod_right, Nat.mod_eq_of_lt (by omega)]
    have hu' : ∀ x, x ≠ c → users T (fun x => if x = t then none else u.of x) x = users T u.of x := by
      intro x hx; have := hu x; simpa [hx] using this
    by_cases h1 : users T u.of c = 1
    · have : release c s = some { s with refc := upd s.refc c none, freed := s.freed ++ [c] } := by
        simp only [release, hr, h1, ne_eq, not_true, if_false, hc0, not_false_iff, if_true]
      refine ⟨_, this, rfl, ?_⟩
      have huc0 : users T (fun x => if x = t then none else u.of x) c = 0 := by omega
      constructor
      · exact hcur
      · exact h.fresh
      · exact hbelow
      · exact h.pos
      · simp only [upd, Ne.symm hc0, if_false]; exact h.zero
      · intro x hx
        simp only [upd]
        by_cases hxc : x = c
        · subst hxc; simp [huc0]
        · simp only [hxc, if_false, hu' x hxc]; exact h.count x hx
      · rw [List.nodup_append]
        refine ⟨h.freed, by simp, ?_⟩
        intro a ha b hb
        simp at hb; subst hb
        rintro rfl
        have := ((h.gone a).mp ha).2.2
        omega
      · intro x
        simp only [List.mem_append, h.gone, List.mem_cons, List.not_mem_nil, or_false]
        by_cases hxc : x = c
        · subst hxc; simp [huc0, hc0, hcm]
        · simp [hxc, hu' x hxc]
    · have h2 : users T u.of c - 1 ≠ 0 := by omega
      have : release c s = some { s with refc := upd s.refc c (some (users T u.of c - 1)) } := by
        simp only [release, hr, hmod, ne_eq, h2, not_false_iff, if_true]
      refine ⟨_, this, rfl, ?_⟩
      have huc0 : users T (fun x => if x = t then none else u.of x) c = users T u.of c - 1 := by omega
      constructor
      · exact hcur
      · exact h.fresh
      · exact hbelow
      · exact h.pos
      · simp only [upd, Ne.symm hc0, if_false]; exact h.zero
      · intro x hx
        simp only [upd]
        by_cases hxc : x = c
        · subst hxc; simp [huc0, h2]
        · simp only [hxc, if_false, hu' x hxc]; exact h.count x hx
      · exact h.freed
      · intro x
        simp only [h.gone]
        by_cases hxc : x = c
        · subst hxc; rw [huc0]; simp [h2]; intro _ _; omega
        · simp [hu' x hxc]

theorem ok_set {T : Nat} (hT : T < 2 ^ 32) {s : St} {u : Use} (h : Ok T s u) {t c : Nat} (ht : t < T) (hc : c = 0 ∨ ∃ t', t' < T ∧ u.of t' = some c) :
    ∃ s', setCtx t c s = some s' ∧ Ok T s' (u.step (.set t c)) := by
  obtain ⟨h1, h2, h3⟩ := ok_use h t ht
  obtain ⟨old, hold⟩ := Option.isSome_iff_exists.mp h2
  rw [hold, Option.getD_some] at h1
  simp only [setCtx]
  rw [h1]
  by_cases ho : old = c
  · refine ⟨_, if_pos ho, ?_⟩
    subst ho
    have : u.step (.set t old) = u.own t := by
      have : (fun x => if x = t then some old else (u.own t).of x) = (u.own t).of := by
        funext x; split
        · subst_vars; exact hold.symm
        · rfl
      simp only [Use.step, this]
    rw [this]
    exact h3
  · -- the new context is used by some other thread
    have hc' : c = 0 ∨ ∃ t', t' < T ∧ t' ≠ t ∧ (u.own t).of t' = some c := by
      rcases hc with hc | ⟨t', ht', hc⟩
      · exact Or.inl hc
      · right
        have hne : t' ≠ t := by
          rintro rfl
          rw [Use.own, hc] at hold
          simp only [Option.isSome_some, if_true] at hold
          rw [hc] at hold
          exact ho (Option.some.inj hold).symm
        refine ⟨t', ht', hne, ?_⟩
        unfold Use.own
        split
        · exact hc
        · split <;> simp [hne, hc]
    obtain ⟨s1, e1, e2, h4⟩ := ok_release hT h3 hold
    rw [if_neg ho, e1]
    generalize hu1 : (⟨fun x => if x = t then none else (u.own t).of x, (u.own t).made⟩ : Use) = u1 at h4
    have hu1t : u1.of t = none := by rw [← hu1]; simp
    have hstep : u.step (.set t c) = ⟨fun x => if x = t then some c else u1.of x, u1.made⟩ := by
      rw [← hu1]
      simp only [Use.step]
      congr 1
      funext x
      split <;> rfl
    rw [hstep]
    have hu : ∀ x, users T (fun x => if x = t then some c else u1.of x) x = users T u1.of x + if x = c then 1 else 0 := by
      intro x
      have := users_upd T u1.of t x (some c) ht
      have e : (upd u1.of t (some c)) = fun x => if x = t then some c else u1.of x := rfl
      rw [e, hu1t] at this
      simpa [eq_comm (a := c)] using this
    have hcm : c < u1.made := by
      rcases hc' with rfl | ⟨t', -, -, hc'⟩
      · exact h4.pos
      · have := (h3.below t' c hc').2
        rw [← hu1]; exact this
    have hcur : ∀ x, upd s1.cur t (some c) x = if x = t then some c else u1.of x := by
      intro x
      have := h4.cur x
      simp only [upd] at this ⊢
      split
      · rfl
      · rename_i hx; rw [if_neg hx] at this; exact this
    have hbelow : ∀ x d, (if x = t then some c else u1.of x) = some d → x < T ∧ d < u1.made := by
      intro x d
      split
      · rintro ⟨⟩; subst_vars; exact ⟨ht, hcm⟩
      · exact h4.below x d
    by_cases hc0 : c = 0
    · subst hc0
      obtain ⟨r, hr⟩ := Option.isSome_iff_exists.mp h4.zero
      change s1.refc 0 = some r at hr
      refine ⟨{ s1 with refc := upd s1.refc 0 (some ((r + 1) % 2 ^ 32)), cur := upd s1.cur t (some 0) }, by simp only [acquire, hr], ?_⟩
      constructor
      · exact hcur
      · exact h4.fresh
      · exact hbelow
      · exact h4.pos
      · simp [upd]
      · intro x hx
        simp only [upd, hx, if_false, hu, Nat.add_zero]
        exact h4.count x hx
      · exact h4.freed
      · intro x
        simp only [hu]
        by_cases hx : x = 0
        · subst hx; simpa using (fun e => ((h4.gone 0).mp e).1 rfl)
        · simp only [hx, if_false, Nat.add_zero]; exact h4.gone x |>.trans (by simp [hx])
    · have hpos : 0 < users T u1.of c := by
        rw [users_pos]
        rcases hc' with hc' | ⟨t', a, b, hc'⟩
        · exact absurd hc' hc0
        · exact ⟨t', a, by rw [← hu1]; simp [b, hc']⟩
      have hr := h4.count c hc0
      rw [if_neg (by omega)] at hr
      change s1.refc c = _ at hr
      have hle := users_le T (fun x => if x = t then some c else u1.of x) c
      have huc := hu c
      simp only [if_true] at huc
      have hmod : (users T u1.of c + 1) % 2 ^ 32 = users T u1.of c + 1 := Nat.mod_eq_of_lt (by omega)
      refine ⟨{ s1 with refc := upd s1.refc c (some (users T u1.of c + 1)), cur := upd s1.cur t (some c) }, by simp only [acquire, hr, hmod], ?_⟩
      constructor
      · exact hcur
      · exact h4.fresh
      · exact hbelow
      · exact h4.pos
      · simp only [upd, Ne.symm hc0, if_false]; exact h4.zero
      · intro x hx
        simp only [upd, hu]
        by_cases hxc : x = c
        · subst hxc; simp
        · simp only [hxc, if_false, Nat.add_zero]; exact h4.count x hx
      · exact h4.freed
      · intro x
        simp only [hu]
        by_cases hxc : x = c
        · subst hxc
          have : x ∉ s1.freed := fun e => by have := ((h4.gone x).mp e).2.2; omega
          simp [this]
        · simp only [hxc, if_false, Nat.add_zero]; exact h4.gone x

theorem ok_exit {T : Nat} (hT : T < 2 ^ 32) {s : St} {u : Use} (h : Ok T s u) (t : Nat) :
    ∃ s', ThreadCtx.exit t s = some s' ∧ Ok T s' (u.step (.exit t)) := by
  cases hc : u.of t with
  | none =>
    have h1 := h.cur t
    rw [hc] at h1
    refine ⟨s, by simp only [ThreadCtx.exit, h1], ?_⟩
    have : u.step (.exit t) = u := by
      have : (fun x => if x = t then none else u.of x) = u.of := by
        funext x; split
        · subst_vars; exact hc.symm
        · rfl
      simp only [Use.step, this]
    rw [this]; exact h
  | some c =>
    have h1 := h.cur t
    rw [hc] at h1
    obtain ⟨s', e1, e2, h2⟩ := ok_release hT h hc
    have : release c { s with cur := upd s.cur t none } = some { s' with cur := upd s'.cur t none } := by
      cases hr : s.refc c with
      | none => simp [release, hr] at e1
      | some r =>
        simp only [release, hr] at e1 ⊢
        split at e1
        · rename_i hr2
          rw [if_pos hr2]; cases e1; rfl
        · rename_i hr2
          rw [if_neg hr2]
          split at e1
          · rename_i hr3; rw [if_pos hr3]; cases e1; rfl
          · rename_i hr3; rw [if_neg hr3]; cases e1; rfl
    exact ⟨_, by simp only [ThreadCtx.exit, h1]; exact this, h2⟩

theorem ctx_run {T : Nat} (hT : T < 2 ^ 32) : ∀ (os : List Op) (s : St) (u : Use), Ok T s u → Legal T os u → ∃ s', run os s = some s' ∧ Ok T s' (os.foldl Use.step u)
  | [], s, _, h, _ => ⟨s, rfl, h⟩
  | o :: os, s, u, h, hl => by
    obtain ⟨h1, h2⟩ := hl
    have : ∃ s', step s o = some s' ∧ Ok T s' (u.step o) := by
      cases o with
      | use t => exact ⟨_, rfl, (ok_use h t h1).2.2⟩
      | set t c => exact ok_set hT h h1.1 h1.2
      | exit t => exact ok_exit hT h t
    obtain ⟨s', e, h3⟩ := this
    obtain ⟨s2, e2, h4⟩ := ctx_run hT os s' _ h3 h2
    exact ⟨s2, by simp only [run, e, e2], h4⟩

/-- C50: whatever (less than 2³²) threads do one after another, with contexts taken over only while used: no freed context is touched; each thread has the context it last set, or its own;
a context other than the static one is allocated exactly while some thread uses it, and freed once.
Missing: threads that change counts at the same time (`thread_ctx_race_false`). -/
theorem thread_ctx_partial (T : Nat) (hT : T < 2 ^ 32) (os : List Op) (hl : Legal T os ⟨fun _ => none, 1⟩) :
    ∃ s, run os ThreadCtx.init = some s ∧
      (∀ t, s.cur t = (os.foldl Use.step ⟨fun _ => none, 1⟩).of t) ∧
      (s.refc 0).isSome = true ∧
      (∀ c, c ≠ 0 → ((s.refc c).isSome = true ↔ ∃ t, s.cur t = some c)) ∧
      s.freed.Nodup ∧ ∀ c, c ∈ s.freed ↔ c ≠ 0 ∧ c < (os.foldl Use.step ⟨fun _ => none, 1⟩).made ∧ ∀ t, s.cur t ≠ some c := by
  have h0 : ∀ c, users T (fun _ => none) c = 0 := by
    intro c
    rcases Nat.eq_zero_or_pos (users T (fun _ => none) c) with h | h
    · exact h
    · obtain ⟨t, -, ht⟩ := (users_pos _ _ _).mp h; cases ht
  have hi : Ok T ThreadCtx.init ⟨fun _ => none, 1⟩ := by
    constructor
    · intro t; rfl
    · rfl
    · rintro t c ⟨⟩
    · exact Nat.one_pos
    · rfl
    · intro c hc; simp [ThreadCtx.init, upd, hc, h0]
    · simp [ThreadCtx.init]
    · intro c; simp [ThreadCtx.init]; intro a b; omega
  obtain ⟨s, e, h⟩ := ctx_run hT os _ _ hi hl
  refine ⟨s, e, h.cur, h.zero, ?_, h.freed, ?_⟩
  · intro c hc
    rw [h.count c hc]
    constructor
    · intro hs
      split at hs
      · cases hs
      · rename_i hne
        obtain ⟨t, -, ht⟩ := (users_pos _ _ _).mp (Nat.pos_of_ne_zero hne)
        exact ⟨t, by rw [h.cur]; exact ht⟩
    · rintro ⟨t, ht⟩
      rw [h.cur] at ht
      have := (users_pos T _ c).mpr ⟨t, (h.below t c ht).1, ht⟩
      rw [if_neg (by omega)]; rfl
  · intro c
    rw [h.gone]
    constructor
    · rintro ⟨a, b, d⟩
      refine ⟨a, b, ?_⟩
      intro t ht
      rw [h.cur] at ht
      have := (users_pos T _ c).mpr ⟨t, (h.below t c ht).1, ht⟩
      omega
    · rintro ⟨a, b, d⟩
      refine ⟨a, b, ?_⟩
      rcases Nat.eq_zero_or_pos (users T (os.foldl Use.step ⟨fun _ => none, 1⟩).of c) with h2 | h2
      · exact h2
      · obtain ⟨t, -, ht⟩ := (users_pos _ _ _).mp h2
        exact absurd (by rw [h.cur]; exact ht) (d t)

/-- Thread 1 shares its context with the main thread and thread 2, leaves it, and the others end. -/
example : Legal 3 [.use 1, .set 0 1, .set 2 1, .set 1 0, .exit 0, .exit 2] ⟨fun _ => none, 1⟩ := by
  refine ⟨by decide, ⟨by decide, Or.inr ⟨1, by decide, by decide⟩⟩, ⟨by decide, Or.inr ⟨1, by decide, by decide⟩⟩, ⟨by decide, Or.inl rfl⟩, by decide, by decide, trivial⟩
example : ((run [.use 1, .set 0 1, .set 2 1, .set 1 0, .exit 0] ThreadCtx.init).map fun s => (s.refc 0, s.refc 1, s.freed)) = some (some 0, some 1, [2]) ∧
    ((run [.use 1, .set 0 1, .set 2 1, .set 1 0, .exit 0, .exit 2] ThreadCtx.init).map fun s => (s.refc 1, s.freed)) = some (none, [2, 1]) := by decide +kernel

/-- C50: two threads take over context 1 of a third one at the same time: its count is 2, not 3; so when two of the three threads end, the context is freed while the third one uses it. -/
theorem thread_ctx_race_false : incs [.load 2, .load 3, .store 2, .store 3] (fun _ => 0) 1 = 2 ∧
    ∃ s s', s.refc 1 = some 2 ∧ (∀ t ∈ [1, 2, 3], s.cur t = some 1) ∧ run [.exit 1, .exit 2] s = some s' ∧ s'.cur 3 = some 1 ∧ s'.refc 1 = none ∧ run [.exit 1, .exit 2, .exit 3] s = none :=
  ⟨by decide, ⟨fun c => if c = 1 then some 2 else if c = 0 then some 0 else none, fun t => if t = 1 ∨ t = 2 ∨ t = 3 then some 1 else none, 2, []⟩, _,
    rfl, by decide, rfl, by decide, by decide, by decide⟩

end Verif.Props
