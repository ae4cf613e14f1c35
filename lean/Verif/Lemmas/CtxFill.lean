import Verif.Spec.CtxFill

/-! # Lemmas for filling the context of a client session -/

namespace Verif.CtxFill
open Verif.ModSel (Text strGt strstr cpbltModule cpbltModules)

theorem Keeps.refl (c : List Mod) : Keeps c c := fun _ h _ => h
theorem Keeps.trans {a b c : List Mod} (h : Keeps a b) (h' : Keeps b c) : Keeps a c := fun x hx hi => h' x (h x hx hi) hi

theorem latest_mem {ctx : List Mod} {name : Text} {m : Mod} (h : latest ctx name = some m) : m ∈ ctx ∧ m.name = name := by
  have go : ∀ (l : List Mod) (acc : Option Mod) (P : Mod → Prop), (∀ x ∈ l, P x) → (∀ x, acc = some x → P x) →
      ∀ y, l.foldl (fun acc m => match acc with | none => some m | some a => if strGt (m.rev.getD []) (a.rev.getD []) then some m else some a) acc = some y → P y := by
    intro l
    induction l with
    | nil => intro acc P _ ha y hy; exact ha y hy
    | cons x l ih =>
      intro acc P hl ha y hy
      refine ih _ P (fun z hz => hl z (by simp [hz])) ?_ y hy
      intro z hz
      cases acc with
      | none => injection hz with hz; subst hz; exact hl _ (by simp)
      | some a =>
        simp only at hz
        split at hz
        · injection hz with hz; subst hz; exact hl _ (by simp)
        · injection hz with hz; subst hz; exact ha _ rfl
  refine go _ none (fun m => m ∈ ctx ∧ m.name = name) ?_ (by simp) m h
  intro x hx
  have := List.mem_filter.1 hx
  exact ⟨this.1, by simpa using this.2⟩

theorem implemented_some {ctx : List Mod} {name : Text} {m : Mod} (h : implemented ctx name = some m) : m ∈ ctx ∧ m.impl = true ∧ m.name = name := by
  have h1 := List.find?_some h
  have h2 := List.mem_of_find?_eq_some h
  simp only [Bool.and_eq_true, beq_iff_eq] at h1
  exact ⟨h2, h1.1, h1.2⟩

theorem implemented_none {ctx : List Mod} {name : Text} (h : implemented ctx name = none) : ∀ x ∈ ctx, x.impl = true → x.name ≠ name := by
  intro x hx hi hn
  have := List.find?_eq_none.1 h x hx
  simp [hi, hn] at this

theorem present_some {ctx : List Mod} {name : Text} {rev : Option Text} {m : Mod} (h : present ctx name rev = some m) :
    m ∈ ctx ∧ m.name = name ∧
      (implemented ctx name = some m ∨ (implemented ctx name = none ∧ (rev = none ∨ m.rev = rev))) := by
  unfold present at h
  cases hi : implemented ctx name with
  | some x =>
    rw [hi] at h; injection h with h; subst h
    obtain ⟨h1, _, h3⟩ := implemented_some hi
    exact ⟨h1, h3, .inl rfl⟩
  | none =>
    rw [hi] at h
    cases rev with
    | none =>
      obtain ⟨h1, h2⟩ := latest_mem h
      exact ⟨h1, h2, .inr ⟨rfl, .inl rfl⟩⟩
    | some r =>
      have h1 := List.find?_some h
      have h2 := List.mem_of_find?_eq_some h
      simp only [Bool.and_eq_true, beq_iff_eq] at h1
      exact ⟨h2, h1.1, .inr ⟨rfl, .inr h1.2⟩⟩

theorem present_none {ctx : List Mod} {name : Text} {rev : Option Text} (h : present ctx name rev = none) : implemented ctx name = none := by
  unfold present at h
  cases hi : implemented ctx name with
  | some x => rw [hi] at h; cases h
  | none => rfl

/-- What does not change, or only in one direction, when a text is looked for. -/
theorem retrieve_frame {env : Env} {s s1 : St} {gs name rev o} (h : retrieve env s gs name rev = (s1, o)) :
    s1.ctx = s.ctx ∧ s1.strict = s.strict ∧ s1.noDirs = s.noDirs ∧ s1.explicit = s.explicit ∧ (s1.alive = true → s.alive = true) := by
  unfold retrieve at h
  cases hl : localText env name rev with
  | some t => rw [hl] at h; injection h with h1 h2; subst h1; exact ⟨rfl, rfl, rfl, rfl, id⟩
  | none =>
    rw [hl] at h
    have hs : ∀ s2 o2, (if gs = true then getSchema env s name rev else (s, none)) = (s2, o2) →
        s2.ctx = s.ctx ∧ s2.strict = s.strict ∧ s2.noDirs = s.noDirs ∧ s2.explicit = s.explicit ∧ (s2.alive = true → s.alive = true) := by
      intro s2 o2 e
      cases gs with
      | false => injection e with e; subst e; exact ⟨rfl, rfl, rfl, rfl, id⟩
      | true =>
        simp only [if_true] at e
        unfold getSchema at e
        cases ha : s.alive with
        | false => rw [ha] at e; injection e with e; subst e; exact ⟨rfl, rfl, rfl, rfl, fun h => h ▸ ha.symm ▸ by simp [ha] at h⟩
        | true =>
          rw [ha] at e; simp only [if_true] at e
          cases hr : env.server s.rpcs name rev with
          | text t => rw [hr] at e; injection e with e; subst e; exact ⟨rfl, rfl, rfl, rfl, fun _ => rfl⟩
          | nothing => rw [hr] at e; injection e with e; subst e; exact ⟨rfl, rfl, rfl, rfl, fun _ => rfl⟩
          | broken => rw [hr] at e; injection e with e; subst e; exact ⟨rfl, rfl, rfl, rfl, fun _ => rfl⟩
    generalize hq : (if gs = true then getSchema env s name rev else (s, none)) = q at h
    obtain ⟨s2, o2⟩ := q
    have := hs s2 o2 hq
    cases o2 with
    | some t => injection h with h1 h2; subst h1; exact this
    | none => injection h with h1 h2; subst h1; exact this

/-- A text that is found fits, if the sources are honest. -/
theorem retrieve_fits {env : Env} (hh : Honest env) {s s1 : St} {gs name rev t f} (h : retrieve env s gs name rev = (s1, some (t, f))) :
    fits name rev t := by
  unfold retrieve at h
  cases hl : localText env name rev with
  | some t' =>
    rw [hl] at h; injection h with h1 h2; injection h2 with h2; injection h2 with h2 h3; subst h2
    unfold localText at hl
    cases hf : env.localFile name rev with
    | none => rw [hf] at hl; cases hl
    | some p =>
      obtain ⟨t2, b⟩ := p
      rw [hf] at hl
      simp only at hl
      split at hl
      · cases hl
      · rename_i hc
        injection hl with hl; subst hl
        obtain ⟨h4, h5⟩ := hh.localFile name rev _ b hf
        cases b with
        | true => exact h5 rfl
        | false =>
          cases rev with
          | none => exact ⟨h4, .inl rfl⟩
          | some r => simp at hc
  | none =>
    rw [hl] at h
    generalize hq : (if gs = true then getSchema env s name rev else (s, none)) = q at h
    obtain ⟨s2, o2⟩ := q
    cases o2 with
    | some t2 =>
      injection h with h1 h2; injection h2 with h2; injection h2 with h2 h3; subst h2
      cases gs with
      | false => injection hq with _ hq; cases hq
      | true =>
        simp only [if_true] at hq
        unfold getSchema at hq
        cases ha : s.alive with
        | false => rw [ha] at hq; injection hq with _ hq; cases hq
        | true =>
          rw [ha] at hq; simp only [if_true] at hq
          cases hr : env.server s.rpcs name rev with
          | text t => rw [hr] at hq; injection hq with _ hq; injection hq with hq; subst hq; exact hh.server _ _ _ _ hr
          | nothing => rw [hr] at hq; injection hq with _ hq; cases hq
          | broken => rw [hr] at hq; injection hq with _ hq; cases hq
    | none =>
      injection h with h1 h2
      unfold userText at h2
      cases hu : env.user with
      | none => rw [hu] at h2; cases h2
      | some g => rw [hu] at h2; exact hh.user g name rev t f hu h2

/-- Only the user's callback gives data not to be freed by `free`. -/
theorem retrieve_libc {env : Env} (hu : UserLibc env) {s s1 : St} {gs name rev t f} (h : retrieve env s gs name rev = (s1, some (t, f))) : f = .libc := by
  unfold retrieve at h
  cases hl : localText env name rev with
  | some t' => rw [hl] at h; injection h with _ h2; injection h2 with h2; injection h2 with _ h3; exact h3.symm
  | none =>
    rw [hl] at h
    generalize (if gs = true then getSchema env s name rev else (s, none)) = q at h
    obtain ⟨s2, o2⟩ := q
    cases o2 with
    | some t2 => injection h with _ h2; injection h2 with h2; injection h2 with _ h3; exact h3.symm
    | none =>
      injection h with _ h2
      unfold userText at h2
      cases hg : env.user with
      | none => rw [hg] at h2; cases h2
      | some g => rw [hg] at h2; exact hu g name rev t f hg h2

/-- Everything about loading a module. -/
inductive Loaded (env : Env) (s : St) (gs : Bool) (name : Text) (rev : Option Text) (s1 : St) : Bool → Option Mod → Prop where
  | there (m : Mod) (c : List Mod) (hp : present s.ctx name rev = some m) (hc : env.setImpl s.ctx m = some c) (hs : s1 = { s with ctx := c }) :
      Loaded env s gs name rev s1 true (some m)
  | stuck (m : Mod) (hp : present s.ctx name rev = some m) (hc : env.setImpl s.ctx m = none) (hs : s1 = s) :
      Loaded env s gs name rev s1 false (some m)
  | missing (hp : present s.ctx name rev = none) (hr : retrieve env s gs name rev = (s1, none)) : Loaded env s gs name rev s1 false none
  | parsed (s' : St) (t : Src) (c : List Mod) (m : Mod) (hp : present s.ctx name rev = none) (hr : retrieve env s gs name rev = (s', some (t, .libc)))
      (hc : env.parse s'.ctx t = some (c, m)) (hs : s1 = { s' with ctx := c, clb := .none }) : Loaded env s gs name rev s1 true (some m)
  | bad (s' : St) (t : Src) (hp : present s.ctx name rev = none) (hr : retrieve env s gs name rev = (s', some (t, .libc)))
      (hc : env.parse s'.ctx t = none) (hs : s1 = { s' with clb := .none }) : Loaded env s gs name rev s1 false none

theorem load_cases {env : Env} {s s1 : St} {gs name rev b om} (h : load env s gs name rev = .ok (s1, b, om)) : Loaded env s gs name rev s1 b om := by
  unfold load at h
  cases hp : present s.ctx name rev with
  | some m =>
    rw [hp] at h; simp only at h
    cases hc : env.setImpl s.ctx m with
    | some c => rw [hc] at h; injection h with h; injection h with h1 h; injection h with h2 h3; subst h2 h3; exact .there m c hp hc h1.symm
    | none => rw [hc] at h; injection h with h; injection h with h1 h; injection h with h2 h3; subst h2 h3; exact .stuck m hp hc h1.symm
  | none =>
    rw [hp] at h; simp only at h
    generalize hq : retrieve env s gs name rev = q at h
    obtain ⟨s', o⟩ := q
    cases o with
    | none => injection h with h; injection h with h1 h; injection h with h2 h3; subst h1 h2 h3; exact .missing hp hq
    | some p =>
      obtain ⟨t, f⟩ := p
      simp only at h
      cases hc : env.parse s'.ctx t with
      | some r =>
        obtain ⟨c, m⟩ := r
        rw [hc] at h; simp only at h
        split at h
        · rename_i hf; subst hf
          injection h with h; injection h with h1 h; injection h with h2 h3; subst h2 h3
          exact .parsed s' t c m hp hq hc h1.symm
        · cases h
      | none =>
        rw [hc] at h; simp only at h
        split at h
        · rename_i hf; subst hf
          injection h with h; injection h with h1 h; injection h with h2 h3; subst h2 h3
          exact .bad s' t hp hq hc h1.symm
        · cases h

theorem load_no_ub {env : Env} (hu : UserLibc env) (s : St) (gs : Bool) (name : Text) (rev : Option Text) : ∃ x, load env s gs name rev = .ok x := by
  unfold load
  cases hp : present s.ctx name rev with
  | some m => cases hc : env.setImpl s.ctx m <;> simp only [hc] <;> exact ⟨_, rfl⟩
  | none =>
    simp only
    generalize hq : retrieve env s gs name rev = q
    obtain ⟨s', o⟩ := q
    cases o with
    | none => exact ⟨_, rfl⟩
    | some p =>
      obtain ⟨t, f⟩ := p
      have hf := retrieve_libc hu hq; subst hf
      cases hc : env.parse s'.ctx t with
      | some r => obtain ⟨c, m⟩ := r; simp only [hc]; exact ⟨_, rfl⟩
      | none => simp only [hc]; exact ⟨_, rfl⟩

/-- The frame of loading. -/
theorem load_frame {env : Env} (hl : LibOk env) {s s1 : St} {gs name rev b om} (h : load env s gs name rev = .ok (s1, b, om)) :
    Keeps s.ctx s1.ctx ∧ s1.strict = s.strict ∧ (s1.alive = true → s.alive = true) ∧ (b = true → om ≠ none) := by
  cases load_cases h with
  | there m c hp hc hs => subst hs; exact ⟨(hl.setImpl _ _ _ hc).2, rfl, id, by simp⟩
  | stuck m hp hc hs => subst hs; exact ⟨Keeps.refl _, rfl, id, by simp⟩
  | missing hp hr =>
    obtain ⟨h1, h2, _, _, h5⟩ := retrieve_frame hr
    exact ⟨by rw [h1]; exact Keeps.refl _, h2, h5, by simp⟩
  | parsed s' t c m hp hr hc hs =>
    obtain ⟨h1, h2, _, _, h5⟩ := retrieve_frame hr
    subst hs
    exact ⟨by rw [← h1]; exact (hl.parse _ _ _ _ hc).2.2.2, h2, h5, by simp⟩
  | bad s' t hp hr hc hs =>
    obtain ⟨h1, h2, _, _, h5⟩ := retrieve_frame hr
    subst hs
    exact ⟨by show Keeps s.ctx s'.ctx; rw [h1]; exact Keeps.refl _, h2, h5, by simp⟩

theorem load_one {env : Env} (hl : LibOne env) {s s1 : St} {gs name rev b om} (h : load env s gs name rev = .ok (s1, b, om)) (ho : One s.ctx) :
    One s1.ctx := by
  cases load_cases h with
  | there m c hp hc hs => subst hs; exact hl.setImpl _ _ _ ho hc
  | stuck m hp hc hs => subst hs; exact ho
  | missing hp hr => rw [(retrieve_frame hr).1]; exact ho
  | parsed s' t c m hp hr hc hs => subst hs; exact hl.parse _ _ _ _ (by rw [(retrieve_frame hr).1]; exact ho) hc
  | bad s' t hp hr hc hs => subst hs; show One s'.ctx; rw [(retrieve_frame hr).1]; exact ho

theorem present_set {env : Env} (hset : SetOk env) {c : List Mod} (ho : One c) {name rev m} (hp : present c name rev = some m) :
    (env.setImpl c m).isSome = true := by
  obtain ⟨h1, h2, h3⟩ := present_some hp
  refine hset c m h1 ?_
  intro x hx hi hn
  rcases h3 with h3 | ⟨h3, _⟩
  · obtain ⟨h4, h5, h6⟩ := implemented_some h3
    exact ho x hx m h4 hi h5 hn
  · exact absurd (by rw [hn, h2]) (implemented_none h3 x hx hi)

/-- A module that was loaded is implemented; in the revision asked for, unless another one was implemented before. -/
theorem load_done {env : Env} (hl : LibOk env) (hh : Honest env) (hset : SetOk env) {s s1 : St} {gs name rev b m} (ho : One s.ctx)
    (h : load env s gs name rev = .ok (s1, b, some m)) :
    ∃ x ∈ s1.ctx, x.impl = true ∧ x.name = name ∧ (rev = none ∨ x.rev = rev ∨ implemented s.ctx name = some x) := by
  cases load_cases h with
  | there _ c hp hc hs =>
    subst hs
    obtain ⟨h1, h2, h3⟩ := present_some hp
    refine ⟨⟨m.name, m.rev, true⟩, (hl.setImpl _ _ _ hc).1, rfl, h2, ?_⟩
    rcases h3 with h3 | ⟨_, h3⟩
    · obtain ⟨_, h5, _⟩ := implemented_some h3
      refine .inr (.inr ?_)
      rw [h3]; congr 1; obtain ⟨a, b, c⟩ := m; simp only at h5; rw [h5]
    · rcases h3 with h3 | h3
      · exact .inl h3
      · exact .inr (.inl h3)
  | stuck _ hp hc hs => have := present_set hset ho hp; rw [hc] at this; cases this
  | parsed s' t c _ hp hr hc hs =>
    subst hs
    obtain ⟨h1, h2⟩ := retrieve_fits hh hr
    refine ⟨⟨t.name, t.rev, true⟩, (hl.parse _ _ _ _ hc).2.2.1, rfl, h1, ?_⟩
    rcases h2 with h2 | h2
    · exact .inl h2
    · exact .inr (.inl h2)

/-! ## The list of the server -/

theorem fill_frame {env : Env} (hl : LibOk env) (gs : Bool) : ∀ (ms : List SMod) (s s1 : St) (b : Bool), fill env gs ms s = .ok (s1, b) →
    Keeps s.ctx s1.ctx ∧ (s1.strict = true → s.strict = true) ∧ (s1.alive = true → s.alive = true)
  | [], s, s1, b, h => by injection h with h; injection h with h; subst h; exact ⟨Keeps.refl _, id, id⟩
  | m :: ms, s, s1, b, h => by
    unfold fill at h
    split at h
    · cases hL : load env s gs m.name m.rev with
      | ub => rw [hL] at h; cases h
      | ok r =>
        obtain ⟨s2, b2, om⟩ := r
        obtain ⟨h1, h2, h3, _⟩ := load_frame hl hL
        rw [hL] at h
        cases om with
        | some x =>
          obtain ⟨h4, h5, h6⟩ := fill_frame hl gs ms s2 s1 b h
          exact ⟨h1.trans h4, fun hh => by rw [← h2]; exact h5 hh, fun hh => h3 (h6 hh)⟩
        | none =>
          simp only at h
          split at h
          · obtain ⟨h4, h5, h6⟩ := fill_frame hl gs ms _ s1 b h
            exact ⟨h1.trans h4, fun hh => absurd (h5 hh) (by simp), fun hh => h3 (h6 hh)⟩
          · injection h with h; injection h with h; subst h; exact ⟨h1, fun hh => by rw [← h2]; exact hh, h3⟩
    · exact fill_frame hl gs ms s s1 b h

/-- A strict session has all modules. -/
theorem fill_complete {env : Env} (hl : LibOk env) (hone : LibOne env) (hh : Honest env) (hset : SetOk env) (gs : Bool) :
    ∀ (ms : List SMod) (s s1 : St), One s.ctx → fill env gs ms s = .ok (s1, true) → s1.strict = true → Complete ms s1.ctx
  | [], _, _, _, _, _ => by intro m hm; cases hm
  | m :: ms, s, s1, ho, h, hs => by
    unfold fill at h
    split at h
    · rename_i hi
      cases hL : load env s gs m.name m.rev with
      | ub => rw [hL] at h; cases h
      | ok r =>
        obtain ⟨s2, b2, om⟩ := r
        rw [hL] at h
        cases om with
        | some x =>
          simp only at h
          have h1 := fill_complete hl hone hh hset gs ms s2 s1 (load_one hone hL ho) h hs
          obtain ⟨y, hy, hyi, hyn, _⟩ := load_done hl hh hset ho hL
          intro m' hm' hi'
          rcases List.mem_cons.1 hm' with e | e
          · subst e; exact ⟨y, (fill_frame hl gs ms s2 s1 true h).1 y hy hyi, hyi, hyn⟩
          · exact h1 m' e hi'
        | none =>
          simp only at h
          split at h
          · have := (fill_frame hl gs ms _ s1 true h).2.1 hs; simp at this
          · injection h with h; injection h with _ h; cases h
    · rename_i hi
      have h1 := fill_complete hl hone hh hset gs ms s s1 ho h hs
      intro m' hm' hi'
      rcases List.mem_cons.1 hm' with e | e
      · subst e; exact absurd hi' hi
      · exact h1 m' e hi'

/-- Nothing is implemented but what was, and the modules of the list. -/
theorem load_only {env : Env} (hl : LibOnly env) (hh : Honest env) {s s1 : St} {gs name rev b om} (h : load env s gs name rev = .ok (s1, b, om)) :
    ∀ x ∈ s1.ctx, x.impl = true → x ∈ s.ctx ∨ (x.name = name ∧ (rev = none ∨ x.rev = rev)) := by
  intro x hx hi
  cases load_cases h with
  | there m c hp hc hs =>
    subst hs
    rcases hl.setImpl _ _ _ hc x hx hi with h | h
    · exact .inl h
    · obtain ⟨h1, h2, h3⟩ := present_some hp
      rcases h3 with h3 | ⟨_, h3⟩
      · obtain ⟨_, h5, _⟩ := implemented_some h3
        refine .inl ?_
        rw [h]; have : (⟨m.name, m.rev, true⟩ : Mod) = m := by obtain ⟨a, b, c⟩ := m; simp only at h5; rw [h5]
        rw [this]; exact h1
      · refine .inr ?_
        rw [h]; exact ⟨h2, h3⟩
  | stuck m hp hc hs => subst hs; exact .inl hx
  | missing hp hr => rw [(retrieve_frame hr).1] at hx; exact .inl hx
  | parsed s' t c m hp hr hc hs =>
    subst hs
    rcases hl.parse _ _ _ _ hc x hx hi with h | h
    · rw [(retrieve_frame hr).1] at h; exact .inl h
    · obtain ⟨h1, h2⟩ := retrieve_fits hh hr
      refine .inr ?_
      rw [h]; exact ⟨h1, h2⟩
  | bad s' t hp hr hc hs => subst hs; exact .inl (by have := (retrieve_frame hr).1; rw [← this]; exact hx)

theorem fill_only {env : Env} (hl : LibOnly env) (hh : Honest env) (gs : Bool) : ∀ (ms : List SMod) (s s1 : St) (b : Bool), fill env gs ms s = .ok (s1, b) →
    ∀ x ∈ s1.ctx, x.impl = true → x ∈ s.ctx ∨ ∃ m ∈ ms, m.impl = true ∧ x.name = m.name ∧ (m.rev = none ∨ x.rev = m.rev)
  | [], s, s1, b, h => by injection h with h; injection h with h; subst h; exact fun x hx _ => .inl hx
  | m :: ms, s, s1, b, h => by
    have lift : ∀ s2 : List Mod, (∀ x ∈ s1.ctx, x.impl = true → x ∈ s2 ∨ ∃ m ∈ ms, m.impl = true ∧ x.name = m.name ∧ (m.rev = none ∨ x.rev = m.rev)) →
        ∀ x ∈ s1.ctx, x.impl = true → x ∈ s2 ∨ ∃ m' ∈ m :: ms, m'.impl = true ∧ x.name = m'.name ∧ (m'.rev = none ∨ x.rev = m'.rev) := by
      intro s2 h x hx hi
      rcases h x hx hi with h | ⟨m', h1, h2⟩
      · exact .inl h
      · exact .inr ⟨m', by simp [h1], h2⟩
    unfold fill at h
    split at h
    · rename_i hmi
      cases hL : load env s gs m.name m.rev with
      | ub => rw [hL] at h; cases h
      | ok r =>
        obtain ⟨s2, b2, om⟩ := r
        rw [hL] at h
        have hlo := load_only hl hh hL
        have step : (∀ x ∈ s1.ctx, x.impl = true → x ∈ s2.ctx ∨ ∃ m ∈ ms, m.impl = true ∧ x.name = m.name ∧ (m.rev = none ∨ x.rev = m.rev)) →
            ∀ x ∈ s1.ctx, x.impl = true → x ∈ s.ctx ∨ ∃ m' ∈ m :: ms, m'.impl = true ∧ x.name = m'.name ∧ (m'.rev = none ∨ x.rev = m'.rev) := by
          intro h x hx hi
          rcases lift _ h x hx hi with h | h
          · rcases hlo x h hi with h | h
            · exact .inl h
            · exact .inr ⟨m, by simp, hmi, h⟩
          · exact .inr h
        cases om with
        | some y => exact step (fill_only hl hh gs ms s2 s1 b h)
        | none =>
          simp only at h
          split at h
          · have hx := fill_only hl hh gs ms _ s1 b h
            exact step hx
          · injection h with h; injection h with h; subst h
            exact step (fun x hx _ => .inl hx)
    · exact lift _ (fill_only hl hh gs ms s s1 b h)

/-! ## Before the list -/

/-- The state may have changed by loading modules: nothing implemented is lost, other things change in one direction only. -/
structure Step (s s1 : St) : Prop where
  keeps : Keeps s.ctx s1.ctx
  strict : s1.strict = true → s.strict = true
  alive : s1.alive = true → s.alive = true

theorem Step.refl (s : St) : Step s s := ⟨Keeps.refl _, id, id⟩
theorem Step.trans {a b c : St} (h : Step a b) (h' : Step b c) : Step a c :=
  ⟨h.keeps.trans h'.keeps, fun x => h.strict (h'.strict x), fun x => h.alive (h'.alive x)⟩

theorem load_step {env : Env} (hl : LibOk env) {s s1 : St} {gs name rev b om} (h : load env s gs name rev = .ok (s1, b, om)) : Step s s1 := by
  obtain ⟨h1, h2, h3, _⟩ := load_frame hl h
  exact ⟨h1, fun h => by rw [← h2]; exact h, h3⟩

/-- The parts before the list, with an invariant `P` of the context that every libyang call keeps. -/
structure Inv (env : Env) (P : List Mod → Prop) : Prop where
  load : ∀ s s1 gs name rev b om, P s.ctx → load env s gs name rev = .ok (s1, b, om) → name ∈ early → P s1.ctx
  mon : ∀ c c' m, P c → env.parse c builtinMonitoring = some (c', m) → P c'
  base : ∀ c c' m, P c → env.parse c builtinNetconf = some (c', m) → P c'
  set : ∀ c c' m, P c → implemented c netconf = some m → env.setImpl c m = some c' → P c'

theorem mon_ok {env : Env} {P} (hi : Inv env P) (hl : LibOk env) {s s1 : St} {cpblts gs} (hP : P s.ctx) (h : loadMonitoring env s cpblts = (s1, gs)) :
    P s1.ctx ∧ Step s s1 ∧ s1.alive = s.alive ∧ s1.rpcs = s.rpcs ∧ s1.strict = s.strict := by
  unfold loadMonitoring at h
  split at h
  · cases hp : env.parse s.ctx builtinMonitoring with
    | some r =>
      obtain ⟨c, m⟩ := r
      rw [hp] at h; injection h with h; subst h
      exact ⟨hi.mon _ _ _ hP hp, ⟨(hl.parse _ _ _ _ hp).2.2.2, id, id⟩, rfl, rfl, rfl⟩
    | none => rw [hp] at h; injection h with h; subst h; exact ⟨hP, Step.refl _, rfl, rfl, rfl⟩
  · injection h with h; subst h; exact ⟨hP, Step.refl _, rfl, rfl, rfl⟩

theorem netconf_early : netconf ∈ early := by unfold early netconf; exact List.mem_cons_self

theorem netconf_ok {env : Env} {P} (hi : Inv env P) (hl : LibOk env) {s s1 : St} {mods gs b} (hP : P s.ctx) (h : fillNetconf env mods gs s = .ok (s1, b)) :
    P s1.ctx ∧ Step s s1 := by
  unfold fillNetconf at h
  cases hf : mods.find? (fun m => m.name == netconf) with
  | none => rw [hf] at h; injection h with h; injection h with h; subst h; exact ⟨hP, Step.refl _⟩
  | some m =>
    rw [hf] at h; simp only at h
    split at h
    · cases hm : implemented s.ctx netconf with
      | some x =>
        rw [hm] at h; simp only at h
        cases hc : env.setImpl s.ctx x with
        | some c =>
          rw [hc] at h; injection h with h; injection h with h; subst h
          exact ⟨hi.set _ _ _ hP hm hc, ⟨(hl.setImpl _ _ _ hc).2, id, id⟩⟩
        | none => rw [hc] at h; injection h with h; injection h with h; subst h; exact ⟨hP, Step.refl _⟩
      | none =>
        rw [hm] at h; simp only at h
        cases hL : load env s gs netconf none with
        | ub => rw [hL] at h; cases h
        | ok r =>
          obtain ⟨s2, b2, om⟩ := r
          have h1 := hi.load _ _ _ _ _ _ _ hP hL netconf_early
          have h2 := load_step hl hL
          rw [hL] at h
          cases om with
          | some y => injection h with h; injection h with h; subst h; exact ⟨h1, h2⟩
          | none =>
            simp only at h
            cases hp : env.parse s2.ctx builtinNetconf with
            | some r =>
              obtain ⟨c, y⟩ := r
              rw [hp] at h; injection h with h; injection h with h; subst h
              exact ⟨hi.base _ _ _ h1 hp, h2.trans ⟨(hl.parse _ _ _ _ hp).2.2.2, id, id⟩⟩
            | none => rw [hp] at h; injection h with h; injection h with h; subst h; exact ⟨h1, h2⟩
    · cases h

theorem yl_early : "ietf-yang-library".toList ∈ early := by unfold early; simp
theorem ds_early : "ietf-datastores".toList ∈ early := by unfold early; simp
theorem nmda_early : "ietf-netconf-nmda".toList ∈ early := by unfold early; simp

theorem yl_ok {env : Env} {P} (hi : Inv env P) (hl : LibOk env) {s s1 : St} {gs cpblts b} (hP : P s.ctx) (h : loadYanglib env s gs cpblts = .ok (s1, b)) :
    P s1.ctx ∧ Step s s1 := by
  unfold loadYanglib at h
  split at h
  · rename_i r hr
    cases hL : load env s gs "ietf-yang-library".toList (some ((r.drop 9).take 10)) with
    | ub => rw [hL] at h; cases h
    | ok q =>
      obtain ⟨s2, ok1, om⟩ := q
      have h1 := hi.load _ _ _ _ _ _ _ hP hL yl_early
      have h2 := load_step hl hL
      rw [hL] at h; simp only at h
      split at h
      · injection h with h; injection h with h; subst h; exact ⟨h1, h2⟩
      · cases hL2 : load env s2 gs "ietf-datastores".toList none with
        | ub => rw [hL2] at h; cases h
        | ok q =>
          obtain ⟨s3, ok2, om2⟩ := q
          rw [hL2] at h; injection h with h; injection h with h; subst h
          exact ⟨hi.load _ _ _ _ _ _ _ h1 hL2 ds_early, h2.trans (load_step hl hL2)⟩
  · injection h with h; injection h with h; subst h; exact ⟨hP, Step.refl _⟩

theorem oper_frame {env : Env} {s s1 : St} {o b} (h : operData env s = (s1, o, b)) :
    s1.ctx = s.ctx ∧ s1.strict = s.strict ∧ (s1.alive = true → s.alive = true) ∧ (b = true → s1.alive = true) ∧
      (∀ l, o = some l → env.oper s.rpcs = .data l) := by
  unfold operData at h
  cases ha : s.alive with
  | false => simp only [ha, Bool.false_eq_true, if_false] at h; injection h with h1 h; injection h with h2 h3; subst h1 h2 h3; exact ⟨rfl, rfl, fun h => by rw [ha] at h; exact h, by simp, by simp⟩
  | true =>
    rw [ha] at h; simp only [if_true] at h
    cases ho : env.oper s.rpcs with
    | data l =>
      rw [ho] at h; injection h with h1 h; injection h with h2 h3; subst h1 h2 h3
      exact ⟨rfl, rfl, fun _ => rfl, fun _ => rfl, fun l' hl => by injection hl with hl; rw [hl]⟩
    | nothing => rw [ho] at h; injection h with h1 h; injection h with h2 h3; subst h1 h2 h3; exact ⟨rfl, rfl, fun _ => rfl, fun _ => rfl, by simp⟩
    | broken => rw [ho] at h; injection h with h1 h; injection h with h2 h3; subst h1 h2 h3; exact ⟨rfl, rfl, fun _ => rfl, by simp, by simp⟩

theorem mods_ok {env : Env} {P} (hi : Inv env P) (hl : LibOk env) {s s1 : St} {gs yl l0 mods} (hP : P s.ctx)
    (h : serverMods env s gs yl l0 = .ok (s1, mods)) :
    P s1.ctx ∧ Step s s1 ∧ (mods = l0 ∨ ∃ n, env.oper n = .data mods) := by
  unfold serverMods at h
  split at h
  · generalize hq : operData env s = q at h
    obtain ⟨s2, o, b⟩ := q
    obtain ⟨h1, h2, h3, h4, h5⟩ := oper_frame hq
    have hst : Step s s2 := ⟨by rw [h1]; exact Keeps.refl _, fun h => by rw [← h2]; exact h, h3⟩
    cases o with
    | none => injection h with h; injection h with e1 e2; subst e1 e2; exact ⟨by rw [h1]; exact hP, hst, .inl rfl⟩
    | some l =>
      simp only at h
      split at h
      · cases hL : load env s2 gs "ietf-netconf-nmda".toList none with
        | ub => rw [hL] at h; cases h
        | ok q =>
          obtain ⟨s3, ok2, om2⟩ := q
          rw [hL] at h; injection h with h; injection h with e1 e2; subst e1 e2
          exact ⟨hi.load _ _ _ _ _ _ _ (by rw [h1]; exact hP) hL nmda_early, hst.trans (load_step hl hL), .inr ⟨_, h5 _ rfl⟩⟩
      · injection h with h; injection h with e1 e2; subst e1 e2; exact ⟨by rw [h1]; exact hP, hst, .inr ⟨_, h5 _ rfl⟩⟩
  · injection h with h; injection h with e1 e2; subst e1 e2; exact ⟨hP, Step.refl _, .inl rfl⟩

theorem mount_frame {env : Env} {shared : Bool} {s s1 : St} {b : Bool} (h : schemaMount env shared s = (s1, b)) :
    s1.ctx = s.ctx ∧ s1.strict = s.strict ∧ (s1.alive = true → s.alive = true) ∧ (shared = false → b = true → s1.alive = true) := by
  unfold schemaMount at h
  cases shared with
  | true => injection h with h1 h2; subst h1; exact ⟨rfl, rfl, id, by simp⟩
  | false =>
    simp only [Bool.false_eq_true, if_false] at h
    cases hm : implemented s.ctx "ietf-yang-library".toList with
    | none => rw [hm] at h; injection h with h1 h2; subst h1 h2; exact ⟨rfl, rfl, id, by simp⟩
    | some m =>
      rw [hm] at h; simp only at h
      generalize hq : operData env s = q at h
      obtain ⟨s2, o, b2⟩ := q
      obtain ⟨h1, h2, h3, h4, _⟩ := oper_frame hq
      cases o with
      | none => injection h with e1 e2; subst e1 e2; exact ⟨h1, h2, h3, fun _ => h4⟩
      | some l =>
        cases b2 with
        | true => injection h with e1 e2; subst e1; exact ⟨h1, h2, h3, fun _ _ => h4 rfl⟩
        | false => injection h with e1 e2; subst e1 e2; exact ⟨h1, h2, h3, by simp⟩

/-- The whole function, cut at the list of modules. -/
theorem body_cut {env : Env} {P} (hi : Inv env P) (hl : LibOk env) {shared : Bool} {cpblts : List Text} {s s1 : St} (hP : P s.ctx)
    (h : body env shared cpblts s = .ok (s1, true)) :
    ∃ s4 s5 gs yl mods, P s4.ctx ∧ Step s s4 ∧ (mods = fromCpblts cpblts ∨ ∃ n, env.oper n = .data mods) ∧
      fill env gs mods s4 = .ok (s5, true) ∧ s1.ctx = s5.ctx ∧ s1.strict = s5.strict ∧ (s1.alive = true → s5.alive = true) ∧
      (shared = false → yl = true → s1.alive = true) ∧
      (fromCpblts cpblts).any (fun m => m.name == netconf) = true ∧
      (∃ s2 s3, P s2.ctx ∧ loadYanglib env s2 gs cpblts = .ok (s3, yl)) := by
  unfold body at h
  generalize hq : loadMonitoring env { s with noDirs := true, clb := .none } cpblts = q at h
  obtain ⟨s2, gs⟩ := q
  obtain ⟨hP2, hS2, _⟩ := mon_ok hi hl (s := { s with noDirs := true, clb := .none }) hP hq
  have hS2' : Step s s2 := ⟨hS2.keeps, hS2.strict, hS2.alive⟩
  simp only at h
  cases hn : fillNetconf env (fromCpblts cpblts) gs s2 with
  | ub => rw [hn] at h; cases h
  | ok q =>
    obtain ⟨s3, b⟩ := q
    obtain ⟨hP3, hS3⟩ := netconf_ok hi hl hP2 hn
    rw [hn] at h
    cases b with
    | false => injection h with h; injection h with _ h; cases h
    | true =>
      simp only at h
      have hany : (fromCpblts cpblts).any (fun m => m.name == netconf) = true := by
        unfold fillNetconf at hn
        cases hf : (fromCpblts cpblts).find? (fun m => m.name == netconf) with
        | none => rw [hf] at hn; injection hn with hn; injection hn with _ hn; cases hn
        | some m => exact List.any_eq_true.2 ⟨m, List.mem_of_find?_eq_some hf, by have := List.find?_some hf; simpa using this⟩
      cases hy : loadYanglib env s3 gs cpblts with
      | ub => rw [hy] at h; cases h
      | ok q =>
        obtain ⟨s3', yl⟩ := q
        obtain ⟨hP4, hS4⟩ := yl_ok hi hl hP3 hy
        rw [hy] at h; simp only at h
        cases hm : serverMods env s3' gs yl (fromCpblts cpblts) with
        | ub => rw [hm] at h; cases h
        | ok q =>
          obtain ⟨s4, mods⟩ := q
          obtain ⟨hP5, hS5, hmods⟩ := mods_ok hi hl hP4 hm
          rw [hm] at h; simp only at h
          unfold finishFill at h
          have hS : Step s { s4 with explicit := true } := by
            have := ((hS2'.trans hS3).trans hS4).trans hS5
            exact ⟨this.keeps, this.strict, this.alive⟩
          cases hfl : fill env gs mods { s4 with explicit := true } with
          | ub => rw [hfl] at h; cases h
          | ok q =>
            obtain ⟨s5, b⟩ := q
            rw [hfl] at h
            cases b with
            | false => injection h with h; injection h with _ h; cases h
            | true =>
              simp only at h
              refine ⟨{ s4 with explicit := true }, s5, gs, yl, mods, hP5, hS, hmods, hfl, ?_⟩
              have tail : s1.ctx = s5.ctx ∧ s1.strict = s5.strict ∧ (s1.alive = true → s5.alive = true) ∧ (shared = false → yl = true → s1.alive = true) := by
                split at h
                · split at h
                  · injection h with h
                    obtain ⟨h1, h2, h3, h4⟩ := mount_frame h
                    exact ⟨h1, h2, h3, fun hh _ => h4 hh rfl⟩
                  · rename_i hyl
                    injection h with h; injection h with h _; subst h
                    exact ⟨rfl, rfl, id, fun _ hh => absurd hh hyl⟩
                · injection h with h; injection h with _ h; cases h
              exact ⟨tail.1, tail.2.1, tail.2.2.1, tail.2.2.2, hany, s3, s3', hP3, hy⟩

theorem inv_one {env : Env} (hl : LibOne env) : Inv env One where
  load _ _ _ _ _ _ _ h hL _ := load_one hl hL h
  mon _ _ _ h hp := hl.parse _ _ _ _ h hp
  base _ _ _ h hp := hl.parse _ _ _ _ h hp
  set _ _ _ h _ hp := hl.setImpl _ _ _ h hp

/-- Implemented before the list are only modules that were, and those loaded early. -/
theorem inv_early {env : Env} (hl : LibOnly env) (hh : Honest env) (c0 : List Mod) :
    Inv env (fun c => ∀ x ∈ c, x.impl = true → x ∈ c0 ∨ x.name ∈ early) where
  load s s1 gs name rev b om h hL he x hx hi := by
    rcases load_only hl hh hL x hx hi with h1 | ⟨h1, _⟩
    · exact h x h1 hi
    · exact .inr (by rw [h1]; exact he)
  mon c c' m h hp x hx hi := by
    rcases hl.parse _ _ _ _ hp x hx hi with h1 | h1
    · exact h x h1 hi
    · exact .inr (by rw [h1]; unfold early builtinMonitoring; simp)
  base c c' m h hp x hx hi := by
    rcases hl.parse _ _ _ _ hp x hx hi with h1 | h1
    · exact h x h1 hi
    · exact .inr (by rw [h1]; exact netconf_early)
  set c c' m h hm hp x hx hi := by
    rcases hl.setImpl _ _ _ hp x hx hi with h1 | h1
    · exact h x h1 hi
    · obtain ⟨h2, h3, h4⟩ := implemented_some hm
      exact .inr (by rw [h1]; show m.name ∈ early; rw [h4]; exact netconf_early)

theorem inv_early' {env : Env} (hh : Honest env) (c0 : List Mod) :
    Inv env (fun c => LibOnly env → ∀ x ∈ c, x.impl = true → x ∈ c0 ∨ x.name ∈ early) where
  load s s1 gs name rev b om h hL he hl := (inv_early hl hh c0).load s s1 gs name rev b om (h hl) hL he
  mon c c' m h hp hl := (inv_early hl hh c0).mon c c' m (h hl) hp
  base c c' m h hp hl := (inv_early hl hh c0).base c c' m (h hl) hp
  set c c' m h hm hp hl := (inv_early hl hh c0).set c c' m (h hl) hm hp

theorem Inv.and {env : Env} {P Q} (h : Inv env P) (h' : Inv env Q) : Inv env (fun c => P c ∧ Q c) where
  load s s1 gs name rev b om hc hL he := ⟨h.load s s1 gs name rev b om hc.1 hL he, h'.load s s1 gs name rev b om hc.2 hL he⟩
  mon c c' m hc hp := ⟨h.mon c c' m hc.1 hp, h'.mon c c' m hc.2 hp⟩
  base c c' m hc hp := ⟨h.base c c' m hc.1 hp, h'.base c c' m hc.2 hp⟩
  set c c' m hc hm hp := ⟨h.set c c' m hc.1 hm hp, h'.set c c' m hc.2 hm hp⟩

/-! ## Everything available -/

theorem load_available {env : Env} (hh : Honest env) (hset : SetOk env) (hav : Available env) {s : St} (ho : One s.ctx) (gs : Bool) (name : Text)
    (rev : Option Text) :
    ∃ c m q, load env s gs name rev = .ok ({ s with ctx := c, clb := q }, true, some m) := by
  unfold load
  cases hp : present s.ctx name rev with
  | some m =>
    have := present_set hset ho hp
    obtain ⟨c, hc⟩ := Option.isSome_iff_exists.1 this
    simp only [hc]; exact ⟨c, m, s.clb, rfl⟩
  | none =>
    obtain ⟨t, ht⟩ := hav.localFile name rev
    have hr : retrieve env s gs name rev = (s, some (t, .libc)) := by simp [retrieve, localText, ht]
    have hn := implemented_none (present_none hp)
    have hname := (hh.localFile name rev t true ht).1
    obtain ⟨r, hc⟩ := Option.isSome_iff_exists.1 (hav.parse s.ctx t (by rw [hname]; exact hn))
    obtain ⟨c, m⟩ := r
    simp only [hr, hc]
    exact ⟨c, m, .none, rfl⟩

theorem fill_available {env : Env} (hone : LibOne env) (hh : Honest env) (hset : SetOk env) (hav : Available env) (gs : Bool) :
    ∀ (ms : List SMod) (s : St), One s.ctx → ∃ c q, fill env gs ms s = .ok ({ s with ctx := c, clb := q }, true)
  | [], s, _ => ⟨s.ctx, s.clb, rfl⟩
  | m :: ms, s, ho => by
    unfold fill
    split
    · obtain ⟨c, x, q, h⟩ := load_available hh hset hav ho gs m.name m.rev
      rw [h]
      have ho' := load_one hone h ho
      obtain ⟨c', q', h'⟩ := fill_available hone hh hset hav gs ms _ ho'
      exact ⟨c', q', h'⟩
    · exact fill_available hone hh hset hav gs ms s ho

/-- The library can be used if everything is available. -/
theorem yl_available {env : Env} (hone : LibOne env) (hh : Honest env) (hset : SetOk env) (hav : Available env) {s : St} (ho : One s.ctx) (gs : Bool)
    (cpblts : List Text) :
    ∃ c q, loadYanglib env s gs cpblts = .ok ({ s with ctx := c, clb := q }, (ylRevision cpblts).isSome) ∧ One c := by
  unfold loadYanglib ylRevision cpblt
  cases hg : (cpblts.filter (fun c => "urn:ietf:params:netconf:capability:yang-library:".toList.isPrefixOf c)).getLast? with
  | none => exact ⟨s.ctx, s.clb, rfl, ho⟩
  | some c =>
    simp only [Option.map_some, Option.bind_some]
    cases hr : strstr "revision=".toList c with
    | none => exact ⟨s.ctx, s.clb, rfl, ho⟩
    | some r =>
      simp only [Option.map_some, Option.isSome_some]
      obtain ⟨c1, m1, q1, h1⟩ := load_available hh hset hav ho gs "ietf-yang-library".toList (some ((r.drop 9).take 10))
      have ho1 := load_one hone h1 ho
      rw [h1]; simp only
      split
      · exact ⟨c1, q1, rfl, ho1⟩
      · obtain ⟨c2, m2, q2, h2⟩ := load_available hh hset hav ho1 gs "ietf-datastores".toList none
        have ho2 := load_one hone h2 ho1
        rw [h2]; exact ⟨c2, q2, rfl, ho2⟩

theorem yl_implemented {env : Env} (hl : LibOk env) (hh : Honest env) (hset : SetOk env) {s s1 : St} (ho : One s.ctx) {gs : Bool}
    {cpblts : List Text} (h : loadYanglib env s gs cpblts = .ok (s1, true)) : ∃ x ∈ s1.ctx, x.impl = true ∧ x.name = "ietf-yang-library".toList := by
  unfold loadYanglib at h
  split at h
  · rename_i r hr
    cases hL : load env s gs "ietf-yang-library".toList (some ((r.drop 9).take 10)) with
    | ub => rw [hL] at h; cases h
    | ok q =>
      obtain ⟨s2, ok1, om⟩ := q
      rw [hL] at h; simp only at h
      have key : ok1 = true → ∃ x ∈ s2.ctx, x.impl = true ∧ x.name = "ietf-yang-library".toList := by
        intro hok
        cases om with
        | none => exact absurd rfl ((load_frame hl hL).2.2.2 hok)
        | some m => obtain ⟨x, h1, h2, h3, _⟩ := load_done hl hh hset ho hL; exact ⟨x, h1, h2, h3⟩
      split at h
      · injection h with h; injection h with h1 h2; subst h1; exact key h2
      · cases hL2 : load env s2 gs "ietf-datastores".toList none with
        | ub => rw [hL2] at h; cases h
        | ok q =>
          obtain ⟨s3, ok2, om2⟩ := q
          rw [hL2] at h; injection h with h; injection h with h1 h2; subst h1
          obtain ⟨x, h3, h4, h5⟩ := key (by cases ok1 <;> simp_all)
          exact ⟨x, (load_frame hl hL2).1 x h3 h4, h4, h5⟩
  · injection h with h; injection h with _ h; cases h

/-- The list that is used: yang-library data if the server has them, the capabilities otherwise. -/
theorem mods_available {env : Env} (hone : LibOne env) (hh : Honest env) (hset : SetOk env) (hav : Available env) {s : St} (ho : One s.ctx)
    (ha : s.alive = true) (hno : ∀ n, env.oper n ≠ .broken) (gs yl : Bool) (l0 : List SMod) :
    ∃ c q k, serverMods env s gs yl l0 =
        .ok ({ s with ctx := c, clb := q, rpcs := k }, if yl then (match env.oper s.rpcs with | .data l => l | _ => l0) else l0) ∧ One c := by
  unfold serverMods
  cases yl with
  | false => exact ⟨s.ctx, s.clb, s.rpcs, rfl, ho⟩
  | true =>
    simp only [if_true, operData, ha]
    cases hop : env.oper s.rpcs with
    | broken => exact absurd hop (hno _)
    | nothing => exact ⟨s.ctx, s.clb, s.rpcs + 1, rfl, ho⟩
    | data l =>
      simp only
      split
      · obtain ⟨c1, m1, q1, h1⟩ := load_available hh hset hav (s := { s with rpcs := s.rpcs + 1, alive := true }) ho gs "ietf-netconf-nmda".toList none
        have ho1 := load_one hone h1 ho
        rw [h1]; exact ⟨c1, q1, s.rpcs + 1, rfl, ho1⟩
      · exact ⟨s.ctx, s.clb, s.rpcs + 1, rfl, ho⟩

theorem netconf_available {env : Env} (hone : LibOne env) (hh : Honest env) (hset : SetOk env) (hav : Available env) {s : St} (ho : One s.ctx) (gs : Bool)
    {cpblts : List Text} (hb : (fromCpblts cpblts).any (fun m => m.name == netconf) = true) :
    ∃ c q, fillNetconf env (fromCpblts cpblts) gs s = .ok ({ s with ctx := c, clb := q }, true) ∧ One c := by
  unfold fillNetconf
  cases hf : (fromCpblts cpblts).find? (fun m => m.name == netconf) with
  | none =>
    obtain ⟨m, h1, h2⟩ := List.any_eq_true.1 hb
    exact absurd h2 (List.find?_eq_none.1 hf m h1)
  | some m =>
    have hm : m.impl = true := by
      have := List.mem_of_find?_eq_some hf
      unfold fromCpblts at this
      obtain ⟨c, _, hc⟩ := List.mem_map.1 this
      rw [← hc]
    simp only [hm, if_true]
    cases hi : implemented s.ctx netconf with
    | some x =>
      cases hc : env.setImpl s.ctx x with
      | some c => simp only [hc]; exact ⟨c, s.clb, rfl, hone.setImpl _ _ _ ho hc⟩
      | none => simp only [hc]; exact ⟨s.ctx, s.clb, rfl, ho⟩
    | none =>
      obtain ⟨c, x, q, h⟩ := load_available hh hset hav ho gs netconf none
      have ho' := load_one hone h ho
      simp only [h]
      exact ⟨c, q, rfl, ho'⟩

theorem body_available {env : Env} (hl : LibOk env) (hone : LibOne env) (hh : Honest env) (hset : SetOk env) (hav : Available env)
    (hno : ∀ n, env.oper n ≠ .broken) {s : St} (ho : One s.ctx) (ha : s.alive = true) (hst : s.strict = true) (shared : Bool) {cpblts : List Text}
    (hb : (fromCpblts cpblts).any (fun m => m.name == netconf) = true) :
    ∃ s1, body env shared cpblts s = .ok (s1, true) ∧ s1.strict = true ∧ s1.alive = true ∧ Complete (announced env cpblts s.rpcs) s1.ctx := by
  unfold body
  generalize hq : loadMonitoring env { s with noDirs := true, clb := .none } cpblts = q
  obtain ⟨s1, gs⟩ := q
  obtain ⟨hP1, _, ha1, hr1, hs1⟩ := mon_ok (inv_one hone) hl (s := { s with noDirs := true, clb := .none }) ho hq
  simp only at ha1 hr1 hs1
  obtain ⟨c2, q2, h2, ho2⟩ := netconf_available hone hh hset hav hP1 gs hb
  simp only [h2]
  obtain ⟨c3, q3, h3, ho3⟩ := yl_available hone hh hset hav (s := { s1 with ctx := c2, clb := q2 }) ho2 gs cpblts
  simp only [h3]
  obtain ⟨c4, q4, k4, h4, ho4⟩ := mods_available hone hh hset hav (s := { s1 with ctx := c3, clb := q3 }) ho3 (by rw [← ha, ← ha1]) hno gs
    (ylRevision cpblts).isSome (fromCpblts cpblts)
  have hmods : (if (ylRevision cpblts).isSome = true then (match env.oper s1.rpcs with | .data l => l | _ => fromCpblts cpblts) else fromCpblts cpblts) =
      announced env cpblts s.rpcs := by
    unfold announced
    rw [hr1]
    cases ylRevision cpblts with
    | none => rfl
    | some r => cases env.oper s.rpcs <;> rfl
  simp only [hmods] at h4
  simp only [h4]
  unfold finishFill
  obtain ⟨c5, q5, h5⟩ := fill_available hone hh hset hav gs (announced env cpblts s.rpcs)
    { s1 with ctx := c4, clb := q4, rpcs := k4, explicit := true } ho4
  have hcomp := fill_complete hl hone hh hset gs _ _ _ ho4 h5 (by show s1.strict = true; rw [hs1]; exact hst)
  have hk5 := (fill_frame hl gs _ _ _ _ h5).1
  simp only [h5, hav.compile, if_true]
  cases hyl : (ylRevision cpblts).isSome with
  | false => exact ⟨_, rfl, by show s1.strict = true; rw [hs1]; exact hst, by show s1.alive = true; rw [ha1]; exact ha, hcomp⟩
  | true =>
    simp only [if_true]
    cases shared with
    | true => exact ⟨_, rfl, by show s1.strict = true; rw [hs1]; exact hst, by show s1.alive = true; rw [ha1]; exact ha, hcomp⟩
    | false =>
      rw [hyl] at h3
      obtain ⟨x, hx, hxi, hxn⟩ := yl_implemented hl hh hset ho2 h3
      have hx4 : x ∈ c4 := (mods_ok (inv_one hone) hl ho3 h4).2.1.keeps x hx hxi
      have hx5 : x ∈ c5 := hk5 x hx4 hxi
      have himp : ∃ y, implemented c5 "ietf-yang-library".toList = some y := by
        cases hy : implemented c5 "ietf-yang-library".toList with
        | some y => exact ⟨y, rfl⟩
        | none => exact absurd hxn (implemented_none hy x hx5 hxi)
      obtain ⟨y, hy⟩ := himp
      have hal : s1.alive = true := by rw [ha1]; exact ha
      simp only [schemaMount, hy, operData, hal, if_true, Bool.false_eq_true, if_false]
      cases hop : env.oper k4 with
      | broken => exact absurd hop (hno _)
      | nothing => exact ⟨_, rfl, by show s1.strict = true; rw [hs1]; exact hst, rfl, hcomp⟩
      | data l => simp only [hav.mountOk]; exact ⟨_, rfl, by show s1.strict = true; rw [hs1]; exact hst, rfl, hcomp⟩

/-! ## No undefined behaviour -/

theorem fill_no_ub {env : Env} (hu : UserLibc env) (gs : Bool) : ∀ (ms : List SMod) (s : St), ∃ x, fill env gs ms s = .ok x
  | [], s => ⟨_, rfl⟩
  | m :: ms, s => by
    unfold fill
    split
    · obtain ⟨⟨s1, b, om⟩, h⟩ := load_no_ub hu s gs m.name m.rev
      rw [h]
      cases om with
      | some x => exact fill_no_ub hu gs ms s1
      | none =>
        simp only
        split
        · exact fill_no_ub hu gs ms _
        · exact ⟨_, rfl⟩
    · exact fill_no_ub hu gs ms s

theorem body_no_ub {env : Env} (hu : UserLibc env) (shared : Bool) (cpblts : List Text) (s : St) : ∃ x, body env shared cpblts s = .ok x := by
  unfold body
  generalize loadMonitoring env { s with noDirs := true, clb := .none } cpblts = q
  obtain ⟨s1, gs⟩ := q
  simp only
  have h1 : ∃ x, fillNetconf env (fromCpblts cpblts) gs s1 = .ok x := by
    unfold fillNetconf
    cases hf : (fromCpblts cpblts).find? (fun m => m.name == netconf) with
    | none => exact ⟨_, rfl⟩
    | some m =>
      have hm : m.impl = true := by
        have := List.mem_of_find?_eq_some hf
        unfold fromCpblts at this
        obtain ⟨c, _, hc⟩ := List.mem_map.1 this
        rw [← hc]
      simp only [hm, if_true]
      cases hi : implemented s1.ctx netconf with
      | some x => cases hc : env.setImpl s1.ctx x <;> simp only [hc] <;> exact ⟨_, rfl⟩
      | none =>
        obtain ⟨⟨s2, b, om⟩, h⟩ := load_no_ub hu s1 gs netconf none
        simp only [h]
        cases om with
        | some x => exact ⟨_, rfl⟩
        | none =>
          cases hp : env.parse s2.ctx builtinNetconf with
          | some r => obtain ⟨c, m⟩ := r; simp only [hp]; exact ⟨_, rfl⟩
          | none => simp only [hp]; exact ⟨_, rfl⟩
  obtain ⟨⟨s2, b⟩, h1⟩ := h1
  rw [h1]
  cases b with
  | false => exact ⟨_, rfl⟩
  | true =>
    simp only
    have h2 : ∃ x, loadYanglib env s2 gs cpblts = .ok x := by
      unfold loadYanglib
      split
      · rename_i r hr
        obtain ⟨⟨s3, b, om⟩, h⟩ := load_no_ub hu s2 gs "ietf-yang-library".toList (some ((r.drop 9).take 10))
        rw [h]; simp only
        split
        · exact ⟨_, rfl⟩
        · obtain ⟨⟨s4, b, om⟩, h⟩ := load_no_ub hu s3 gs "ietf-datastores".toList none
          rw [h]; exact ⟨_, rfl⟩
      · exact ⟨_, rfl⟩
    obtain ⟨⟨s3, yl⟩, h2⟩ := h2
    rw [h2]; simp only
    have h3 : ∃ x, serverMods env s3 gs yl (fromCpblts cpblts) = .ok x := by
      unfold serverMods
      split
      · generalize operData env s3 = q
        obtain ⟨s4, o, b⟩ := q
        cases o with
        | none => exact ⟨_, rfl⟩
        | some l =>
          simp only
          split
          · obtain ⟨⟨s5, b, om⟩, h⟩ := load_no_ub hu s4 gs "ietf-netconf-nmda".toList none
            rw [h]; exact ⟨_, rfl⟩
          · exact ⟨_, rfl⟩
      · exact ⟨_, rfl⟩
    obtain ⟨⟨s4, mods⟩, h3⟩ := h3
    rw [h3]; simp only
    unfold finishFill
    obtain ⟨⟨s5, b⟩, h4⟩ := fill_no_ub hu gs mods { s4 with explicit := true }
    rw [h4]
    cases b with
    | false => exact ⟨_, rfl⟩
    | true =>
      simp only
      split
      · split <;> exact ⟨_, rfl⟩
      · exact ⟨_, rfl⟩

/-! ## Files without revision -/

theorem localText_drop (env : Env) : localText (dropUnknown env) = localText env := by
  funext name rev
  unfold localText dropUnknown
  simp only
  cases env.localFile name rev with
  | none => rfl
  | some p =>
    obtain ⟨t, b⟩ := p
    simp only
    cases h : rev.isSome && !b with
    | true => rfl
    | false => simp [h]

theorem retrieve_drop (env : Env) : retrieve (dropUnknown env) = retrieve env := by
  funext s gs name rev
  unfold retrieve
  rw [localText_drop]
  rfl

theorem load_drop (env : Env) : load (dropUnknown env) = load env := by
  funext s gs name rev
  unfold load
  rw [retrieve_drop]
  rfl

theorem fill_drop (env : Env) (gs : Bool) : ∀ ms s, fill (dropUnknown env) gs ms s = fill env gs ms s
  | [], _ => rfl
  | m :: ms, s => by
    unfold fill
    rw [load_drop]
    split
    · cases load env s gs m.name m.rev with
      | ub => rfl
      | ok r =>
        obtain ⟨s1, b, om⟩ := r
        cases om with
        | some x => exact fill_drop env gs ms s1
        | none =>
          simp only
          split
          · exact fill_drop env gs ms _
          · rfl
    · exact fill_drop env gs ms s

theorem fillNetconf_drop (env : Env) : fillNetconf (dropUnknown env) = fillNetconf env := by
  funext mods gs s
  unfold fillNetconf
  rw [load_drop]; rfl

theorem loadYanglib_drop (env : Env) : loadYanglib (dropUnknown env) = loadYanglib env := by
  funext s gs c
  unfold loadYanglib
  rw [load_drop]

theorem serverMods_drop (env : Env) : serverMods (dropUnknown env) = serverMods env := by
  funext s gs yl l
  unfold serverMods
  rw [load_drop]; rfl

theorem finishFill_drop (env : Env) : finishFill (dropUnknown env) = finishFill env := by
  funext shared gs yl mods s
  unfold finishFill
  rw [fill_drop]; rfl

theorem checkAndFill_drop (env : Env) : checkAndFill (dropUnknown env) = checkAndFill env := by
  funext auto shared cpblts s
  unfold checkAndFill body
  rw [fillNetconf_drop, loadYanglib_drop, serverMods_drop, finishFill_drop]; rfl

/-! ## A session that breaks -/

theorem load_local_alive {env : Env} {s s1 : St} {gs name rev b om} (hf : ∃ t, env.localFile name rev = some (t, true))
    (h : load env s gs name rev = .ok (s1, b, om)) : s1.alive = s.alive := by
  obtain ⟨t, ht⟩ := hf
  have hr : retrieve env s gs name rev = (s, some (t, .libc)) := by simp [retrieve, localText, ht]
  cases load_cases h with
  | there m c hp hc hs => subst hs; rfl
  | stuck m hp hc hs => subst hs; rfl
  | missing hp hr' => rw [hr] at hr'; injection hr' with _ h; cases h
  | parsed s' t c m hp hr' hc hs => rw [hr] at hr'; injection hr' with h _; subst h; subst hs; rfl
  | bad s' t hp hr' hc hs => rw [hr] at hr'; injection hr' with h _; subst h; subst hs; rfl

/-- Without a callback of the user, a session that breaks while a module is got from the server leaves the module missing. -/
theorem load_user_none {env : Env} (hu : env.user = none) {s s1 : St} {gs name rev b om} (ha : s.alive = true)
    (h : load env s gs name rev = .ok (s1, b, om)) (hom : om ≠ none) : s1.alive = true := by
  have key : ∀ s' p, retrieve env s gs name rev = (s', some p) → s'.alive = true := by
    intro s' p hr
    unfold retrieve at hr
    cases hl : localText env name rev with
    | some t => rw [hl] at hr; injection hr with hr; subst hr; exact ha
    | none =>
      rw [hl] at hr
      generalize hq : (if gs = true then getSchema env s name rev else (s, none)) = q at hr
      obtain ⟨s2, o⟩ := q
      cases o with
      | none => injection hr with _ hr; unfold userText at hr; rw [hu] at hr; cases hr
      | some t =>
        injection hr with hr _; subst hr
        cases gs with
        | false => injection hq with _ hq; cases hq
        | true =>
          simp only [if_true, getSchema, ha] at hq
          cases hs : env.server s.rpcs name rev with
          | text t' => rw [hs] at hq; injection hq with hq _; subst hq; rfl
          | nothing => rw [hs] at hq; injection hq with _ hq; cases hq
          | broken => rw [hs] at hq; injection hq with _ hq; cases hq
  cases load_cases h with
  | there m c hp hc hs => subst hs; exact ha
  | stuck m hp hc hs => subst hs; exact ha
  | missing hp hr => exact absurd rfl hom
  | parsed s' t c m hp hr hc hs => subst hs; have hk := key _ _ hr; exact hk
  | bad s' t hp hr hc hs => exact absurd rfl hom

theorem fill_alive {env : Env} (hu : env.user = none) (gs : Bool) : ∀ (ms : List SMod) (s s1 : St), s.alive = true → fill env gs ms s = .ok (s1, true) →
    s1.alive = true
  | [], s, s1, ha, h => by injection h with h; injection h with h; subst h; exact ha
  | m :: ms, s, s1, ha, h => by
    unfold fill at h
    split at h
    · cases hL : load env s gs m.name m.rev with
      | ub => rw [hL] at h; cases h
      | ok r =>
        obtain ⟨s2, b2, om⟩ := r
        rw [hL] at h
        cases om with
        | some x => exact fill_alive hu gs ms s2 s1 (load_user_none hu ha hL (by simp)) h
        | none =>
          simp only at h
          split at h
          · rename_i ha2; have hk := fun hx => fill_alive hu gs ms _ s1 hx h; exact hk ha2
          · injection h with h; injection h with _ h; cases h
    · exact fill_alive hu gs ms s s1 ha h

/-- Nothing breaks while the early modules are loaded from local files and operational data are got. -/
theorem body_alive {env : Env} (hu : env.user = none) (hno : ∀ n, env.oper n ≠ .broken)
    (he : ∀ name ∈ early, ∀ rev, ∃ t, env.localFile name rev = some (t, true)) {shared : Bool} {cpblts : List Text} {s s1 : St} (ha : s.alive = true)
    (h : body env shared cpblts s = .ok (s1, true)) : s1.alive = true := by
  have hoper : ∀ (s s1 : St) o b, s.alive = true → operData env s = (s1, o, b) → s1.alive = true := by
    intro s s1 o b ha h
    simp only [operData, ha, if_true] at h
    cases hop : env.oper s.rpcs with
    | broken => exact absurd hop (hno _)
    | nothing => rw [hop] at h; injection h with h _; subst h; rfl
    | data l => rw [hop] at h; injection h with h _; subst h; rfl
  unfold body at h
  generalize hq : loadMonitoring env { s with noDirs := true, clb := .none } cpblts = q at h
  obtain ⟨s2, gs⟩ := q
  have ha2 : s2.alive = true := by
    unfold loadMonitoring at hq
    split at hq
    · cases hp : env.parse s.ctx builtinMonitoring with
      | some r => obtain ⟨c, m⟩ := r; simp only [hp] at hq; injection hq with hq _; subst hq; exact ha
      | none => simp only [hp] at hq; injection hq with hq _; subst hq; exact ha
    · injection hq with hq _; subst hq; exact ha
  simp only at h
  cases hn : fillNetconf env (fromCpblts cpblts) gs s2 with
  | ub => rw [hn] at h; cases h
  | ok q =>
    obtain ⟨s3, b⟩ := q
    have ha3 : s3.alive = true := by
      unfold fillNetconf at hn
      split at hn
      · injection hn with hn; injection hn with hn; subst hn; exact ha2
      · split at hn
        · split at hn
          · split at hn
            · injection hn with hn; injection hn with hn; subst hn; exact ha2
            · injection hn with hn; injection hn with hn; subst hn; exact ha2
          · split at hn
            · cases hn
            · rename_i hL; injection hn with hn; injection hn with hn; subst hn
              rw [load_local_alive (he _ netconf_early _) hL]; exact ha2
            · rename_i hL
              have := load_local_alive (he _ netconf_early _) hL
              split at hn
              · injection hn with hn; injection hn with hn; subst hn; show St.alive _ = true; rw [this]; exact ha2
              · injection hn with hn; injection hn with hn; subst hn; rw [this]; exact ha2
        · cases hn
    rw [hn] at h
    cases b with
    | false => injection h with h; injection h with _ h; cases h
    | true =>
      simp only at h
      cases hy : loadYanglib env s3 gs cpblts with
      | ub => rw [hy] at h; cases h
      | ok q =>
        obtain ⟨s4, yl⟩ := q
        have ha4 : s4.alive = true := by
          unfold loadYanglib at hy
          split at hy
          · rename_i r hr
            cases hL : load env s3 gs "ietf-yang-library".toList (some ((r.drop 9).take 10)) with
            | ub => rw [hL] at hy; cases hy
            | ok q =>
              obtain ⟨t1, ok1, om⟩ := q
              have e1 := load_local_alive (he _ yl_early _) hL
              rw [hL] at hy; simp only at hy
              split at hy
              · injection hy with hy; injection hy with hy; subst hy; rw [e1]; exact ha3
              · cases hL2 : load env t1 gs "ietf-datastores".toList none with
                | ub => rw [hL2] at hy; cases hy
                | ok q =>
                  obtain ⟨t2, ok2, om2⟩ := q
                  have e2 := load_local_alive (he _ ds_early _) hL2
                  rw [hL2] at hy; injection hy with hy; injection hy with hy; subst hy; rw [e2, e1]; exact ha3
          · injection hy with hy; injection hy with hy; subst hy; exact ha3
        rw [hy] at h; simp only at h
        cases hm : serverMods env s4 gs yl (fromCpblts cpblts) with
        | ub => rw [hm] at h; cases h
        | ok q =>
          obtain ⟨s5, mods⟩ := q
          have ha5 : s5.alive = true := by
            unfold serverMods at hm
            split at hm
            · generalize hq : operData env s4 = q at hm
              obtain ⟨t1, o, b⟩ := q
              have e1 := hoper _ _ _ _ ha4 hq
              cases o with
              | none => injection hm with hm; injection hm with hm; subst hm; exact e1
              | some l =>
                simp only at hm
                split at hm
                · cases hL : load env t1 gs "ietf-netconf-nmda".toList none with
                  | ub => rw [hL] at hm; cases hm
                  | ok q =>
                    obtain ⟨t2, ok2, om2⟩ := q
                    have e2 := load_local_alive (he _ nmda_early _) hL
                    rw [hL] at hm; injection hm with hm; injection hm with hm; subst hm; rw [e2]; exact e1
                · injection hm with hm; injection hm with hm; subst hm; exact e1
            · injection hm with hm; injection hm with hm; subst hm; exact ha4
          rw [hm] at h; simp only at h
          unfold finishFill at h
          cases hfl : fill env gs mods { s5 with explicit := true } with
          | ub => rw [hfl] at h; cases h
          | ok q =>
            obtain ⟨s6, b⟩ := q
            rw [hfl] at h
            cases b with
            | false => injection h with h; injection h with _ h; cases h
            | true =>
              have ha6 := fill_alive hu gs mods _ s6 (by exact ha5) hfl
              simp only at h
              split at h
              · split at h
                · injection h with h
                  unfold schemaMount at h
                  split at h
                  · injection h with h; subst h; exact ha6
                  · split at h
                    · injection h with _ h; cases h
                    · split at h
                      · rename_i hq; injection h with h; subst h; exact hoper _ _ _ _ ha6 hq
                      · rename_i hq; injection h with h; subst h; exact hoper _ _ _ _ ha6 hq
                · injection h with h; injection h with h; subst h; exact ha6
              · injection h with h; injection h with _ h; cases h

end Verif.CtxFill
