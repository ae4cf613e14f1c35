import Verif.Lemmas.ClientOpts

/-!
# Settings of the client: texts given by setters (C189, C190)
-/

namespace Verif.Props

open Verif.ClientOpts

/-- What a call gives for a setting; `none`: the call is not about it. -/
def optGiven : Call → Slot → Option Arg
  | .certKey ch c k _ _, a => if a = .cert ch then some c else if a = .key ch then some k else none
  | .ca ch f d _ _, a => if a = .caFile ch then some f else if a = .caDir ch then some d else none
  | .user ch n _, a => if a = .user ch then some n else none
  | .hosts ch p _, a => if a = .hosts ch then some p else none
  | .search p _, a => if a = .search then some p else none
  | .destroy, _ => some .null

/-- The call keeps to the documentation: a certificate, or a file or directory
of trusted CAs, is given. -/
def optAccepted : Call → Prop
  | .certKey _ c _ _ _ => c ≠ .null
  | .ca _ f d _ _ => f ≠ .null ∨ d ≠ .null
  | _ => True

/-- There is memory for all texts given. -/
def optEnough : Call → Prop
  | .certKey _ c k ok₁ ok₂ => (c = .null ∨ ok₁ = true) ∧ (k = .null ∨ ok₂ = true)
  | .ca _ f d ok₁ ok₂ => (f = .null ∨ ok₁ = true) ∧ (d = .null ∨ ok₂ = true)
  | .user _ n ok => n = .null ∨ ok = true
  | .hosts _ p ok => p = .null ∨ ok = true
  | .search p ok => p = .null ∨ ok = true
  | .destroy => True

/-- There is memory for the first of two texts. -/
def optFirst : Call → Prop
  | .certKey _ c _ ok₁ _ => c = .null ∨ ok₁ = true
  | .ca _ f _ ok₁ _ => f = .null ∨ ok₁ = true
  | _ => True

/-- What is given is NULL, memory of the caller, or what a getter gives for a
setting the call is not about. -/
def OptProper (c : Call) (s : State) : Prop :=
  ∀ a x, optGiven c a = some x →
    x = .null ∨ (∃ t, x = .text t) ∨ ∃ d, optGiven c d = none ∧ x = got d s

/-- The settings after some calls. -/
inductive OptReached : State → Prop where
  | new : OptReached State.new
  | step {s s' : State} {c : Call} {r : Bool} : OptReached s → OptProper c s → optFirst c →
      call c s = some (r, s') → OptReached s'

theorem optFine {c : Call} {s : State} (hp : OptProper c s) (E : Slot → Prop)
    (hE : ∀ d, optGiven c d = none → ¬ E d) (a : Slot) (x : Arg) (h : optGiven c a = some x) : Fine E x s := by
  rcases hp a x h with h | h | ⟨d, hd, h⟩
  · exact Or.inl h
  · exact Or.inr (Or.inl h)
  · unfold got at h
    cases hq : s.ptr d with
    | none => rw [hq] at h; exact Or.inl h
    | some b => rw [hq] at h; exact Or.inr (Or.inr ⟨b, d, h, hE d hd, hq⟩)

theorem optCall_good {c : Call} {s : State} (g : Good (fun _ => False) s) (hp : OptProper c s)
    (hf : optFirst c) :
    ∃ r s', call c s = some (r, s') ∧ Good (fun _ => False) s' ∧
      (r = true ↔ optAccepted c ∧ optEnough c) ∧
      (r = true → ∀ a x, optGiven c a = some x → shown a s' = x.read s) ∧
      (∀ a, optGiven c a = none → shown a s' = shown a s) ∧
      (¬ optAccepted c → s' = s) := by
  cases c with
  | certKey ch c k ok₁ ok₂ =>
    by_cases hc : c = .null
    · refine ⟨false, s, by simp only [call, if_pos hc], g, ?_, by simp, fun _ _ => rfl, fun _ => rfl⟩
      simp [optAccepted, hc]
    · have hE : ∀ d, optGiven (.certKey ch c k ok₁ ok₂) d = none → ¬ (d = .cert ch ∨ d = .key ch) := by
        rintro d h (e | e) <;> simp [optGiven, e] at h
      obtain ⟨r, s', h, g', hr, h₁, h₂, ho⟩ := replaceTwo_good g (.cert ch) (.key ch) (by simp) c k ok₁ ok₂
        (optFine hp _ hE (.cert ch) c (by simp [optGiven])) (optFine hp _ hE (.key ch) k (by simp [optGiven])) hf
      refine ⟨r, s', by simp only [call, if_neg hc]; exact h, g', ?_, ?_, ?_, ?_⟩
      · rw [← Bool.not_eq_false, hr]
        have hf' : ok₁ = true := Or.resolve_left hf hc
        by_cases hk : k = .null <;> simp [optAccepted, optEnough, hk, hc, hf']
      · intro e a x hx
        subst e
        by_cases ea : a = .cert ch
        · simp only [optGiven, if_pos ea, Option.some.injEq] at hx
          rw [ea, h₁, hx]
        · by_cases eb : a = .key ch
          · simp [optGiven, eb] at hx
            rw [eb, h₂, hx]; rfl
          · simp [optGiven, ea, eb] at hx
      · intro a ha
        exact ho a (fun e => hE a ha (Or.inl e)) (fun e => hE a ha (Or.inr e))
      · intro hn; exact absurd hc hn
  | ca ch f d ok₁ ok₂ =>
    by_cases hc : f = .null ∧ d = .null
    · refine ⟨false, s, by simp only [call, if_pos hc], g, ?_, by simp, fun _ _ => rfl, fun _ => rfl⟩
      simp [optAccepted, hc]
    · have hE : ∀ e, optGiven (.ca ch f d ok₁ ok₂) e = none → ¬ (e = .caFile ch ∨ e = .caDir ch) := by
        rintro d h (e | e) <;> simp [optGiven, e] at h
      obtain ⟨r, s', h, g', hr, h₁, h₂, ho⟩ := replaceTwo_good g (.caFile ch) (.caDir ch) (by simp) f d ok₁ ok₂
        (optFine hp _ hE (.caFile ch) f (by simp [optGiven])) (optFine hp _ hE (.caDir ch) d (by simp [optGiven])) hf
      have hacc : optAccepted (.ca ch f d ok₁ ok₂) := by
        by_cases hn : f = .null
        · exact Or.inr (fun e => hc ⟨hn, e⟩)
        · exact Or.inl hn
      refine ⟨r, s', by simp only [call, if_neg hc]; exact h, g', ?_, ?_, ?_, ?_⟩
      · rw [← Bool.not_eq_false, hr]
        simp only [hacc, optEnough, true_and]
        simp only [optFirst] at hf
        by_cases hk : d = .null <;> simp [hk, hf]
      · intro e a x hx
        subst e
        by_cases ea : a = .caFile ch
        · simp only [optGiven, if_pos ea, Option.some.injEq] at hx
          rw [ea, h₁, hx]
        · by_cases eb : a = .caDir ch
          · simp [optGiven, eb] at hx
            rw [eb, h₂, hx]; rfl
          · simp [optGiven, ea, eb] at hx
      · intro a ha
        exact ho a (fun e => hE a ha (Or.inl e)) (fun e => hE a ha (Or.inr e))
      · intro hn; exact absurd hacc hn
  | user ch n ok =>
    have hE : ∀ e, optGiven (.user ch n ok) e = none → ¬ (e = .user ch) := by
      rintro d h e; simp [optGiven, e] at h
    obtain ⟨r, s', h, g', hr, h₁, ho⟩ := replaceOne_good g (.user ch) n ok
      (optFine hp _ hE (.user ch) n (by simp [optGiven]))
    refine ⟨r, s', h, g', ?_, ?_, fun a ha => ho a (hE a ha), fun hn => absurd trivial hn⟩
    · rw [← Bool.not_eq_false, hr]
      by_cases hk : n = .null <;> simp [optAccepted, optEnough, hk]
    · intro e a x hx
      subst e
      by_cases ea : a = .user ch
      · simp [optGiven, ea] at hx
        rw [ea, h₁, hx]; rfl
      · simp [optGiven, ea] at hx
  | hosts ch n ok =>
    have hE : ∀ e, optGiven (.hosts ch n ok) e = none → ¬ (e = .hosts ch) := by
      rintro d h e; simp [optGiven, e] at h
    obtain ⟨r, s', h, g', hr, h₁, ho⟩ := replaceOne_good g (.hosts ch) n ok
      (optFine hp _ hE (.hosts ch) n (by simp [optGiven]))
    refine ⟨r, s', h, g', ?_, ?_, fun a ha => ho a (hE a ha), fun hn => absurd trivial hn⟩
    · rw [← Bool.not_eq_false, hr]
      by_cases hk : n = .null <;> simp [optAccepted, optEnough, hk]
    · intro e a x hx
      subst e
      by_cases ea : a = .hosts ch
      · simp [optGiven, ea] at hx
        rw [ea, h₁, hx]; rfl
      · simp [optGiven, ea] at hx
  | search n ok =>
    have hE : ∀ e, optGiven (.search n ok) e = none → ¬ (e = .search) := by
      rintro d h e; simp [optGiven, e] at h
    obtain ⟨r, s', h, g', hr, h₁, ho⟩ := replaceOne_good g .search n ok
      (optFine hp _ hE .search n (by simp [optGiven]))
    refine ⟨r, s', h, g', ?_, ?_, fun a ha => ho a (hE a ha), fun hn => absurd trivial hn⟩
    · rw [← Bool.not_eq_false, hr]
      by_cases hk : n = .null <;> simp [optAccepted, optEnough, hk]
    · intro e a x hx
      subst e
      by_cases ea : a = .search
      · simp [optGiven, ea] at hx
        rw [ea, h₁, hx]; rfl
      · simp [optGiven, ea] at hx
  | destroy =>
    obtain ⟨s', h, g', hp'⟩ := wipe_good destroyOrder g
    refine ⟨true, s', by simp only [call, h], g', by simp [optAccepted, optEnough], ?_, ?_,
      fun hn => absurd trivial hn⟩
    · intro _ a x hx
      simp only [optGiven, Option.some.injEq] at hx
      subst hx
      simp [shown, hp' a, destroyOrder_all a, Arg.read]
    · intro a ha; simp [optGiven] at ha

theorem optReached_good {s : State} (h : OptReached s) : Good (fun _ => False) s := by
  induction h with
  | new => exact good_new
  | step _ hp hf hc ih =>
    obtain ⟨r, s', h, g, _⟩ := optCall_good ih hp hf
    rw [hc] at h
    cases h
    exact g

/-- C189, partial: after any calls, a call that follows the documentation and
has memory succeeds, the getters then give exactly the texts given, no other
setting changes, and a refused call changes nothing.  Missing: what getters
give may not be given back for the same settings, and the first of two texts
must not fail to be copied (`settings_got_false`, `settings_memory_false`). -/
theorem settings_shown_partial {s : State} (h : OptReached s) {c : Call} (hp : OptProper c s) (hf : optFirst c) :
    ∃ r s', call c s = some (r, s') ∧
      (r = true ↔ optAccepted c ∧ optEnough c) ∧
      (r = true → ∀ a x, optGiven c a = some x → shown a s' = x.read s) ∧
      (∀ a, optGiven c a = none → shown a s' = shown a s) ∧
      (¬ optAccepted c → s' = s) := by
  obtain ⟨r, s', h₁, _, h₂⟩ := optCall_good (optReached_good h) hp hf
  exact ⟨r, s', h₁, h₂⟩

/-- C190, partial: every setting has memory of its own, no memory is lost, and
destroying frees all of it.  Missing as in `settings_shown_partial`. -/
theorem settings_memory_partial {s : State} (h : OptReached s) :
    (∀ b, s.mem b ≠ none ↔ ∃ a, s.ptr a = some b) ∧
    (∀ a c b, s.ptr a = some b → s.ptr c = some b → a = c) ∧
    ∃ s', call .destroy s = some (true, s') ∧ (∀ b, s'.mem b = none) ∧ ∀ a, s'.ptr a = none := by
  have g := optReached_good h
  refine ⟨?_, fun a c b => g.inj a c b id id, ?_⟩
  · intro b
    constructor
    · intro hb
      cases hm : s.mem b with
      | none => exact absurd hm hb
      | some t => obtain ⟨a, _, ha⟩ := g.own b t hm; exact ⟨a, ha⟩
    · rintro ⟨a, ha⟩
      obtain ⟨t, ht⟩ := g.live a b id ha
      rw [ht]; simp
  · obtain ⟨s', hw, g', hp⟩ := wipe_good destroyOrder g
    have hp' : ∀ a, s'.ptr a = none := by intro a; simp [hp a, destroyOrder_all a]
    refine ⟨s', by simp only [call, hw], ?_, hp'⟩
    intro b
    cases hm : s'.mem b with
    | none => rfl
    | some t => obtain ⟨a, _, ha⟩ := g'.own b t hm; rw [hp' a] at ha; cases ha

/-- The calls used in `settings_memory_false`: there is no memory to copy the
second certificate. -/
def optShort : List Call :=
  [.certKey false (.text ['c']) (.text ['k']) true true,
   .certKey false (.text ['d']) (.text ['l']) false true,
   .destroy]

/-- C190 is false when memory is short: the pointer to the freed key stays, and
destroying frees it again. -/
theorem settings_memory_false :
    ∃ cs : List Call, (∀ c ∈ cs, ∀ a x, optGiven c a = some x → x = .null ∨ ∃ t, x = .text t) ∧
      calls cs State.new = none := by
  refine ⟨optShort, ?_, by decide⟩
  intro c hc a x hx
  simp only [optShort, List.mem_cons, List.not_mem_nil, or_false] at hc
  rcases hc with h | h | h <;> subst h <;> simp only [optGiven] at hx
  · split at hx
    · cases hx; exact Or.inr ⟨_, rfl⟩
    · split at hx
      · cases hx; exact Or.inr ⟨_, rfl⟩
      · cases hx
  · split at hx
    · cases hx; exact Or.inr ⟨_, rfl⟩
    · split at hx
      · cases hx; exact Or.inr ⟨_, rfl⟩
      · cases hx
  · cases hx; exact Or.inl rfl

/-- C189 is false when the certificate the getter gives is given back to change
only the key: it is freed before it is copied.  So for every certificate set. -/
theorem settings_got_false {s : State} (h : OptReached s) (ch : Bool) (b : Nat)
    (hb : s.ptr (.cert ch) = some b) (k : Arg) :
    call (.certKey ch (got (.cert ch) s) k true true) s = none := by
  have g := optReached_good h
  obtain ⟨s₁, h₁, g₁, p₁, m₁⟩ := release_good g (.cert ch) (fun x => x)
  obtain ⟨s₂, h₂, g₂, p₂, m₂⟩ := release_good g₁ (.key ch) (fun h => h.elim (fun h => h) (by simp))
  have hdead : s₂.mem b = none := by
    cases hm : s₂.mem b with
    | none => rfl
    | some t =>
      obtain ⟨a, ha, hp⟩ := g₂.own b t hm
      rw [p₂, p₁] at hp
      exact absurd (g.inj a (.cert ch) b id id hp hb) (fun e => ha (Or.inl (Or.inr e)))
  simp only [call, got, hb, if_neg (show ¬ (Arg.block b = Arg.null) by simp), replaceTwo, h₁, h₂, storeTwo,
    storeOpt, store, Arg.read, hdead]

/-- A certificate and key, then a CA file, then the name for Call Home is taken
from the getter of the other name. -/
def optDemo : List Call :=
  [.certKey false (.text ['c']) .null true true,
   .ca false (.text ['f']) (.text ['d']) true true,
   .user false (.text ['u']) true,
   .user true (.block 3) true,
   .ca false .null (.text ['e']) true true]

/-- What is shown after calls. -/
def optShows (cs : List Call) (a : Slot) : Option (List Char) :=
  match calls cs State.new with
  | none => none
  | some s => shown a s

example : optShows optDemo (.cert false) = some ['c'] ∧ optShows optDemo (.key false) = none ∧
    optShows optDemo (.caFile false) = none ∧ optShows optDemo (.caDir false) = some ['e'] ∧
    optShows optDemo (.user true) = some ['u'] ∧ optShows optDemo (.cert true) = none := by decide

example : ∃ s, OptReached s ∧ s.ptr (.cert false) = some 0 ∧ s.ptr (.key false) = some 1 :=
  ⟨_, .step (c := .certKey false (.text ['c']) (.text ['k']) true true) .new
    (by
      intro a x hx
      simp only [optGiven] at hx
      split at hx
      · cases hx; exact Or.inr (Or.inl ⟨_, rfl⟩)
      · split at hx
        · cases hx; exact Or.inr (Or.inl ⟨_, rfl⟩)
        · cases hx)
    (Or.inr rfl) rfl, rfl, rfl⟩

end Verif.Props
