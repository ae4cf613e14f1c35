import Verif.Lemmas.References

namespace Verif.Props

open Verif.References
open Verif.Endpoints (Ti)

/-! ## C27, C56: endpoint references -/

/-- Following references from `e` ends after `n` steps, every step leading to an existing listening endpoint of the same transport (SSH or TLS). -/
inductive EndsIn (eps : List Ep) : Nat → Ep → Prop
  | stop (e : Ep) : e.ref = none → EndsIn eps 0 e
  | step (e d : Ep) (n : Nat) : e.ref = some d.name → d ∈ eps → d.ti = e.ti → (e.ti = .ssh ∨ e.ti = .tls) → EndsIn eps n d → EndsIn eps (n + 1) e

/-- Following references from `e` ends. -/
def Ends (eps : List Ep) (e : Ep) : Prop := ∃ n, EndsIn eps n e

/-- Names of listening endpoints are unique (they are list keys in YANG). -/
def UniqueNames (eps : List Ep) : Prop := (eps.map (·.name)).Nodup

theorem endsIn_unique {eps : List Ep} (hu : UniqueNames eps) : ∀ {n m : Nat} {e : Ep}, EndsIn eps n e → EndsIn eps m e → n = m := by
  intro n
  induction n with
  | zero =>
    intro m e h1 h2
    cases h1 with
    | stop _ hr =>
      cases h2 with
      | stop => rfl
      | step _ d k hr' => rw [hr] at hr'; cases hr'
  | succ n ih =>
    intro m e h1 h2
    cases h1 with
    | step _ d _ hr hd ht hs hE =>
      cases h2 with
      | stop _ hr' => rw [hr] at hr'; cases hr'
      | step _ d' k hr' hd' ht' hs' hE' =>
        rw [hr] at hr'
        have hdd : d = d' := name_unique hu hd hd' (Option.some.inj hr')
        subst hdd
        rw [ih hE hE']

theorem cycle_sound {eps : List Ep} (hall : ∀ (i : Nat) (e : Ep), eps[i]? = some e → ∃ f, checkListen eps f i e = some false) (o : Nat) :
    ∀ (f : Nat) (d : Ep), d ∈ eps → cycle eps o f d = some false → Ends eps d := by
  intro f
  induction f with
  | zero => intro d _ h; simp [cycle] at h
  | succ f ih =>
    intro d hd h
    unfold cycle at h
    cases hr : d.ref with
    | none => exact ⟨0, .stop d hr⟩
    | some r =>
      simp only [hr] at h
      split at h
      · simp at h
      · cases hl : lookup eps r with
        | none => simp [hl] at h
        | some j =>
          obtain ⟨e, he, hem, hen⟩ := lookup_some hl
          simp only [hl, he] at h
          obtain ⟨n, hn⟩ := ih e hem h
          obtain ⟨i, hi⟩ := List.getElem?_of_mem hd
          obtain ⟨f', hf'⟩ := hall i d hi
          rcases checkListen_false hf' with h0 | ⟨r', j', d', hr', hl', he', _, ht', hs', _⟩
          · rw [hr] at h0; cases h0
          · rw [hr] at hr'
            obtain rfl := Option.some.inj hr'
            rw [hl] at hl'
            obtain rfl := Option.some.inj hl'
            rw [he] at he'
            obtain rfl := Option.some.inj he'
            exact ⟨n + 1, .step d e n (by rw [hr, hen]) hem ht' hs' hn⟩

theorem cycle_complete {eps : List Ep} (hu : UniqueNames eps) {e0 : Ep} (h0 : e0 ∈ eps) {N : Nat} (hN : EndsIn eps N e0) :
    ∀ (n : Nat) (d : Ep), EndsIn eps n d → n ≤ N → ∀ f, n < f → cycle eps e0.name f d = some false := by
  intro n
  induction n with
  | zero =>
    intro d hd _ f hf
    obtain ⟨f, rfl⟩ : ∃ g, f = g + 1 := ⟨f - 1, by omega⟩
    cases hd with
    | stop _ hr => simp [cycle, hr]
  | succ n ih =>
    intro d hd hle f hf
    obtain ⟨f, rfl⟩ : ∃ g, f = g + 1 := ⟨f - 1, by omega⟩
    cases hd with
    | step _ d' _ hr hd' ht hs hE =>
      unfold cycle
      simp only [hr]
      rw [if_neg]
      · cases hl : lookup eps d'.name with
        | none => exact absurd rfl (lookup_none hl d' hd')
        | some j =>
          obtain ⟨e, he, hem, hen⟩ := lookup_some hl
          obtain rfl := name_unique hu hem hd' hen
          simp only [he]
          exact ih e hE (by omega) f (by omega)
      · intro hname
        obtain rfl := name_unique hu h0 hd' hname
        have := endsIn_unique hu hN hE
        omega

/-- C56: the check accepts a configuration (for some number of calls, that is, it terminates and returns 0) if and only if from every listening
and Call Home endpoint the references end after finitely many steps, at existing endpoints of the same transport. -/
theorem references_accepted_iff (eps chs : List Ep) (hu : UniqueNames eps) :
    (∃ fuel, check eps chs fuel = some false) ↔ ∀ e ∈ eps ++ chs, Ends eps e := by
  constructor
  · rintro ⟨fuel, h⟩
    rw [check, firstBad_false] at h
    have hL : ∀ (i : Nat) (e : Ep), eps[i]? = some e → checkListen eps fuel i e = some false := by
      intro i e hi
      refine h _ (List.mem_append_left _ ?_)
      rw [List.mem_iff_getElem?]
      exact ⟨i, by simp [List.getElem?_mapIdx, hi]⟩
    have hS := fun o => cycle_sound (fun i e hi => ⟨fuel, hL i e hi⟩) o fuel
    intro e he
    rcases List.mem_append.mp he with he | he
    · obtain ⟨i, hi⟩ := List.getElem?_of_mem he
      rcases checkListen_false (hL i e hi) with h0 | ⟨r, j, d, hr, hl, hd, _, ht, hs, hc⟩
      · exact ⟨0, .stop e h0⟩
      · obtain ⟨d', hd', hdm, hdn⟩ := lookup_some hl
        rw [hd] at hd'
        obtain rfl := Option.some.inj hd'
        obtain ⟨n, hn⟩ := hS _ d hdm hc
        exact ⟨n + 1, .step e d n (by rw [hr, hdn]) hdm ht hs hn⟩
    · rcases checkCh_false (h _ (List.mem_append_right _ (List.mem_map.mpr ⟨e, he, rfl⟩))) with h0 | ⟨r, j, d, hr, hl, hd, ht, hs, hc⟩
      · exact ⟨0, .stop e h0⟩
      · obtain ⟨d', hd', hdm, hdn⟩ := lookup_some hl
        rw [hd] at hd'
        obtain rfl := Option.some.inj hd'
        obtain ⟨n, hn⟩ := hS _ d hdm hc
        exact ⟨n + 1, .step e d n (by rw [hr, hdn]) hdm ht hs hn⟩
  · intro h
    -- a bound on all chain lengths
    have hb : ∀ l : List Ep, (∀ e ∈ l, Ends eps e) → ∃ B, ∀ e ∈ l, ∀ n, EndsIn eps n e → n < B := by
      intro l
      induction l with
      | nil => intro _; exact ⟨0, by simp⟩
      | cons x l ih =>
        intro hl
        obtain ⟨B, hB⟩ := ih (fun e he => hl e (List.mem_cons_of_mem _ he))
        obtain ⟨k, hk⟩ := hl x (by simp)
        refine ⟨max B (k + 1), ?_⟩
        intro e he n hn
        rcases List.mem_cons.mp he with he' | he'
        · subst he'
          rw [endsIn_unique hu hn hk]; omega
        · have := hB e he' n hn; omega
    obtain ⟨B, hB⟩ := hb _ h
    refine ⟨B, ?_⟩
    rw [check, firstBad_false]
    intro x hx
    rcases List.mem_append.mp hx with hx | hx
    · rw [List.mem_iff_getElem?] at hx
      obtain ⟨i, hi⟩ := hx
      rw [List.getElem?_mapIdx] at hi
      cases he : eps[i]? with
      | none => simp [he] at hi
      | some e =>
        simp only [he, Option.map_some, Option.some.injEq] at hi
        rw [← hi]
        have hem : e ∈ eps := List.mem_of_getElem? he
        obtain ⟨n, hn⟩ := h e (List.mem_append_left _ hem)
        unfold checkListen
        cases hn with
        | stop _ hr => simp [hr]
        | step _ d k hr hd ht hs hE =>
          simp only [hr]
          cases hl : lookup eps d.name with
          | none => exact absurd rfl (lookup_none hl d hd)
          | some j =>
            obtain ⟨d', hd', hdm, hdn⟩ := lookup_some hl
            obtain rfl := name_unique hu hdm hd hdn
            simp only [hd']
            rw [if_neg, if_neg, if_neg]
            · refine cycle_complete hu hem (.step e d' k hr hd ht hs hE) k d' hE (by omega) B ?_
              exact hB d' (List.mem_append_left _ hdm) k hE
            · rw [ht]; rcases hs with hs | hs <;> simp [hs]
            · simp [ht]
            · intro hij
              subst hij
              rw [he] at hd'
              obtain rfl := Option.some.inj hd'
              have := endsIn_unique hu hE (.step e e k hr hd ht hs hE)
              omega
    · obtain ⟨e, he, rfl⟩ := List.mem_map.mp hx
      obtain ⟨n, hn⟩ := h e (List.mem_append_right _ he)
      unfold checkCh
      cases hn with
      | stop _ hr => simp [hr]
      | step _ d k hr hd ht hs hE =>
        simp only [hr]
        cases hl : lookup eps d.name with
        | none => exact absurd rfl (lookup_none hl d hd)
        | some j =>
          obtain ⟨d', hd', hdm, hdn⟩ := lookup_some hl
          obtain rfl := name_unique hu hdm hd hdn
          simp only [hd']
          rw [if_neg, if_neg]
          · exact cycle_complete hu hdm hE k d' hE (by omega) B (hB d' (List.mem_append_left _ hdm) k hE)
          · rw [ht]; rcases hs with hs | hs <;> simp [hs]
          · simp [ht]

/-- A chain of two references and a Call Home endpoint using it are accepted; a loop, a missing endpoint and another transport are not. -/
example : check [⟨1, .ssh, some 2⟩, ⟨2, .ssh, some 3⟩, ⟨3, .ssh, none⟩] [⟨9, .ssh, some 1⟩] 5 = some false ∧
    check [⟨1, .ssh, some 2⟩, ⟨2, .ssh, some 1⟩] [] 5 = some true ∧ check [⟨1, .ssh, some 2⟩] [] 5 = some true ∧
    check [⟨1, .ssh, some 2⟩, ⟨2, .tls, none⟩] [] 5 = some true := by decide

/-- The endpoint referenced by `e`, if there is one. -/
def nextEp (eps : List Ep) (e : Ep) : Option Ep := e.ref.bind fun r => eps.find? (fun d => d.name == r)

/-- The endpoint reached after `k` references. -/
def walk (eps : List Ep) : Nat → Ep → Option Ep
  | 0, e => some e
  | k + 1, e => (nextEp eps e).bind (walk eps k)

theorem find_of_lookup {eps : List Ep} {r j : Nat} {d : Ep} (hl : lookup eps r = some j) (hd : eps[j]? = some d) :
    eps.find? (fun d => d.name == r) = some d := by
  unfold lookup at hl
  have := List.find?_eq_bind_findIdx?_getElem? (xs := eps) (p := fun d => d.name == r)
  rw [this, hl]
  simpa using hd

theorem cycle_walk_none {eps : List Ep} (o : Nat) : ∀ (k : Nat) (d : Ep), walk eps k d = none → ∃ f, cycle eps o f d ≠ none := by
  intro k
  induction k with
  | zero => intro d h; simp [walk] at h
  | succ k ih =>
    intro d h
    cases hr : d.ref with
    | none => exact ⟨1, by simp [cycle, hr]⟩
    | some r =>
      by_cases ho : o = r
      · exact ⟨1, by simp [cycle, hr, ho]⟩
      · cases hl : lookup eps r with
        | none => exact ⟨1, by simp [cycle, hr, ho, hl]⟩
        | some j =>
          obtain ⟨e, he, _, _⟩ := lookup_some hl
          have hn : nextEp eps d = some e := by simp [nextEp, hr, find_of_lookup hl he]
          obtain ⟨f, hf⟩ := ih e (by simpa [walk, hn] using h)
          exact ⟨f + 1, by simpa [cycle, hr, ho, hl, he] using hf⟩

theorem cycle_walk_back {eps : List Ep} {e0 : Ep} : ∀ (k : Nat) (d : Ep), walk eps (k + 1) d = some e0 → ∃ f, cycle eps e0.name f d ≠ none := by
  intro k
  induction k with
  | zero =>
    intro d h
    cases hr : d.ref with
    | none => exact ⟨1, by simp [cycle, hr]⟩
    | some r =>
      refine ⟨1, ?_⟩
      have hf : eps.find? (fun d => d.name == r) = some e0 := by
        simpa [walk, nextEp, hr] using h
      have : e0.name = r := by simpa using List.find?_some hf
      simp [cycle, hr, this]
  | succ k ih =>
    intro d h
    cases hr : d.ref with
    | none => exact ⟨1, by simp [cycle, hr]⟩
    | some r =>
      by_cases ho : e0.name = r
      · exact ⟨1, by simp [cycle, hr, ho]⟩
      · cases hl : lookup eps r with
        | none => exact ⟨1, by simp [cycle, hr, ho, hl]⟩
        | some j =>
          obtain ⟨e, he, _, _⟩ := lookup_some hl
          have hn : nextEp eps d = some e := by simp [nextEp, hr, find_of_lookup hl he]
          rw [walk, hn, Option.bind_some] at h
          obtain ⟨f, hf⟩ := ih e h
          exact ⟨f + 1, by simpa [cycle, hr, ho, hl, he] using hf⟩

theorem cycle_common {eps : List Ep} {o : Nat} {d : Ep} {f : Nat} (h : cycle eps o f d ≠ none) : ∃ B, ∀ n, cycle eps o (B + n) d ≠ none := by
  refine ⟨f, fun n => ?_⟩
  cases hc : cycle eps o f d with
  | none => exact absurd hc h
  | some b => rw [cycle_mono eps o f d b hc n]; simp

/-- C27, the part about termination that holds: if following references from each listening endpoint ends (also at a missing endpoint) or comes
back to that endpoint, the check terminates. Missing: endpoints whose references lead into a cycle they are not part of, see
`references_terminate_false`. Full statement: `∀ eps chs, UniqueNames eps → ∃ fuel, check eps chs fuel ≠ none`. -/
theorem references_terminate_partial (eps chs : List Ep) (hu : UniqueNames eps) (hw : ∀ e ∈ eps, ∃ k, walk eps (k + 1) e = none ∨ walk eps (k + 1) e = some e) :
    ∃ fuel, check eps chs fuel ≠ none := by
  have hcyc : ∀ e ∈ eps, ∃ B, ∀ n, cycle eps e.name (B + n) e ≠ none := by
    intro e he
    obtain ⟨k, hk | hk⟩ := hw e he
    · obtain ⟨f, hf⟩ := cycle_walk_none e.name _ e hk
      exact cycle_common hf
    · obtain ⟨f, hf⟩ := cycle_walk_back k e hk
      exact cycle_common hf
  have hL : ∀ e ∈ eps, ∃ B, ∀ n i, checkListen eps (B + n) i e ≠ none := by
    intro e he
    obtain ⟨B, hB⟩ := hcyc e he
    refine ⟨B, fun n i => ?_⟩
    have h1 := hB (n + 1)
    unfold checkListen
    cases hr : e.ref with
    | none => simp
    | some r =>
      cases hl : lookup eps r with
      | none => simp [hl]
      | some j =>
        obtain ⟨d, hd, hdm, hdn⟩ := lookup_some hl
        simp only [hl, hd]
        split
        · simp
        · rename_i hij
          split
          · simp
          · split
            · simp
            · rw [← Nat.add_assoc] at h1
              unfold cycle at h1
              simp only [hr] at h1
              split at h1
              · -- the endpoint refers to itself
                rename_i ho
                obtain ⟨B', hB'⟩ := hcyc d hdm
                obtain rfl := name_unique hu he hdm (by rw [ho, hdn])
                have h2 := hB n
                exact h2
              · simpa [hl, hd] using h1
  have hC : ∀ e, ∃ B, ∀ n, checkCh eps (B + n) e ≠ none := by
    intro e
    cases hr : e.ref with
    | none => exact ⟨0, fun n => by simp [checkCh, hr]⟩
    | some r =>
      cases hl : lookup eps r with
      | none => exact ⟨0, fun n => by simp [checkCh, hr, hl]⟩
      | some j =>
        obtain ⟨d, hd, hdm, hdn⟩ := lookup_some hl
        obtain ⟨B, hB⟩ := hcyc d hdm
        refine ⟨B, fun n => ?_⟩
        have := hB n
        simp only [checkCh, hr, hl, hd]
        split
        · simp
        · split
          · simp
          · exact this
  have hb : ∀ (P : Ep → Nat → Prop) (l : List Ep), (∀ e ∈ l, ∃ B, ∀ n, P e (B + n)) → ∃ B, ∀ e ∈ l, ∀ n, P e (B + n) := by
    intro P l
    induction l with
    | nil => intro _; exact ⟨0, by simp⟩
    | cons x l ih =>
      intro hl
      obtain ⟨B, hB⟩ := ih (fun e he => hl e (List.mem_cons_of_mem _ he))
      obtain ⟨C, hC⟩ := hl x (by simp)
      refine ⟨B + C, fun e he n => ?_⟩
      rcases List.mem_cons.mp he with he' | he'
      · subst he'
        have := hC (B + n)
        rwa [← Nat.add_assoc, Nat.add_comm C B] at this
      · have := hB e he' (C + n)
        rwa [← Nat.add_assoc] at this
  obtain ⟨B1, h1⟩ := hb (fun e f => ∀ i, checkListen eps f i e ≠ none) eps hL
  obtain ⟨B2, h2⟩ := hb (fun e f => checkCh eps f e ≠ none) chs (fun e _ => hC e)
  refine ⟨B1 + B2, firstBad_ne_none _ ?_⟩
  intro x hx
  rcases List.mem_append.mp hx with hx | hx
  · rw [List.mem_iff_getElem?] at hx
    obtain ⟨i, hi⟩ := hx
    rw [List.getElem?_mapIdx] at hi
    cases he : eps[i]? with
    | none => simp [he] at hi
    | some e =>
      simp only [he, Option.map_some, Option.some.injEq] at hi
      rw [← hi]
      exact h1 e (List.mem_of_getElem? he) B2 i
  · obtain ⟨e, he, rfl⟩ := List.mem_map.mp hx
    have := h2 e he B1
    rwa [Nat.add_comm] at this

/-- The hypothesis holds for a cycle of three endpoints, which is refused. -/
example : (∀ e ∈ [(⟨1, .tls, some 2⟩ : Ep), ⟨2, .tls, some 3⟩, ⟨3, .tls, some 1⟩], walk [⟨1, .tls, some 2⟩, ⟨2, .tls, some 3⟩, ⟨3, .tls, some 1⟩] (2 + 1) e = some e) ∧
    check [⟨1, .tls, some 2⟩, ⟨2, .tls, some 3⟩, ⟨3, .tls, some 1⟩] [] 3 = some true := by decide

/-- C27 is false: with three SSH endpoints where the first refers to the second and the second and third refer to each other, the check
recurses for ever, whatever the number of calls. -/
theorem references_terminate_false : ¬ ∀ eps chs : List Ep, UniqueNames eps → ∃ fuel, check eps chs fuel ≠ none := by
  intro h
  obtain ⟨fuel, hf⟩ := h [⟨1, .ssh, some 2⟩, ⟨2, .ssh, some 3⟩, ⟨3, .ssh, some 2⟩] [] (by unfold UniqueNames; decide)
  apply hf
  have key : ∀ f, cycle [⟨1, .ssh, some 2⟩, ⟨2, .ssh, some 3⟩, ⟨3, .ssh, some 2⟩] 1 f ⟨2, .ssh, some 3⟩ = none ∧
      cycle [⟨1, .ssh, some 2⟩, ⟨2, .ssh, some 3⟩, ⟨3, .ssh, some 2⟩] 1 f ⟨3, .ssh, some 2⟩ = none := by
    intro f
    induction f with
    | zero => simp [cycle]
    | succ f ih =>
      constructor
      · rw [cycle]; exact ih.2
      · rw [cycle]; exact ih.1
  have h1 : checkListen [⟨1, .ssh, some 2⟩, ⟨2, .ssh, some 3⟩, ⟨3, .ssh, some 2⟩] fuel 0 ⟨1, .ssh, some 2⟩ = none := (key fuel).1
  unfold check
  rw [List.mapIdx_cons, List.cons_append, h1]
  rfl

end Verif.Props
