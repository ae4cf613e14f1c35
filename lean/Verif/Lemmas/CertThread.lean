import Verif.Spec.CertThread

/-! Lemmas about starting and stopping the thread for expiring certificates (src/session_server.c:3884-4049). -/

namespace Verif.CertThread

/-- The model on a history (src/session_server.c:3884-4049), the last event first. -/
def past : List Ev → Option State
  | [] => some State.init
  | e :: p => (past p).bind fun s => step s e

theorem run_append : ∀ (a b : List Ev) (s : State), run s (a ++ b) = (run s a).bind fun t => run t b
  | [], b, s => rfl
  | e :: a, b, s => by
    simp only [List.cons_append, run]
    cases step s e with
    | none => rfl
    | some t => exact run_append a b t

theorem run_past : ∀ p : List Ev, run State.init p.reverse = past p
  | [] => rfl
  | e :: p => by
    rw [List.reverse_cons, run_append, run_past p]
    simp only [past]
    cases past p with
    | none => rfl
    | some s =>
      simp only [Option.bind_some, run]
      cases step s e <;> rfl

theorem run_of (h : List Ev) : run State.init h = past h.reverse := by
  rw [← run_past, List.reverse_reverse]

/-- What holds after any history (src/session_server.c:3962-4049). -/
structure Inv (p : List Ev) (s : State) : Prop where
  flag : s.flag = (pending p).isSome
  tid : s.tid.isSome = (pending p == some true)
  next : s.next = started p
  nodup : (s.threads ++ s.freed).Nodup
  mem : ∀ i, i ∈ s.threads ++ s.freed ↔ i < s.next

theorem inv_end {p : List Ev} {s : State} (h : Inv p s) (i : Nat) : Inv p (endThread s i) := by
  simp only [endThread]
  split
  · next hi =>
    have hn := h.nodup
    rw [List.nodup_append] at hn
    obtain ⟨h1, h2, h3⟩ := hn
    refine ⟨h.flag, h.tid, h.next, ?_, ?_⟩
    · rw [List.nodup_append]
      refine ⟨h1.filter _, ?_, ?_⟩
      · rw [List.nodup_append]
        refine ⟨h2, by simp, ?_⟩
        intro a ha b hb
        simp only [List.mem_singleton] at hb
        subst hb
        exact fun e => h3 b hi a ha e.symm
      · intro a ha b hb
        rw [List.mem_filter] at ha
        rcases List.mem_append.mp hb with hb | hb
        · exact h3 a ha.1 b hb
        · simp only [List.mem_singleton] at hb
          subst hb
          simpa using ha.2
    · intro j
      have := h.mem j
      show _ ↔ j < s.next
      rw [← this]
      simp only [List.mem_append, List.mem_filter, List.mem_singleton, Bool.not_eq_true', beq_eq_false_iff_ne]
      constructor
      · rintro (h | h | rfl)
        · exact .inl h.1
        · exact .inr h
        · exact .inl hi
      · rintro (h | h)
        · by_cases hj : j = i
          · exact .inr (.inr hj)
          · exact .inl ⟨h, hj⟩
        · exact .inr (.inl h)
  · exact h

theorem inv_congr {p q : List Ev} {s : State} (h : Inv p s) (h1 : pending q = pending p) (h2 : started q = started p) : Inv q s :=
  ⟨by rw [h1]; exact h.flag, by rw [h1]; exact h.tid, by rw [h2]; exact h.next, h.nodup, h.mem⟩

theorem inv_start {p : List Ev} {s : State} (h : Inv p s) (c m k : Bool) : Inv (.start c m k :: p) (start s c m k).1 ∧
    ((start s c m k).2 = true ↔ c = true ∧ m = true ∧ k = true ∧ pending p = none) := by
  have hf := h.flag
  cases c with
  | false => exact ⟨inv_congr h (by simp [pending]) (by simp [started]), by simp [start]⟩
  | true =>
    cases m with
    | false => exact ⟨inv_congr h (by simp [pending]) (by simp [started]), by simp [start]⟩
    | true =>
      cases hp : pending p with
      | some b =>
        rw [hp] at hf
        have hf' : s.flag = true := hf
        simp only [start, hf', Bool.true_eq_false, if_false, if_true]
        exact ⟨inv_congr h (by simp [pending, hp]) (by simp [started, hp]), by simp⟩
      | none =>
        rw [hp] at hf
        have hf' : s.flag = false := hf
        have ht := h.tid
        rw [hp] at ht
        cases k with
        | false =>
          simp only [start, hf', Bool.true_eq_false, Bool.false_eq_true, if_false, if_true]
          refine ⟨⟨by simp [pending, hp], ?_, by simp [started, h.next], h.nodup, h.mem⟩, by simp⟩
          simpa [pending, hp] using ht
        | true =>
          simp only [start, hf', Bool.true_eq_false, Bool.false_eq_true, if_false]
          refine ⟨⟨by simp [pending, hp], by simp [pending, hp], by simp [started, hp, h.next], ?_, ?_⟩, by simp⟩
          · have hn := h.nodup
            have hm := h.mem s.next
            rw [List.nodup_append] at hn ⊢
            simp only [List.mem_append, Nat.lt_irrefl, iff_false, not_or] at hm
            refine ⟨?_, hn.2.1, ?_⟩
            · rw [List.nodup_append]
              refine ⟨hn.1, by simp, ?_⟩
              intro a ha b hb
              simp only [List.mem_singleton] at hb
              subst hb
              rintro rfl
              exact hm.1 ha
            · intro a ha b hb
              rcases List.mem_append.mp ha with ha | ha
              · exact hn.2.2 a ha b hb
              · simp only [List.mem_singleton] at ha
                subst ha
                rintro rfl
                exact hm.2 hb
          · intro j
            have := h.mem j
            simp only [List.mem_append, List.mem_singleton] at this ⊢
            show _ ↔ j < s.next + 1
            constructor
            · rintro ((h | rfl) | h)
              · have := this.mp (.inl h); omega
              · omega
              · have := this.mp (.inr h); omega
            · intro hj
              by_cases he : j = s.next
              · exact .inl (.inr he)
              · rcases this.mpr (by omega) with h | h
                · exact .inl (.inl h)
                · exact .inr h

theorem inv_stop {p : List Ev} {s : State} (h : Inv p s) (w : Bool) :
    (stop s w = none ↔ pending p = some false) ∧ ∀ t, stop s w = some t → Inv (.stop w :: p) t := by
  have hf := h.flag
  have ht := h.tid
  cases hp : pending p with
  | none =>
    rw [hp] at hf ht
    have hf' : s.flag = false := hf
    have ht' : s.tid.isSome = false := ht
    simp only [stop, hf', Bool.false_eq_true, if_false]
    refine ⟨by simp, ?_⟩
    rintro t ⟨⟩
    exact ⟨by simp [pending, hf'], by simp [pending, ht'], h.next, h.nodup, h.mem⟩
  | some b =>
    rw [hp] at hf ht
    have hf' : s.flag = true := hf
    cases b with
    | false =>
      have ht' : s.tid = none := by simpa using ht
      simp [stop, hf', ht']
    | true =>
      obtain ⟨i, hi⟩ := Option.isSome_iff_exists.mp (ht : s.tid.isSome = true)
      have h0 : Inv (.stop w :: p) { s with flag := false, tid := none } := ⟨by simp [pending], by simp [pending], h.next, h.nodup, h.mem⟩
      simp only [stop, hf', hi, if_true]
      cases w with
      | false => exact ⟨by simp, by rintro t ⟨⟩; exact h0⟩
      | true => exact ⟨by simp, by rintro t ⟨⟩; exact inv_end h0 i⟩

/-- After any history (src/session_server.c:3884-4049). -/
theorem past_inv : ∀ p : List Ev, (Defined p → ∃ s, past p = some s) ∧ (¬ Defined p → past p = none) ∧ ∀ s, past p = some s → Inv p s
  | [] => ⟨fun _ => ⟨_, rfl⟩, fun h => absurd trivial h, fun s h => by
      cases h
      exact ⟨rfl, rfl, rfl, by simp [State.init], by simp [State.init]⟩⟩
  | e :: p => by
    obtain ⟨h1, h2, h3⟩ := past_inv p
    have total : (∀ s, ∃ t, step s e = some t) → (Defined (e :: p) ↔ Defined p) → (∀ s t, Inv p s → step s e = some t → Inv (e :: p) t) →
        (Defined (e :: p) → ∃ s, past (e :: p) = some s) ∧ (¬ Defined (e :: p) → past (e :: p) = none) ∧ ∀ s, past (e :: p) = some s → Inv (e :: p) s := by
      intro ht hs hi
      refine ⟨fun h => ?_, fun h => ?_, fun s h => ?_⟩
      · obtain ⟨s, hw⟩ := h1 (hs.mp h)
        obtain ⟨t, hw'⟩ := ht s
        exact ⟨t, by simp [past, hw, hw']⟩
      · simp [past, h2 (fun h' => h (hs.mpr h'))]
      · simp only [past, Option.bind_eq_some_iff] at h
        obtain ⟨s0, hs0, hs⟩ := h
        exact hi s0 s (h3 s0 hs0) hs
    cases e with
    | start c m k => exact total (fun s => ⟨_, rfl⟩) Iff.rfl (fun s t hi hs => by cases hs; exact (inv_start hi c m k).1)
    | look i =>
      refine total (fun s => ⟨_, rfl⟩) Iff.rfl (fun s t hi hs => ?_)
      cases hs
      refine inv_congr (p := p) ?_ rfl rfl
      simp only [look]
      split
      · exact hi
      · exact inv_end hi i
    | fail i => exact total (fun s => ⟨_, rfl⟩) Iff.rfl (fun s t hi hs => by cases hs; exact inv_congr (inv_end hi i) rfl rfl)
    | stop w =>
      refine ⟨fun h => ?_, fun h => ?_, fun s h => ?_⟩
      · obtain ⟨s, hs⟩ := h1 h.2
        have hd := (inv_stop (h3 s hs) w).1
        cases hst : stop s w with
        | none => exact absurd (hd.mp hst) h.1
        | some t => exact ⟨t, by simp [past, hs, step, hst]⟩
      · cases hs : past p with
        | none => simp [past, hs]
        | some s =>
          have hsp : Defined p := by
            apply Classical.byContradiction
            intro hn
            rw [h2 hn] at hs
            cases hs
          have : pending p = some false := by
            apply Classical.byContradiction
            exact fun hn => h ⟨hn, hsp⟩
          simp [past, hs, step, (inv_stop (h3 s hs) w).1.mpr this]
      · simp only [past, Option.bind_eq_some_iff] at h
        obtain ⟨s0, hs0, hs⟩ := h
        exact (inv_stop (h3 s0 hs0) w).2 s hs

/-- If all stops wait, only the thread of `tid` may run (src/session_server.c:4007, 4037). -/
theorem waiting_one : ∀ (p : List Ev), Waiting p → ∀ s, past p = some s → s.threads = [] ∨ ∃ i, s.tid = some i ∧ s.threads = [i]
  | [], _, s, h => by cases h; exact .inl rfl
  | e :: p, hw, s, h => by
    have hw' : Waiting p := by cases e <;> first | exact hw | exact hw.2
    simp only [past, Option.bind_eq_some_iff] at h
    obtain ⟨s0, hs0, hs⟩ := h
    have ih := waiting_one p hw' s0 hs0
    have hi := (past_inv p).2.2 s0 hs0
    have hend : ∀ i, ((endThread s0 i).threads = [] ∨ ∃ j, (endThread s0 i).tid = some j ∧ (endThread s0 i).threads = [j]) := by
      intro i
      simp only [endThread]
      split
      · next hm =>
        rcases ih with h0 | ⟨j, h1, h2⟩
        · rw [h0] at hm; cases hm
        · rw [h2] at hm
          simp only [List.mem_singleton] at hm
          exact .inl (by simp [h2, hm])
      · exact ih
    cases e with
    | start c m k =>
      cases hs
      simp only [start]
      repeat' split
      all_goals first | exact ih | skip
      next hfl _ =>
      right
      have hno : s0.threads = [] := by
        rcases ih with h0 | ⟨j, h1, _⟩
        · exact h0
        · have e1 := hi.tid
          have e2 := hi.flag
          rw [h1] at e1
          have e3 : pending p = some true := by simpa using e1.symm
          rw [e3] at e2
          exact absurd e2 hfl
      exact ⟨s0.next, rfl, by simp [hno]⟩
    | look i =>
      cases hs
      simp only [look]
      split
      · exact ih
      · exact hend i
    | fail i => cases hs; exact hend i
    | stop w =>
      obtain ⟨rfl, _⟩ := hw
      simp only [step, stop, if_true] at hs
      split at hs
      · split at hs
        · cases hs
        · next i hti =>
          cases hs
          left
          rcases ih with h0 | ⟨j, h1, h2⟩
          · simp [endThread, h0]
          · rw [hti] at h1
            cases h1
            simp [endThread, h2]
      · cases hs; exact ih

/-- Without errors, a thread runs from its start to the next stop (src/session_server.c:3908-3933). -/
theorem noerror_runs : ∀ (p : List Ev), NoError p → ∀ s, past p = some s → pending p ≠ none → ∃ i, s.tid = some i ∧ i ∈ s.threads
  | [], _, s, _, hp => absurd rfl hp
  | e :: p, hn, s, h, hp => by
    simp only [past, Option.bind_eq_some_iff] at h
    obtain ⟨s0, hs0, hs⟩ := h
    have hi := (past_inv p).2.2 s0 hs0
    cases e with
    | fail i => exact absurd hn id
    | stop w => exact absurd rfl hp
    | look i =>
      cases hs
      have hf : s0.flag = true := by
        rw [hi.flag]
        exact Option.isSome_iff_ne_none.mpr hp
      simpa [look, hf] using noerror_runs p hn s0 hs0 hp
    | start c m k =>
      cases hs
      obtain ⟨rfl, hn'⟩ := hn
      by_cases hpp : pending p = none
      · have hf : s0.flag = false := by rw [hi.flag, hpp]; rfl
        cases c <;> cases m <;> simp [pending, hpp] at hp
        simp [start, hf]
      · obtain ⟨i, h1, h2⟩ := noerror_runs p hn' s0 hs0 hpp
        have hf : s0.flag = true := by
          rw [hi.flag]
          exact Option.isSome_iff_ne_none.mpr hpp
        refine ⟨i, ?_⟩
        cases c <;> cases m <;> simp [start, hf, h1, h2]

end Verif.CertThread
