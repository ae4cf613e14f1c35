import Verif.Lemmas.ChCtx

/-!
# C252: contexts and sessions of Call Home

A Call Home thread gives back every context it acquired unless the application has taken the session that uses it, and no session is without a context.
-/

namespace Verif.Props

open Verif.ChCtx

/-- A round whose session the application takes and frees after its end. -/
private def chTaken : Round := ⟨true, true, true, true, true, true, true, .ended, true, true⟩

/-- **C252.** At any time of any run of the thread, there are at least as many contexts acquired and not given back as sessions created and not freed by the library:
the library never gives back the context of a session it has not freed, nor one it did not get. -/
theorem ch_context_covers (verbose : Bool) (rounds : List Round) : Covered (thread verbose 0 rounds) := by
  suffices h : ∀ (rs : List Round) n, Covered (thread verbose n rs) from h rounds 0
  intro rs
  induction rs with
  | nil => exact fun _ => covered_nil
  | cons r rs ih =>
    intro n
    have hl : Covered (later verbose n r rs) := by
      simp only [later]
      split
      · exact ih (n + 1)
      · exact covered_nil
    have hc := covered_connect n r
    have hv := covered_vrb verbose n
    have hw := covered_wait n r
    rcases thread_cases verbose n r rs with ⟨_, _, h⟩ | ⟨_, _, _, h⟩ | ⟨_, _, _, h⟩ | ⟨_, h⟩ <;> rw [h]
    · exact covered_append hc hv
    · exact covered_append (covered_append (covered_append hc hv) hw) hv
    · exact covered_append (covered_append (covered_append hc hv) hw) hl
    · exact covered_append hc hl

/-- Three attempts: no context, a transport that fails, a session that is taken. -/
example : thread true 0 [{ chTaken with ctx := false }, { chTaken with transport := false }, { chTaken with next := false }] =
    [.acquired false, .acquired true, .created 1, .freed 1, .released, .acquired true, .created 2, .used 2, .given 2 true, .used 2, .userFreed 2] := by decide

/-- **C252.** Full statement (false, see `ch_context_released_false`): all contexts are given back but those of the sessions the application has taken. -/
def ContextsReleased : Prop :=
  ∀ (verbose : Bool) (rounds : List Round), acquisitions (thread verbose 0 rounds) = releases (thread verbose 0 rounds) + taken (thread verbose 0 rounds)

/-- **C252.** Of the contexts acquired, all are given back but those of the sessions the application has taken, and at most one more; none more if the thread is not
told to stop between the end of an attempt and the call of `new_session_cb`. -/
theorem ch_context_released_partial (verbose : Bool) (rounds : List Round) :
    releases (thread verbose 0 rounds) + taken (thread verbose 0 rounds) ≤ acquisitions (thread verbose 0 rounds) ∧
    acquisitions (thread verbose 0 rounds) ≤ releases (thread verbose 0 rounds) + taken (thread verbose 0 rounds) + 1 ∧
    ((∀ r ∈ rounds, r.running = true) →
      acquisitions (thread verbose 0 rounds) = releases (thread verbose 0 rounds) + taken (thread verbose 0 rounds)) := by
  suffices h : ∀ (rs : List Round) n, releases (thread verbose n rs) + taken (thread verbose n rs) ≤ acquisitions (thread verbose n rs) ∧
      acquisitions (thread verbose n rs) ≤ releases (thread verbose n rs) + taken (thread verbose n rs) + 1 ∧
      ((∀ r ∈ rs, r.running = true) → acquisitions (thread verbose n rs) = releases (thread verbose n rs) + taken (thread verbose n rs)) from h rounds 0
  intro rs
  induction rs with
  | nil => intro n; simp [thread, acquisitions, releases, taken]
  | cons r rs ih =>
    intro n
    have hl : releases (later verbose n r rs) + taken (later verbose n r rs) ≤ acquisitions (later verbose n r rs) ∧
        acquisitions (later verbose n r rs) ≤ releases (later verbose n r rs) + taken (later verbose n r rs) + 1 ∧
        ((∀ r ∈ rs, r.running = true) → acquisitions (later verbose n r rs) = releases (later verbose n r rs) + taken (later verbose n r rs)) := by
      simp only [later]
      split
      · exact ih (n + 1)
      · simp [acquisitions, releases, taken]
    have hv : acquisitions (vrb verbose n) = 0 ∧ releases (vrb verbose n) = 0 ∧ taken (vrb verbose n) = 0 := by
      cases verbose <;> simp [vrb, acquisitions, releases, taken]
    have hw : acquisitions (condWait n r).1 = 0 ∧ releases (condWait n r).1 + taken (condWait n r).1 = 1 := by
      rcases wait_cases n r with ⟨_, h⟩ | ⟨_, _, h⟩ | ⟨_, _, h⟩ <;> rw [h] <;> simp [acquisitions, releases, taken]
    have hc : ((connectEndpt n r).2 = true → acquisitions (connectEndpt n r).1 = 1 ∧ releases (connectEndpt n r).1 = 0 ∧ taken (connectEndpt n r).1 = 0) ∧
        ((connectEndpt n r).2 = false → acquisitions (connectEndpt n r).1 = releases (connectEndpt n r).1 ∧ taken (connectEndpt n r).1 = 0) := by
      rcases connect_cases n r with h | h | h | h | h <;> rw [h] <;> simp [acquisitions, releases, taken]
    have hr : (∀ x ∈ r :: rs, x.running = true) → r.running = true ∧ ∀ x ∈ rs, x.running = true := by
      intro h
      exact ⟨h r List.mem_cons_self, fun x hx => h x (List.mem_cons_of_mem _ hx)⟩
    rcases thread_cases verbose n r rs with ⟨hs, hrun, h⟩ | ⟨hs, hrun, _, h⟩ | ⟨hs, hrun, _, h⟩ | ⟨hs, h⟩ <;> rw [h] <;>
      simp only [counts_append]
    · have := hc.1 hs
      refine ⟨by omega, by omega, fun hh => absurd ((hr hh).1.symm.trans hrun) (by decide)⟩
    · have := hc.1 hs
      exact ⟨by omega, by omega, fun _ => by omega⟩
    · have := hc.1 hs
      exact ⟨by omega, by omega, fun hh => by have := hl.2.2 (hr hh).2; omega⟩
    · have := hc.2 hs
      exact ⟨by omega, by omega, fun hh => by have := hl.2.2 (hr hh).2; omega⟩

example : let t := thread false 0 [{ chTaken with mem := false }, { chTaken with taken := false }, chTaken, { chTaken with hello := false, next := false }]
    acquisitions t = 4 ∧ releases t = 3 ∧ taken t = 1 := by decide

/-- **C252.** A thread told to stop just after a session was established: the context is never given back, the session neither given to the application nor freed. -/
theorem ch_context_released_false : ¬ ContextsReleased ∧ ∃ rounds, let t := thread true 0 rounds
    acquisitions t = 1 ∧ releases t = 0 ∧ taken t = 0 ∧ creations t = 1 ∧ frees t = 0 ∧ ∀ ok, .given 0 ok ∉ t :=
  ⟨fun h => absurd (h false [{ chTaken with running := false }]) (by decide), [{ chTaken with running := false }], by decide⟩

/-- **C252.** Every session created is freed by the library or taken by the application, and not both, if the thread is not told to stop before it calls
`new_session_cb`; the application is offered a session once at most, and only one that was created. A refused session is freed. -/
theorem ch_session_owner (verbose : Bool) (rounds : List Round) (n : Nat) :
    ((∀ r ∈ rounds, r.running = true) → .created n ∈ thread verbose 0 rounds →
      .freed n ∈ thread verbose 0 rounds ∨ .given n true ∈ thread verbose 0 rounds) ∧
    ¬ (.freed n ∈ thread verbose 0 rounds ∧ .given n true ∈ thread verbose 0 rounds) ∧
    (.given n false ∈ thread verbose 0 rounds → .freed n ∈ thread verbose 0 rounds) ∧
    ((thread verbose 0 rounds).countP (fun e => match e with | .given m _ => m == n | _ => false)) ≤ 1 ∧
    (∀ ok, .given n ok ∈ thread verbose 0 rounds → .created n ∈ thread verbose 0 rounds) :=
  thread_owned verbose rounds 0 n

example : let t := thread false 0 [{ chTaken with taken := false }, { chTaken with freed := false, next := false }]
    .freed 0 ∈ t ∧ .given 0 false ∈ t ∧ .given 1 true ∈ t ∧ .freed 1 ∉ t := by decide

/-- **C252.** The application is given only sessions of attempts in which the connection, the context, the transport and the hello messages succeeded,
and it is the answer of its callback that decides on the session. -/
theorem ch_session_given (verbose : Bool) (rounds : List Round) (n : Nat) (ok : Bool) (h : .given n ok ∈ thread verbose 0 rounds) :
    ∃ r, rounds[n]? = some r ∧ r.sock = true ∧ r.ctx = true ∧ r.mem = true ∧ r.transport = true ∧ r.hello = true ∧ r.taken = ok := by
  obtain ⟨r, _, h1, h2, _, h3⟩ := thread_given verbose rounds 0 n ok h
  simp only [established, Bool.and_eq_true] at h2
  exact ⟨r, h1, h2.1.1.1.1, h2.1.1.1.2, h2.1.1.2, h2.1.2, h2.2, h3⟩

example : .given 1 true ∈ thread true 0 [{ chTaken with hello := false }, chTaken] ∧ .given 0 true ∉ thread true 0 [{ chTaken with hello := false }, chTaken] := by
  decide

/-- **C252.** The session of such an attempt, if the thread gets to it and is not told to stop, is given to the application: here after any rounds whose
sessions failed, were refused or ended. -/
theorem ch_session_offered (verbose : Bool) (before : List Round) (r : Round) (after : List Round)
    (hb : ∀ x ∈ before, x.next = true ∧ x.running = true ∧ (x.taken = true → x.wait = .ended))
    (hr : r.sock = true ∧ r.ctx = true ∧ r.mem = true ∧ r.transport = true ∧ r.hello = true ∧ r.running = true) :
    .given before.length r.taken ∈ thread verbose 0 (before ++ r :: after) := by
  suffices h : ∀ (bs : List Round) n, (∀ x ∈ bs, x.next = true ∧ x.running = true ∧ (x.taken = true → x.wait = .ended)) →
      .given (n + bs.length) r.taken ∈ thread verbose n (bs ++ r :: after) by simpa using h before 0 hb
  intro bs
  induction bs with
  | nil =>
    intro n _
    obtain ⟨h1, h2, h3, h4, h5, h6⟩ := hr
    have hw : .given n r.taken ∈ (condWait n r).1 := by
      rcases wait_cases n r with ⟨e1, e⟩ | ⟨e1, _, e⟩ | ⟨e1, _, e⟩ <;> rw [e, e1] <;> simp
    have hs : (connectEndpt n r).2 = true := by simp [connect_established, established, h1, h2, h3, h4, h5]
    rcases thread_cases verbose n r after with ⟨_, e1, _⟩ | ⟨_, _, _, e⟩ | ⟨_, _, _, e⟩ | ⟨e1, _⟩
    · rw [h6] at e1; cases e1
    · simp [e, hw]
    · simp [e, hw]
    · rw [hs] at e1; cases e1
  | cons x bs ih =>
    intro n hb
    obtain ⟨hn, hrun, hwt⟩ := hb x List.mem_cons_self
    have := ih (n + 1) (fun y hy => hb y (List.mem_cons_of_mem _ hy))
    rw [show n + 1 + bs.length = n + (x :: bs).length by simp; omega] at this
    have hl : .given (n + (x :: bs).length) r.taken ∈ later verbose n x (bs ++ r :: after) := by
      simpa [later, hn] using this
    rw [List.cons_append]
    rcases thread_cases verbose n x (bs ++ r :: after) with ⟨_, e1, _⟩ | ⟨_, _, e1, _⟩ | ⟨_, _, _, e⟩ | ⟨_, e⟩
    · rw [hrun] at e1; cases e1
    · rcases wait_cases n x with ⟨_, e⟩ | ⟨e2, _, e⟩ | ⟨e2, _, e⟩ <;> rw [e] at e1
      · cases e1
      · simp [hwt e2] at e1
      · simp [hwt e2] at e1
    · simp only [e, List.mem_append]; exact .inr hl
    · simp only [e, List.mem_append]; exact .inr hl

example : .given 2 false ∈ thread false 0 ([{ chTaken with transport := false }, chTaken] ++ { chTaken with taken := false } :: []) :=
  ch_session_offered _ _ _ _ (by decide) (by decide)

/-- **C252.** Full statement (false, see `ch_session_freed_false`): sessions are not touched after they were freed. -/
def SessionsLeftAlone : Prop := ∀ (verbose : Bool) (rounds : List Round), NoUseAfterFree (thread verbose 0 rounds)

/-- **C252.** Sessions are not touched after they were freed, if nothing is written or the application does not free a session before the
thread that gave it has written its last message, when the client was removed or waiting failed. -/
theorem ch_session_freed_partial (verbose : Bool) (rounds : List Round)
    (h : verbose = false ∨ ∀ r ∈ rounds, r.wait ≠ .ended → r.freed = false) : NoUseAfterFree (thread verbose 0 rounds) := by
  suffices hh : ∀ (rs : List Round) n, (verbose = false ∨ ∀ r ∈ rs, r.wait ≠ .ended → r.freed = false) → NoUseAfterFree (thread verbose n rs) from
    hh rounds 0 h
  intro rs
  induction rs with
  | nil => exact fun _ _ => nouse_nil
  | cons r rs ih =>
    intro n h
    have hl : NoUseAfterFree (later verbose n r rs) := by
      simp only [later]
      split
      · exact ih (n + 1) (h.imp id fun h x hx => h x (List.mem_cons_of_mem _ hx))
      · exact nouse_nil
    have hlt : ∀ e ∈ later verbose n r rs, touches n e = false := by
      intro e he
      simp only [later] at he
      split at he
      · exact thread_touches verbose rs (n + 1) n (by omega) e he
      · cases he
    have only : ∀ m (l : List Ev), (∀ k, n ≠ k → ∀ e ∈ l, touches k e = false) → .freed m ∈ l ∨ .userFreed m ∈ l → m = n := by
      intro m l hl hm
      apply Classical.byContradiction
      intro hne
      rcases hm with hm | hm <;> have := hl m (Ne.symm hne) _ hm <;> simp [touches] at this
    have hc := nouse_connect n r
    have hv := nouse_vrb verbose n
    have hw := nouse_wait n r
    have htc : ∀ k, n ≠ k → ∀ e ∈ (connectEndpt n r).1, touches k e = false := fun k hk => connect_touches r hk
    have htv : ∀ k, n ≠ k → ∀ e ∈ vrb verbose n, touches k e = false := fun k hk => vrb_touches verbose hk
    have htw : ∀ k, n ≠ k → ∀ e ∈ (condWait n r).1, touches k e = false := fun k hk => wait_touches r hk
    have hcf : (connectEndpt n r).2 = true → ∀ m, ¬ (.freed m ∈ (connectEndpt n r).1 ++ vrb verbose n ∨ .userFreed m ∈ (connectEndpt n r).1 ++ vrb verbose n) := by
      intro hs m
      rcases connect_cases n r with e | e | e | e | e <;> rw [e] at hs ⊢ <;> simp at hs <;> cases verbose <;> simp [vrb]
    have hcv : (connectEndpt n r).2 = true → NoUseAfterFree ((connectEndpt n r).1 ++ vrb verbose n) := by
      intro hs
      exact nouse_append hc hv fun m hm => absurd (hm.imp (List.mem_append_left _) (List.mem_append_left _)) (hcf hs m)
    have hcw : (connectEndpt n r).2 = true → NoUseAfterFree ((connectEndpt n r).1 ++ vrb verbose n ++ (condWait n r).1) := by
      intro hs
      exact nouse_append (hcv hs) hw fun m hm => absurd hm (hcf hs m)
    rcases thread_cases verbose n r rs with ⟨hs, _, e⟩ | ⟨hs, _, hx, e⟩ | ⟨hs, _, _, e⟩ | ⟨_, e⟩ <;> rw [e]
    · exact hcv hs
    · refine nouse_append (hcw hs) hv ?_
      intro m hm
      rcases h with h | h
      · subst h; simp [vrb]
      · have hf := h r List.mem_cons_self
        rcases wait_cases n r with ⟨_, e⟩ | ⟨_, _, e⟩ | ⟨_, hfr, e⟩ <;> rw [e] at hx hm
        · cases hx
        · have := hcf hs m
          simp only [List.mem_append, List.mem_cons] at this hm
          simp_all
        · exact absurd (hfr.symm.trans (hf (by simpa using hx))) (by decide)
    · refine nouse_append (hcw hs) hl ?_
      intro m hm
      have : m = n := only m _ (by
        intro k hk x hx'
        rcases List.mem_append.mp hx' with hx' | hx'
        · rcases List.mem_append.mp hx' with hx' | hx'
          · exact htc k hk x hx'
          · exact htv k hk x hx'
        · exact htw k hk x hx') hm
      subst this
      exact hlt
    · refine nouse_append hc hl ?_
      intro m hm
      have : m = n := only m _ htc hm
      subst this
      exact hlt

example : NoUseAfterFree (thread true 0 [chTaken, { chTaken with taken := false }, { chTaken with wait := .removed, freed := false }]) :=
  ch_session_freed_partial _ _ (.inr (by decide))

/-- **C252.** A client is removed while the application keeps its session, then frees it: the message of the thread that ends reads the memory of the session. -/
theorem ch_session_freed_false : ¬ SessionsLeftAlone := by
  intro h
  have := h true [{ chTaken with wait := .removed }] 0 [.acquired true, .created 0, .used 0, .given 0 true, .used 0] [.used 0] (.inr (by decide)) (.used 0) (by simp)
  exact absurd this (by decide)

end Verif.Props
