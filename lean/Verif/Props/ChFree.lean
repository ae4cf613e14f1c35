import Verif.Lemmas.ChFree

/-!
# Properties: freeing a session of Call Home
-/

namespace Verif.Props
open Verif.ChFree

/-- **C255.** Full statement (false, see `ch_free_false`): the Call Home thread does not use a freed session. -/
def FreeWaits : Prop := ∀ (as : List Act) (s : St), exec given as = some s → s.ub = false ∧ (s.u = .freed → ∃ rc, s.t = .out rc)

/-- **C255.** Proved for all interleavings in which the wait of `nc_session_free` does not end because its time is up: the session is freed only when the Call Home thread is
done with it. -/
theorem ch_free_partial (as : List Act) (s : St) (h : exec given as = some s) (hl : Act.uWake true ∉ as) :
    s.ub = false ∧ (s.u = .freed → ∃ rc, s.t = .out rc) := by
  have hi := freeInv_exec as _ _ freeInv_given hl h
  exact ⟨hi.ub, fun hu => hi.flag.mp (hi.freed hu)⟩

example : (exec given [.tWake false, .tLock, .uFree, .tCheck false true false, .tSleep, .uLock, .tLock, .tCheck false true false, .uBack]).map
    (fun s => (s.u, s.t, s.ub)) = some (.freed, .out false, false) := by decide

/-- **C255.** The Call Home thread is not run for a second after it was woken up: the session is freed, then the thread takes its mutex. -/
theorem ch_free_false : ¬ FreeWaits ∧ ∃ s, exec given [.uFree, .uLock, .uWake true, .uBack, .tLock] = some s ∧ s.ub = true :=
  ⟨fun h => absurd (h [.uFree, .uLock, .uWake true, .uBack, .tLock] _ rfl).1 (by decide), _, rfl, by decide⟩

/-- **C255.** While `nc_session_free` waits, the Call Home thread does not sleep: the signal is never lost. Two steps of it, whatever it finds, and one of `nc_session_free` free the
session, or one of the latter if the former is done. -/
theorem ch_free_ends (as : List Act) (s : St) (h : exec given as = some s) (hl : Act.uWake true ∉ as) (hu : s.u = .asleep) (failed present idle : Bool) :
    s.t ≠ .asleep ∧ s.t ≠ .again ∧ s.status ≠ .running ∧
    ∃ bs t, (bs = [.uWake false, .uBack] ∨ bs = [.tLock, .tCheck failed present idle, .uBack] ∨ bs = [.tCheck failed present idle, .uBack]) ∧
      exec s bs = some t ∧ t.u = .freed ∧ t.ub = false := by
  have hi := freeInv_exec as _ _ freeInv_given hl h
  have hst := hi.closing (.inl hu)
  have hta := hi.woken (.inl hu)
  refine ⟨hta.1, hta.2, hst, ?_⟩
  have hub := hi.ub
  have hflag := hi.flag
  obtain ⟨status, flag, t, u, ub⟩ := s
  simp only at hu hst hta hub hflag
  subst hu hub
  cases t with
  | asleep => exact absurd rfl hta.1
  | again => exact absurd rfl hta.2
  | out rc =>
    have hf : flag = false := hflag.mpr ⟨rc, rfl⟩
    subst hf
    exact ⟨[.uWake false, .uBack], _, .inl rfl, rfl, rfl, rfl⟩
  | awake sig =>
    refine ⟨[.tLock, .tCheck failed present idle, .uBack], ?_⟩
    cases failed <;> cases present <;> cases idle <;> cases sig <;> cases status <;> simp [exec, step, leave, held] at hst ⊢
  | inside sig =>
    refine ⟨[.tCheck failed present idle, .uBack], ?_⟩
    cases failed <;> cases present <;> cases idle <;> cases sig <;> cases status <;> simp [exec, step, leave, held] at hst ⊢

example : (exec given [.uFree, .uLock]).map (fun s => (s.u, s.t, s.status)) = some (.asleep, .awake true, .closing) := by decide

/-- **C255.** The Call Home thread goes on to the next connection only after the session is not running any more. -/
theorem ch_wait_ends (as : List Act) (s : St) (h : exec given as = some s) (hl : Act.uWake true ∉ as) (ht : s.t = .out false) : s.status ≠ .running :=
  (freeInv_exec as _ _ freeInv_given hl h).outs ht

example : (exec given [.tWake false, .tLock, .tCheck false true false, .tSleep, .invalid, .tWake true, .tLock, .tCheck false true false]).map (fun s => (s.t, s.status)) =
    some (.out false, .invalid) := by decide

/-- **C255.** The thread gives up a session only if its client was removed or a wait failed; a session becomes invalid only by itself or because its idle timeout is over, and is
closed only by `nc_session_free`. -/
theorem ch_wait_result (as : List Act) (s : St) (h : exec given as = some s) :
    (s.t = .out true → ∃ f p i, .tCheck f p i ∈ as ∧ (f = true ∨ p = false)) ∧
    (s.status = .invalid → .invalid ∈ as ∨ ∃ f, .tCheck f true true ∈ as) ∧
    (s.status = .closing → .uLock ∈ as) := by
  obtain ⟨h1, h2, h3⟩ := exec_why as _ _ h
  exact ⟨fun e => (h1 e).resolve_left (by simp [given]), fun e => (h2 e).resolve_left (by simp [given]), fun e => (h3 e).resolve_left (by simp [given])⟩

example : (exec given [.tWake false, .tLock, .tCheck false false true]).map (fun s => (s.t, s.status)) = some (.out true, .running) := by decide

/-- **C255.** The thread leaves at its next wake-up, with or without a signal, if the session is not running any more, its client is removed, its idle timeout is over or the wait
failed; otherwise it sleeps again. -/
theorem ch_wait_leaves (as : List Act) (s : St) (h : exec given as = some s) (hl : Act.uWake true ∉ as) (ht : s.t = .asleep) (sig failed present idle : Bool) :
    ∃ t, exec s [.tWake sig, .tLock, .tCheck failed present idle] = some t ∧ t.ub = false ∧
      ((∃ rc, t.t = .out rc) ∨ (step t .tSleep).map (·.t) = some .asleep) ∧
      ((∃ rc, t.t = .out rc) ↔ s.status ≠ .running ∨ present = false ∨ idle = true ∨ (failed = true ∧ sig = false)) := by
  have hi := freeInv_exec as _ _ freeInv_given hl h
  have hub := hi.ub
  have hnf : s.u ≠ .freed := fun hx => by
    obtain ⟨rc, hrc⟩ := hi.flag.mp (hi.freed hx)
    rw [ht] at hrc; cases hrc
  obtain ⟨status, flag, t, u, ub⟩ := s
  simp only at ht hub hnf
  subst ht hub
  cases failed <;> cases present <;> cases idle <;> cases sig <;> cases status <;> simp [exec, step, leave, hnf]

example : (exec given [.invalid, .tWake false, .tLock, .tCheck false true false]).map (·.t) = some (.out false) := by decide

/-- **C255.** `nc_session_free` can be called for any session that was given, and takes the mutex once the thread does not have it: it then waits for the thread, or frees the session
if the thread is done. -/
theorem ch_free_starts (as : List Act) (s : St) (h : exec given as = some s) (hl : Act.uWake true ∉ as) (hu : s.u = .idle) (hm : held s.t = false) :
    ∃ t, exec s [.uFree, .uLock] = some t ∧ t.status = .closing ∧
      ((∃ rc, s.t = .out rc) → t.u = .freed) ∧ ((¬ ∃ rc, s.t = .out rc) → t.u = .asleep) := by
  have hi := freeInv_exec as _ _ freeInv_given hl h
  have hst := hi.before (.inl hu)
  have hflag := hi.flag
  obtain ⟨status, flag, t, u, ub⟩ := s
  simp only at hu hst hflag hm
  subst hu
  cases t <;> cases flag <;> simp_all [exec, step, held]

example : (exec given [.invalid, .tWake true, .tLock, .tCheck false true false, .uFree, .uLock]).map (·.u) = some .freed := by decide

end Verif.Props
