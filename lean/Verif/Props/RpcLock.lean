import Verif.Model.RpcLock

/-!
# Property C17: mutual exclusion of the RPC lock
-/

namespace Verif.Props

open Verif.RpcLock

/-- Spec side: the thread was told that it has the lock and has not asked to unlock yet. -/
def ownsRpc (s : Sys) (t : Nat) : Prop := ∃ free, s.pc t = .owner free

/-- Spec side: the thread works with the session: it has the lock, or it is freeing the session. -/
def worksOnSession (s : Sys) (t : Nat) : Prop := ownsRpc s t ∨ s.pc t = .freesUnlocked

/-! ## Invariant -/

/-- Program counters at which the mutex is held. -/
def holds : PC → Bool
  | .lockTest _ _ | .giveUp _ | .lockSet _ | .lockDone _ | .unlockClear true | .unlockDone true => true
  | _ => false

/-- Program counters between setting and clearing `rpc_inuse`. -/
def crit : PC → Bool
  | .lockDone _ | .owner _ | .unlockWant | .unlockClear _ => true
  | _ => false

/-- Invariant of all executions. -/
structure LockInv (s : Sys) : Prop where
  hold : ∀ t, holds (s.pc t) = true → s.mutex = some t
  uniq : ∀ t u, crit (s.pc t) = true → crit (s.pc u) = true → t = u
  used : ∀ t, crit (s.pc t) = true → s.inuse = true
  sets : ∀ t f, s.pc t = .lockSet f → s.inuse = false

/-- An update of one thread that keeps the flag, neither enters nor leaves the critical part, and handles the mutex correctly. -/
theorem inv_move (s : Sys) (h : LockInv s) (t : Nat) (p : PC) (mx : Option Nat)
    (hcrit : crit p = true → crit (s.pc t) = true) (hset : ∀ f, p = .lockSet f → s.inuse = false)
    (hm : mx = s.mutex ∧ (holds p = true → holds (s.pc t) = true) ∨ s.mutex = none ∧ mx = some t ∨
      mx = none ∧ holds p = false ∧ holds (s.pc t) = true) :
    LockInv { s.set t p with mutex := mx } := by
  obtain ⟨h1, h2, h3, h4⟩ := h
  have hpc : ∀ u, ({ s.set t p with mutex := mx } : Sys).pc u = if u = t then p else s.pc u := fun u => rfl
  constructor
  · intro u hu
    rw [hpc] at hu
    show mx = some u
    split at hu
    · rename_i he; subst he
      rcases hm with ⟨e, e2⟩ | ⟨e, e2⟩ | ⟨e, e2, e3⟩
      · rw [e]; exact h1 u (e2 hu)
      · exact e2
      · rw [e2] at hu; cases hu
    · rename_i he
      have hmu := h1 u hu
      rcases hm with ⟨e, e2⟩ | ⟨e, e2⟩ | ⟨e, e2, e3⟩
      · rw [e]; exact hmu
      · rw [hmu] at e; cases e
      · have := h1 t e3; rw [this] at hmu; injection hmu with hmu; exact absurd hmu.symm he
  · intro u v hu hv
    rw [hpc] at hu hv
    apply h2
    · split at hu
      · rename_i he; subst he; exact hcrit hu
      · exact hu
    · split at hv
      · rename_i he; subst he; exact hcrit hv
      · exact hv
  · intro u hu
    rw [hpc] at hu
    show s.inuse = true
    split at hu
    · exact h3 t (hcrit hu)
    · exact h3 u hu
  · intro u f hu
    rw [hpc] at hu
    show s.inuse = false
    split at hu
    · exact hset f hu
    · exact h4 u f hu

theorem lockInv_step (s : Sys) (e : Ev) (h : LockInv s) : LockInv (step s e) := by
  have hself : ∀ p t, s.set t p = { s.set t p with mutex := s.mutex } := fun _ _ => rfl
  cases e with
  | call t m free =>
    simp only [step]
    split
    · rw [hself]; exact inv_move s h t _ _ (by simp [crit]) (by simp) (Or.inl ⟨rfl, by simp [holds]⟩)
    · exact h
  | get t =>
    simp only [step]
    split
    · rename_i hmx
      split
      · exact inv_move s h t _ _ (by simp [crit]) (by simp) (Or.inr (Or.inl ⟨hmx, rfl⟩))
      · rename_i m free late hpc
        refine inv_move s h t _ _ ?_ ?_ (Or.inr (Or.inl ⟨hmx, rfl⟩))
        · split <;> simp [crit]
        · intro f; split <;> simp
      · rename_i hpc
        exact inv_move s h t _ _ (by simp [crit, hpc]) (by simp) (Or.inr (Or.inl ⟨hmx, rfl⟩))
      · exact h
    · exact h
  | miss t =>
    simp only [step]
    split
    · rw [hself]
      refine inv_move s h t _ _ ?_ ?_ (Or.inl ⟨rfl, ?_⟩)
      · split <;> simp [crit]
      · intro f; split <;> simp
      · split <;> simp [holds]
    · rw [hself]
      refine inv_move s h t _ _ ?_ ?_ (Or.inl ⟨rfl, ?_⟩)
      · split <;> simp [crit]
      · intro f; split <;> simp
      · split <;> simp [holds]
    · rename_i hpc
      rw [hself]
      exact inv_move s h t _ _ (by simp [crit, hpc]) (by simp) (Or.inl ⟨rfl, by simp [holds]⟩)
    · exact h
  | next t =>
    simp only [step]
    split
    · rename_i m free hpc
      split
      · split
        · rw [hself]
          exact inv_move s h t _ _ (by simp [crit]) (by simp) (Or.inl ⟨rfl, by simp [holds, hpc]⟩)
        · exact inv_move s h t _ _ (by simp [crit]) (by simp) (Or.inr (Or.inr ⟨rfl, by simp [holds], by simp [holds, hpc]⟩))
      · rename_i hin
        rw [hself]
        exact inv_move s h t _ _ (by simp [crit]) (fun f _ => by simpa using hin) (Or.inl ⟨rfl, by simp [holds, hpc]⟩)
    · rename_i free hpc
      refine inv_move s h t _ _ ?_ ?_ (Or.inr (Or.inr ⟨rfl, ?_, by simp [holds, hpc]⟩))
      · split <;> simp [crit]
      · intro f; split <;> simp
      · split <;> simp [holds]
    · -- setting the flag
      rename_i free hpc
      obtain ⟨h1, h2, h3, h4⟩ := h
      have hno : ∀ u, crit (s.pc u) = false := by
        intro u
        cases hc : crit (s.pc u) with
        | false => rfl
        | true => have := h3 u hc; rw [h4 t free hpc] at this; cases this
      have hmine : s.mutex = some t := h1 t (by simp [holds, hpc])
      have hpc' : ∀ u, ({ s.set t (.lockDone free) with inuse := true } : Sys).pc u = if u = t then .lockDone free else s.pc u := fun u => rfl
      constructor
      · intro u hu
        rw [hpc'] at hu
        show s.mutex = some u
        split at hu
        · rename_i he; rw [he]; exact hmine
        · exact h1 u hu
      · intro u v hu hv
        rw [hpc'] at hu hv
        split at hu
        · split at hv
          · rename_i a b; rw [a, b]
          · rw [hno] at hv; cases hv
        · rw [hno] at hu; cases hu
      · intro u _; rfl
      · intro u f hu
        rw [hpc'] at hu
        split at hu
        · cases hu
        · rename_i he
          have := h1 u (by simp [holds, hu])
          rw [hmine] at this; injection this with this; exact absurd this.symm he
    · rename_i free hpc
      exact inv_move s h t _ _ (by simp [crit, hpc]) (by simp) (Or.inr (Or.inr ⟨rfl, by simp [holds], by simp [holds, hpc]⟩))
    · -- clearing the flag
      rename_i held hpc
      obtain ⟨h1, h2, h3, h4⟩ := h
      have hpc' : ∀ u, ({ s.set t (.unlockDone held) with inuse := false } : Sys).pc u = if u = t then .unlockDone held else s.pc u := fun u => rfl
      have hct : crit (s.pc t) = true := by simp [crit, hpc]
      constructor
      · intro u hu
        rw [hpc'] at hu
        show s.mutex = some u
        split at hu
        · rename_i he; rw [he]; apply h1; rw [hpc]; cases held <;> simp [holds] at hu ⊢
        · exact h1 u hu
      · intro u v hu hv
        rw [hpc'] at hu hv
        split at hu
        · simp [crit] at hu
        · split at hv
          · simp [crit] at hv
          · exact h2 u v hu hv
      · intro u hu
        rw [hpc'] at hu
        split at hu
        · simp [crit] at hu
        · rename_i he
          exact absurd (h2 u t hu hct) he
      · intro u f _; rfl
    · rename_i held hpc
      cases held with
      | true => exact inv_move s h t _ _ (by simp [crit]) (by simp) (Or.inr (Or.inr ⟨rfl, by simp [holds], by simp [holds, hpc]⟩))
      | false => exact inv_move s h t _ _ (by simp [crit]) (by simp) (Or.inl ⟨rfl, by simp [holds]⟩)
    · exact h
  | wake t =>
    simp only [step]
    split
    · rw [hself]; exact inv_move s h t _ _ (by simp [crit]) (by simp) (Or.inl ⟨rfl, by simp [holds]⟩)
    · exact h
  | late t =>
    simp only [step]
    split
    · rw [hself]; exact inv_move s h t _ _ (by simp [crit]) (by simp) (Or.inl ⟨rfl, by simp [holds]⟩)
    · exact h
  | unlock t =>
    simp only [step]
    split
    · rename_i free hpc
      rw [hself]; exact inv_move s h t _ _ (by simp [crit, hpc]) (by simp) (Or.inl ⟨rfl, by simp [holds]⟩)
    · exact h

theorem lockInv_run (s : Sys) (evs : List Ev) (h : LockInv s) : LockInv (run s evs) := by
  induction evs generalizing s with
  | nil => exact h
  | cons e es ih => exact ih _ (lockInv_step s e h)

theorem lockInv_init : LockInv init := by
  constructor <;> simp [init, holds, crit]

/-- **C17 (part).**  In every interleaving of any number of threads, at most one thread has the RPC lock; while one has it the lock is
marked used, so a lock call tested meanwhile does not succeed, and the two assertions of the code never fail
(the flag is clear when it is about to be set and set when it is about to be cleared).
This includes unlock calls that failed to get the mutex.
Missing: freeing a session, which goes on without the lock after one second, see `rpc_lock_free_false`. -/
theorem rpc_lock_partial (evs : List Ev) :
    let s := run init evs
    (∀ t u, ownsRpc s t → ownsRpc s u → t = u) ∧
    (∀ t, ownsRpc s t → s.inuse = true ∧ ∀ u m f, s.pc u = .lockTest m f → ¬ ∃ f', (step s (.next u)).pc u = .lockSet f') ∧
    (∀ t f, s.pc t = .lockSet f → s.inuse = false) ∧
    (∀ t, s.pc t = .unlockWant → s.inuse = true) := by
  intro s
  have h : LockInv s := lockInv_run init evs lockInv_init
  refine ⟨?_, ?_, h.sets, ?_⟩
  · rintro t u ⟨f, ht⟩ ⟨g, hu⟩
    exact h.uniq t u (by simp [crit, ht]) (by simp [crit, hu])
  · rintro t ⟨f, ht⟩
    have hin := h.used t (by simp [crit, ht])
    refine ⟨hin, ?_⟩
    intro u m f' hu
    simp only [step, hu, hin, ↓reduceIte]
    rintro ⟨g, hg⟩
    split at hg <;> simp [Sys.set] at hg
  · intro t ht
    exact h.used t (by simp [crit, ht])

/-- Not vacuous: thread 1 waits for thread 0 and gets the lock after it unlocked. -/
example : ownsRpc (run init [.call 0 .try_ false, .get 0, .next 0, .next 0, .next 0, .call 1 .timed true, .get 1, .next 1,
    .unlock 0, .get 0, .next 0, .next 0, .wake 1, .get 1, .next 1, .next 1, .next 1]) 1 := ⟨true, by decide +kernel⟩

/-- C17 does not hold for freeing: a session being freed while an RPC is processed is freed after the lock timeout although the
other thread still has the lock. -/
theorem rpc_lock_free_false : ∃ evs t u, t ≠ u ∧ ownsRpc (run init evs) t ∧ worksOnSession (run init evs) u :=
  ⟨[.call 0 .try_ false, .get 0, .next 0, .next 0, .next 0, .call 1 .timed true, .get 1, .next 1, .late 1, .get 1, .next 1], 0, 1,
    by decide, ⟨false, by decide +kernel⟩, Or.inr (by decide +kernel)⟩

end Verif.Props
