import Verif.Lemmas.CertThread

/-!
# Properties: starting and stopping the thread for expiring certificates
-/

namespace Verif.Props
open Verif.CertThread

/-- **C254.** Data given to a start that succeeds are freed once, when the thread has ended, and not before; those of a start that fails are not freed. The data freed
are those of threads that were created and do not run. -/
theorem cert_data_freed (h : List Ev) (s : State) (hr : CertThread.run State.init h = some s) :
    s.freed.Nodup ∧ s.threads.Nodup ∧ ∀ i, (i ∈ s.freed ↔ i < started h.reverse ∧ i ∉ s.threads) ∧ (i ∈ s.threads → i < started h.reverse) := by
  rw [run_of] at hr
  have hi := (past_inv _).2.2 s hr
  have hn := hi.nodup
  rw [List.nodup_append] at hn
  refine ⟨hn.2.1, hn.1, fun i => ?_⟩
  have hm := hi.mem i
  rw [hi.next, List.mem_append] at hm
  refine ⟨⟨fun h => ⟨hm.mp (.inr h), fun ht => hn.2.2 i ht i h rfl⟩, fun h => (hm.mpr h.1).resolve_left h.2⟩, fun h => hm.mp (.inl h)⟩

example : (CertThread.run State.init [.start true true true, .start true true true, .fail 0, .stop true, .start true true true]).map
    (fun s => (s.threads, s.freed)) = some ([1], [0]) := by decide

/-- **C254.** Full statement (false, see `cert_one_thread_false`): there is one thread at most. -/
def OneCertThread : Prop := ∀ (h : List Ev) (s : State), CertThread.run State.init h = some s → s.threads.length ≤ 1

/-- **C254.** Proved if all stops wait; then no thread is left after a stop. -/
theorem cert_one_thread_partial (h : List Ev) (s : State) (hw : Waiting h.reverse) (hr : CertThread.run State.init h = some s) :
    s.threads.length ≤ 1 ∧ ∀ t, CertThread.run State.init (h ++ [.stop true]) = some t → t.threads = [] := by
  constructor
  · rw [run_of] at hr
    rcases waiting_one _ hw s hr with h | ⟨i, _, h⟩ <;> simp [h]
  · intro t ht
    have e : (h ++ [Ev.stop true]).reverse = .stop true :: h.reverse := by simp
    rw [run_of, e] at ht
    have hi := (past_inv _).2.2 t ht
    rcases waiting_one (.stop true :: h.reverse) ⟨rfl, hw⟩ t ht with h | ⟨i, h1, _⟩
    · exact h
    · have := hi.tid
      rw [h1] at this
      simp [pending] at this

example : (CertThread.run State.init [.start true true true, .stop true, .start true false true, .start true true true, .look 1]).map State.threads = some [1] := by decide

/-- **C254.** A stop that does not wait, then a start before the old thread looks at the flag: both run, the next stop ends only the new one for sure. -/
theorem cert_one_thread_false : ¬ OneCertThread ∧
    (CertThread.run State.init [.start true true true, .stop false, .start true true true, .look 0, .look 1]).map State.threads = some [0, 1] ∧
    (CertThread.run State.init [.start true true true, .stop false, .start true true true, .look 0, .look 1, .stop true]).map State.threads = some [0] :=
  ⟨fun h => absurd (h [.start true true true, .stop false, .start true true true] _ rfl) (by decide), by decide, by decide⟩

/-- **C254.** After a stop, a thread that looks at the flag before the next start ends, and its data are freed. -/
theorem cert_stop_ends (h : List Ev) (w : Bool) (s : State) (hr : CertThread.run State.init (h ++ [.stop w]) = some s) (i : Nat) (hi : i ∈ s.threads) :
    ∃ t, CertThread.run State.init (h ++ [.stop w, .look i]) = some t ∧ i ∉ t.threads ∧ i ∈ t.freed := by
  have e1 : (h ++ [Ev.stop w]).reverse = .stop w :: h.reverse := by simp
  have e2 : (h ++ [Ev.stop w, .look i]).reverse = .look i :: .stop w :: h.reverse := by simp
  rw [run_of, e1] at hr
  have hv := (past_inv _).2.2 s hr
  have hf : s.flag = false := by rw [hv.flag]; rfl
  refine ⟨endThread s i, ?_, ?_, ?_⟩
  · rw [run_of, e2]
    simp only [past] at hr ⊢
    rw [hr]
    simp [step, look, hf]
  · simp [endThread, hi]
  · simp [endThread, hi]

example : (CertThread.run State.init [.start true true true, .stop false, .look 0]).map (fun s => (s.threads, s.freed)) = some ([], [0]) := by decide

/-- **C254.** Full statement (false, see `cert_start_false`): a start with a callback succeeds if there is memory, a thread can be created and none runs. -/
def CertStarts : Prop :=
  ∀ (h : List Ev) (s : State), CertThread.run State.init h = some s → ((start s true true true).2 = true ↔ s.threads = [])

/-- **C254.** A start succeeds exactly if there is a callback, memory, a thread can be created, and there was no other start since the last stop but without
callback or memory; then one more thread runs. If all stops wait, no thread ends by itself and all could be created, it succeeds exactly if no thread runs. -/
theorem cert_start_partial (h : List Ev) (s : State) (hr : CertThread.run State.init h = some s) (c m k : Bool) :
    ((start s c m k).2 = true ↔ c = true ∧ m = true ∧ k = true ∧ pending h.reverse = none) ∧
    ((start s c m k).2 = true → (start s c m k).1.threads = s.threads ++ [started h.reverse]) ∧
    ((start s c m k).2 = false → (start s c m k).1.threads = s.threads ∧ (start s c m k).1.freed = s.freed) ∧
    (Waiting h.reverse → NoError h.reverse → ((start s c m k).2 = true ↔ c = true ∧ m = true ∧ k = true ∧ s.threads = [])) := by
  rw [run_of] at hr
  have hi := (past_inv _).2.2 s hr
  have h1 := (inv_start hi c m k).2
  refine ⟨h1, ?_, ?_, ?_⟩
  · rw [← hi.next]
    simp only [start]
    repeat' split
    all_goals simp
  · simp only [start]
    repeat' split
    all_goals simp
  · intro hw hn
    rw [h1]
    have : pending h.reverse = none ↔ s.threads = [] := by
      constructor
      · intro hp
        rcases waiting_one _ hw s hr with h | ⟨i, h2, _⟩
        · exact h
        · have := hi.tid
          rw [h2, hp] at this
          simp at this
      · intro ht
        apply Classical.byContradiction
        intro hp
        obtain ⟨i, _, h3⟩ := noerror_runs _ hn s hr hp
        rw [ht] at h3
        cases h3
    rw [this]

example : ((CertThread.run State.init [.start true true true, .stop true]).map fun s => ((start s true true true).2, (start s false true true).2)) = some (true, false) := by decide

/-- **C254.** After a start that could not create its thread, and after a thread that ended by itself, no start succeeds though no thread runs. -/
theorem cert_start_false : ¬ CertStarts ∧
    (∃ s, CertThread.run State.init [.start true true false] = some s ∧ s.threads = [] ∧ (start s true true true).2 = false) ∧
    (∃ s, CertThread.run State.init [.start true true true, .fail 0] = some s ∧ s.threads = [] ∧ (start s true true true).2 = false) :=
  ⟨fun h => absurd ((h [.start true true false] _ rfl).mpr rfl) (by decide), ⟨_, rfl, rfl, rfl⟩, ⟨_, rfl, rfl, rfl⟩⟩

/-- **C254.** Full statement (false, see `cert_stop_defined_false`): whatever is started and stopped, nothing undefined happens. -/
def CertStopDefined : Prop := ∀ h : List Ev, CertThread.run State.init h ≠ none

/-- **C254.** Proved if no stop follows a start that failed to create its thread; in all other cases a thread is joined or detached that never was. -/
theorem cert_stop_defined_partial (h : List Ev) : CertThread.run State.init h ≠ none ↔ Defined h.reverse := by
  have hp := past_inv h.reverse
  rw [run_of]
  constructor
  · intro hn
    apply Classical.byContradiction
    exact fun hs => hn (hp.2.1 hs)
  · intro hs hn
    obtain ⟨w, hw⟩ := hp.1 hs
    rw [hn] at hw
    cases hw

example : CertThread.run State.init [.stop true, .start true true true, .start true true false, .stop false, .stop true] ≠ none :=
  (cert_stop_defined_partial _).mpr (by simp [Defined, pending])

/-- **C254.** The thread cannot be created, then it is stopped. -/
theorem cert_stop_defined_false : ¬ CertStopDefined ∧ CertThread.run State.init [.start true true false, .stop true] = none :=
  ⟨fun h => h [.start true true false, .stop true] rfl, rfl⟩

end Verif.Props
