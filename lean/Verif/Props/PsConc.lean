import Verif.Model.PsConc

namespace Verif.Props

open Verif.PsConc

/-! ## C65: removing sessions while RPCs are processed -/

/-- All sections in a row; `none` as soon as freed memory is accessed. -/
def concRun : List Act → State → Option State
  | [], st => some st
  | a :: as, st => (step st a).bind (concRun as)

/-- A section that does not remove a session whose RPC is being processed. -/
def Careful (st : State) (a : Act) : Prop := ∀ s, a = .del s → ∀ e ∈ st.held, e.sess ≠ s

/-- All the sections are careful in the state in which they run. -/
def AllCareful : List Act → State → Prop
  | [], _ => True
  | a :: as, st => Careful st a ∧ ∀ st', step st a = some st' → AllCareful as st'

theorem mem_del {l : List Elem} {s i : Nat} {z e : Elem} (hi : l.findIdx? (fun e => e.sess == s) = some i) (hz : l.getLast? = some z)
    (he : e ∈ l) (hs : e.sess ≠ s) : e ∈ (l.set i z).dropLast := by
  obtain ⟨h1, h2, -⟩ := List.findIdx?_eq_some_iff_getElem.mp hi
  have hne : l ≠ [] := by rintro rfl; simp at h1
  obtain ⟨k, hk, rfl⟩ := List.mem_iff_getElem.mp he
  have hki : k ≠ i := by rintro rfl; exact hs (by simpa using h2)
  rw [List.getLast?_eq_getElem?] at hz
  by_cases hl : k = l.length - 1
  · -- the last element moved to position i
    have hzk : z = l[k] := by
      rw [← hl, List.getElem?_eq_getElem hk] at hz
      exact (Option.some.inj hz).symm
    rw [List.mem_iff_getElem]
    refine ⟨i, by simp; omega, ?_⟩
    simp [hzk]
  · rw [List.mem_iff_getElem]
    refine ⟨k, by simp; omega, ?_⟩
    rw [List.getElem_dropLast, List.getElem_set_ne (by omega)]

theorem conc_inv (as : List Act) : ∀ st, (∀ e ∈ st.held, e ∈ st.elems) → AllCareful as st → ∃ st', concRun as st = some st' ∧ ∀ e ∈ st'.held, e ∈ st'.elems := by
  induction as with
  | nil => intro st h _; exact ⟨st, rfl, h⟩
  | cons a as ih =>
    intro st h hc
    obtain ⟨c1, c2⟩ := hc
    have hstep : ∃ st1, step st a = some st1 ∧ ∀ e ∈ st1.held, e ∈ st1.elems := by
      cases a with
      | add s => exact ⟨_, rfl, fun e he => List.mem_append.mpr (.inl (h e he))⟩
      | del s =>
        simp only [step]
        split
        · rename_i i l hi hl
          exact ⟨_, rfl, fun e he => mem_del hi hl (h e he) (c1 s rfl e he)⟩
        · exact ⟨_, rfl, h⟩
      | select i =>
        simp only [step]
        split
        · rename_i e he
          split
          · exact ⟨_, rfl, h⟩
          · refine ⟨_, rfl, fun x hx => ?_⟩
            rcases List.mem_append.mp hx with hx | hx
            · exact h x hx
            · simp at hx; subst hx; exact List.mem_of_getElem? he
        · exact ⟨_, rfl, h⟩
      | finish k =>
        simp only [step]
        split
        · rename_i e he
          rw [if_pos (h e (List.mem_of_getElem? he))]
          exact ⟨_, rfl, fun x hx => h x (List.mem_of_mem_eraseIdx hx)⟩
        · exact ⟨_, rfl, h⟩
    obtain ⟨st1, h1, h2⟩ := hstep
    obtain ⟨st2, h3, h4⟩ := ih st1 h2 (c2 st1 h1)
    exact ⟨st2, by simp [concRun, h1, h3], h4⟩

/-- C65, partial: any number of threads can add, poll and remove, as long as nobody removes a session whose RPC is being processed. Missing: such
removals, see `poll_remove_false`. Full statement: `∀ as, (concRun as init).isSome`. -/
theorem poll_remove_partial (as : List Act) (h : AllCareful as init) : (concRun as init).isSome := by
  obtain ⟨st, h1, -⟩ := conc_inv as init (by simp [init]) h
  simp [h1]

/-- Session 1 is removed while the RPC of session 2 is processed (and session 2 moved to its place). -/
example : AllCareful [.add 1, .add 2, .select 1, .del 1, .finish 0] init ∧
    concRun [.add 1, .add 2, .select 1, .del 1, .finish 0] init = some ⟨[⟨1, 2⟩], 2, []⟩ := by
  refine ⟨?_, by decide⟩
  simp [AllCareful, Careful, step, init]

/-- C17: whatever the threads do, no two of them process an RPC of the same session. -/
theorem poll_one_rpc (as : List Act) (st : State) (h : concRun as init = some st) : (st.held.map (·.sess)).Nodup := by
  have key : ∀ (as : List Act) (st st' : State), (st.held.map (·.sess)).Nodup → concRun as st = some st' → (st'.held.map (·.sess)).Nodup := by
    intro as
    induction as with
    | nil => intro st st' h hr; cases hr; exact h
    | cons a as ih =>
      intro st st' h hr
      simp only [concRun] at hr
      cases hs : step st a with
      | none => rw [hs] at hr; cases hr
      | some st1 =>
        rw [hs] at hr
        refine ih st1 st' ?_ hr
        cases a with
        | add s => simp only [step, Option.some.injEq] at hs; subst hs; exact h
        | del s =>
          simp only [step] at hs
          split at hs <;> (cases hs; exact h)
        | select i =>
          simp only [step] at hs
          split at hs
          · rename_i e he
            split at hs
            · cases hs; exact h
            · rename_i hn
              cases hs
              simp only [List.map_append, List.map_cons, List.map_nil]
              rw [List.nodup_append]
              refine ⟨h, by simp, ?_⟩
              rintro x hx y hy rfl
              simp only [List.mem_cons, List.not_mem_nil, or_false] at hy
              obtain ⟨e', he', hx⟩ := List.mem_map.mp hx
              exact hn (List.any_eq_true.mpr ⟨e', he', by simp [hx, hy]⟩)
          · cases hs; exact h
        | finish k =>
          simp only [step] at hs
          split at hs
          · split at hs
            · cases hs
              exact List.Sublist.nodup ((List.eraseIdx_sublist ..).map _) h
            · cases hs
          · cases hs; exact h
  exact key as init st (by simp [init]) h

/-- Two threads select, the second time the session is skipped. -/
example : concRun [.add 1, .add 2, .select 0, .select 0, .select 1] init = some ⟨[⟨0, 1⟩, ⟨1, 2⟩], 2, [⟨0, 1⟩, ⟨1, 2⟩]⟩ := by decide

/-- C65: removing the session while its RPC is processed makes the polling thread write to freed memory. -/
theorem poll_remove_false : concRun [.add 1, .select 0, .del 1, .finish 0] init = none := by decide

end Verif.Props
