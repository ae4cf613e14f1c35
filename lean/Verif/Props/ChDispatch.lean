import Verif.Lemmas.ChDispatch

/-!
# Properties: the threads of Call Home clients
-/

namespace Verif.Props
open Verif.ChDispatch

/-- Callbacks for the examples. -/
private def cbA : Data := ⟨1, 2, 3, 4, 5⟩

/-- Other callbacks for the examples. -/
private def cbB : Data := ⟨6, 7, 8, 9, 10⟩

/-- **C253.** Full statement (false, see `ch_threads_false`): a client is called by one thread at most, and by none when it is not configured. -/
def OneThread : Prop :=
  ∀ (h : List Ev) (w : World), Keyed h.reverse → ChDispatch.run World.init h = some w →
    ∀ c, (threadsOf w c).length ≤ 1 ∧ (configured c h.reverse = false → threadsOf w c = [])

/-- **C253.** Proved if the application dispatches threads only for clients without one: the thread has the callbacks it was dispatched with. -/
theorem ch_threads_partial (h : List Ev) (w : World) (hk : Keyed h.reverse) (ho : Once h.reverse) (hr : ChDispatch.run World.init h = some w) (c : Nat) :
    threadsOf w c = calls c h.reverse ∧ (threadsOf w c).length ≤ 1 ∧ (configured c h.reverse = false → threadsOf w c = []) := by
  rw [← List.reverse_reverse (as := h), run_past] at hr
  have hi := ((past_inv _ hk).2.2 w hr).data c
  have hc := once_calls c _ ho
  rw [hc.1, List.nil_append] at hi
  rw [hi]
  exact ⟨rfl, hc.2, calls_none c _⟩

example : (ChDispatch.run World.init [.create 1 true, .dispatch 1 cbA false, .dispatch 1 cbB true, .dispatch 2 cbA true, .create 3 true]).map
    (fun w => [threadsOf w 1, threadsOf w 2, threadsOf w 3]) = some [[cbB], [], []] := by decide

/-- **C253.** In general: all threads dispatched for a client run while it is configured, and all but the last one run on when it is deleted. -/
theorem ch_threads_all (h : List Ev) (w : World) (hk : Keyed h.reverse) (hr : ChDispatch.run World.init h = some w) (c : Nat) :
    threadsOf w c = orphans c h.reverse ++ calls c h.reverse := by
  rw [← List.reverse_reverse (as := h), run_past] at hr
  exact ((past_inv _ hk).2.2 w hr).data c

example : (ChDispatch.run World.init [.set (some 1) (some 2) 3 (some 4) 5, .create 1 true, .dispatch 1 cbB true, .delete 1, .create 1 true]).map
    (fun w => threadsOf w 1) = some [cbA, cbA] := by decide

/-- **C253.** A client created when callbacks are set, for which the application dispatches another thread, is called by two; one goes on when it is deleted. -/
theorem ch_threads_false : ¬ OneThread ∧ ∃ w, ChDispatch.run World.init [.set (some 1) (some 2) 3 (some 4) 5, .create 1 true, .dispatch 1 cbB true, .delete 1] = some w ∧
    w.clients 1 = none ∧ threadsOf w 1 = [cbA] := by
  refine ⟨fun h => ?_, _, rfl, by decide, by decide⟩
  have := (h [.set (some 1) (some 2) 3 (some 4) 5, .create 1 true, .dispatch 1 cbB true] _ (by simp [Keyed, configured]) rfl 1).1
  exact absurd this (by decide)

/-- **C253.** If callbacks were set before the first client was created and threads can be created: nothing undefined happens, every configured client has a
thread, and if the application dispatches none itself exactly one, with the callbacks that were set when the client was created; whatever is set later. -/
theorem ch_threads_automatic (h : List Ev) (hk : Keyed h.reverse) (ha : Automatic h.reverse) :
    ∃ w, ChDispatch.run World.init h = some w ∧ ∀ c, configured c h.reverse = true → threadsOf w c ≠ [] ∧
      ∃ before after d, h = before ++ .create c true :: after ∧ dataOf before.reverse = some d ∧ .delete c ∉ after ∧
        ((∀ x ok e, .dispatch e x ok ∉ h) → threadsOf w c = [d]) := by
  have hp := past_inv _ hk
  obtain ⟨w, hw⟩ := hp.1 (auto_safe _ ha)
  refine ⟨w, by rw [← List.reverse_reverse (as := h), run_past]; exact hw, fun c hc => ?_⟩
  have hi := (hp.2.2 w hw).data c
  obtain ⟨p2, p1, d, e, h1, h2, h3, h4⟩ := auto_calls c _ ha hc
  refine ⟨by rw [hi]; simp [h3], p1.reverse, p2.reverse, d, ?_, by simpa using h1, by simpa using h2, fun hd => ?_⟩
  · rw [← List.reverse_reverse (as := h), e]
    simp
  · have hor : Once h.reverse := by
      have : ∀ p : List Ev, (∀ x ok e, .dispatch e x ok ∉ p) → Once p := by
        intro p
        induction p with
        | nil => exact fun _ => trivial
        | cons e p ih =>
          intro hx
          have := ih fun x ok e' hm => hx x ok e' (List.mem_cons_of_mem _ hm)
          cases e with
          | dispatch c x ok => exact absurd List.mem_cons_self (hx x ok c)
          | _ => exact this
      exact this _ (by simpa using hd)
    rw [hi, (once_calls c _ hor).1, List.nil_append]
    apply h4
    intro x ok hm
    apply hd x ok c
    have : .dispatch c x ok ∈ h.reverse := by rw [e]; exact List.mem_append_left _ hm
    simpa using this

example : (ChDispatch.run World.init [.set (some 1) (some 2) 3 (some 4) 5, .create 1 true, .set (some 6) none 8 (some 9) 10, .create 2 true,
    .set (some 6) (some 7) 8 (some 9) 10, .create 3 true, .delete 2]).map (fun w => [threadsOf w 1, threadsOf w 2, threadsOf w 3]) =
    some [[cbA], [], [cbB]] := by decide

/-- **C253.** Full statement (false, see `ch_delete_false`): whatever is configured and dispatched, nothing undefined happens. -/
def DeleteDefined : Prop := ∀ h : List Ev, Keyed h.reverse → ChDispatch.run World.init h ≠ none

/-- **C253.** Proved if every client deleted had a thread dispatched; in all other cases NULL is read. -/
theorem ch_delete_partial (h : List Ev) (hk : Keyed h.reverse) : ChDispatch.run World.init h ≠ none ↔ Safe h.reverse := by
  have hp := past_inv _ hk
  rw [← List.reverse_reverse (as := h), run_past, List.reverse_reverse]
  constructor
  · intro hn
    apply Classical.byContradiction
    exact fun hs => hn (hp.2.1 hs)
  · intro hs hn
    obtain ⟨w, hw⟩ := hp.1 hs
    rw [hn] at hw
    cases hw

example : ChDispatch.run World.init [.create 1 true, .dispatch 1 cbA true, .delete 1, .delete 2] ≠ none :=
  (ch_delete_partial _ (by simp [Keyed, configured])).mpr (by simp [Safe, configured, calls])

/-- **C253.** A client is created and deleted without callbacks set; a thread cannot be created for a client, which is deleted then. -/
theorem ch_delete_false : ¬ DeleteDefined ∧ ChDispatch.run World.init [.create 1 true, .delete 1] = none ∧
    ChDispatch.run World.init [.set (some 1) (some 2) 3 (some 4) 5, .create 1 false, .delete 1] = none :=
  ⟨fun h => h [.create 1 true, .delete 1] (by simp [Keyed, configured]) rfl, rfl, rfl⟩

/-- **C253.** `nc_connect_ch_client_dispatch` succeeds exactly if the client is configured and there is a thread, and then there is one thread more for it; otherwise
nothing is changed. Threads of other clients are left alone. -/
theorem ch_dispatch_result (h : List Ev) (w : World) (hk : Keyed h.reverse) (hr : ChDispatch.run World.init h = some w) (c : Nat) (d : Data) (ok : Bool) :
    ((ChDispatch.dispatch w c d ok).2 = true ↔ configured c h.reverse = true ∧ ok = true) ∧
    ((ChDispatch.dispatch w c d ok).2 = true → threadsOf (ChDispatch.dispatch w c d ok).1 c = threadsOf w c ++ [d]) ∧
    ((ChDispatch.dispatch w c d ok).2 = false → (ChDispatch.dispatch w c d ok).1 = w) ∧
    ∀ e, e ≠ c → threadsOf (ChDispatch.dispatch w c d ok).1 e = threadsOf w e := by
  rw [← List.reverse_reverse (as := h), run_past] at hr
  have hc := ((past_inv _ hk).2.2 w hr).conf c
  rw [← hc]
  simp only [ChDispatch.dispatch]
  cases w.clients c with
  | none => simp
  | some y =>
    cases ok with
    | false => simp
    | true =>
      simp only [if_true, Option.isSome_some, true_and, threadsOf, filter_add]
      exact ⟨by simp, by simp, fun e he => by simp [Ne.symm he]⟩

example : ((ChDispatch.run World.init [.create 1 true]).map fun w => ((ChDispatch.dispatch w 1 cbA true).2, (ChDispatch.dispatch w 2 cbA true).2)) = some (true, false) := by decide

end Verif.Props
