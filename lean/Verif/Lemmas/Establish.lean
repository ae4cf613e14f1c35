import Verif.Model.Establish
/-! Lemmas on the waiting loops of Verif.Model.Establish. -/
namespace Verif.Establish

/-- The rounds follow each other, beginning at `t`, each taking at most `step`. -/
def Timely {α : Type} (step : Nat) : Nat → List (Ev α) → Prop
  | _, [] => True
  | t, e :: r => t ≤ e.time ∧ e.time ≤ t + step ∧ Timely step e.time r

theorem wait_within {α : Type} (step d : Nat) : ∀ (ev : List (Ev α)) (s : Nat), s ≤ d → Timely step s ev →
    (∀ t, wait (some d) ev = .timeout t → d < t + 1000000 ∧ s ≤ t ∧ t ≤ d + step) ∧
    (∀ a t, wait (some d) ev = .got a t → s ≤ t ∧ t ≤ d + step) ∧
    (wait (some d) ev = .waiting → ∀ e ∈ ev, e.ans = none ∧ e.time + 1000000 ≤ d)
  | [], s, _, _ => by simp [wait]
  | e :: r, s, hs, h => by
    obtain ⟨h1, h2, h3⟩ := h
    cases ha : e.ans with
    | some a =>
      refine ⟨?_, ?_, ?_⟩
      · intro t h; simp [wait, ha] at h
      · intro b t h
        simp only [wait, ha, Waited.got.injEq] at h
        omega
      · intro h; simp [wait, ha] at h
    | none =>
      by_cases hp : d < e.time + 1000000
      · refine ⟨?_, ?_, ?_⟩
        · intro t h
          simp only [wait, ha, passed, hp, decide_true, if_true, Waited.timeout.injEq] at h
          omega
        · intro b t h; simp [wait, ha, passed, hp] at h
        · intro h; simp [wait, ha, passed, hp] at h
      · have ih := wait_within step d r e.time (by omega) h3
        have hw : wait (some d) (e :: r) = wait (some d) r := by simp [wait, ha, passed, hp]
        rw [hw]
        refine ⟨fun t ht => ?_, fun a t ht => ?_, fun hw e' he' => ?_⟩
        · have := ih.1 t ht; omega
        · have := ih.2.1 a t ht; omega
        · cases he' with
          | head => exact ⟨ha, by omega⟩
          | tail _ hm => exact ih.2.2 hw e' hm

/-- An answer that comes while there is time is taken. -/
theorem wait_answer {α : Type} (dl : Option Nat) (a : α) (t : Nat) (post : List (Ev α)) : ∀ pre : List (Ev α),
    (∀ e ∈ pre, e.ans = none ∧ passed dl e.time = false) → wait dl (pre ++ ⟨some a, t⟩ :: post) = .got a t
  | [], _ => by simp [wait]
  | e :: r, h => by
    have he := h e (by simp)
    have ih := wait_answer dl a t post r (fun x hx => h x (by simp [hx]))
    simp [wait, he.1, he.2, ih]

/-- An answer that was taken had come while there was time. -/
theorem wait_got {α : Type} (dl : Option Nat) (a : α) (t : Nat) : ∀ ev : List (Ev α), wait dl ev = .got a t →
    ∃ pre post, ev = pre ++ ⟨some a, t⟩ :: post ∧ ∀ e ∈ pre, e.ans = none ∧ passed dl e.time = false
  | [], h => by simp [wait] at h
  | e :: r, h => by
    obtain ⟨ans, time⟩ := e
    cases ans with
    | some b =>
      simp only [wait, Waited.got.injEq] at h
      obtain ⟨rfl, rfl⟩ := h
      exact ⟨[], r, rfl, by simp⟩
    | none =>
      by_cases hp : passed dl time = true
      · simp [wait, hp] at h
      · simp only [wait, hp] at h
        obtain ⟨pre, post, he, hall⟩ := wait_got dl a t r h
        refine ⟨⟨none, time⟩ :: pre, post, by simp [he], ?_⟩
        intro e hm
        cases hm with
        | head => simpa using hp
        | tail _ hm => exact hall e hm

/-- Rounds without an answer. -/
def silent (α : Type) (step : Nat) : Nat → Nat → List (Ev α)
  | _, 0 => []
  | s, n + 1 => ⟨none, s + step⟩ :: silent α step (s + step) n

theorem silent_timely (α : Type) (step : Nat) : ∀ n s, Timely step s (silent α step s n)
  | 0, _ => trivial
  | n + 1, s => ⟨by simp, by simp, silent_timely α step n (s + step)⟩

theorem silent_wait (α : Type) (step d : Nat) : ∀ n s, s + n * step + 1000000 ≤ d →
    wait (some d) (silent α step s n) = .waiting
  | 0, _, _ => rfl
  | n + 1, s, h => by
    rw [Nat.succ_mul] at h
    have hp : ¬ d < s + step + 1000000 := by
      have : 0 ≤ n * step := Nat.zero_le _
      omega
    simp only [silent, wait, passed, hp, decide_false]
    exact silent_wait α step d n (s + step) (by omega)

theorem silent_last (α : Type) (step : Nat) : ∀ n s, ∃ e ∈ silent α step s (n + 1), e.time = s + (n + 1) * step
  | 0, s => ⟨⟨none, s + step⟩, by simp [silent], by simp⟩
  | n + 1, s => by
    obtain ⟨e, he, ht⟩ := silent_last α step n (s + step)
    refine ⟨e, ?_, ?_⟩
    · rw [silent]; exact List.mem_cons_of_mem _ he
    · rw [ht, Nat.succ_mul (n + 1)]; omega

end Verif.Establish
