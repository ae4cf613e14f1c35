import Verif.Model.Timeout

namespace Verif.Props

open Verif.Timeout

/-! ## C43, C59: deadlines -/

/-- A time in nanoseconds. -/
def ns (t : Ts) : Int := t.sec * 1000000000 + t.nsec

/-- Nanoseconds below one second. -/
def ValidTs (t : Ts) : Prop := 0 ≤ t.nsec ∧ t.nsec < 1000000000

theorem deadline_eq (now : Ts) (ms : Nat) (hv : ValidTs now) : ∃ d, deadline now ms = some d ∧ ValidTs d ∧ ns d = ns now + ms * 1000000 := by
  unfold deadline
  by_cases h0 : ms = 0
  · exact ⟨now, by simp [h0], hv, by simp [h0]⟩
  · obtain ⟨h1, h2⟩ := hv
    rw [if_neg h0, if_neg (fun h => h ⟨h1, h2⟩)]
    have hm : ms = 1000 * (ms / 1000) + ms % 1000 := (Nat.div_add_mod ms 1000).symm
    have hlt : ms % 1000 < 1000 := Nat.mod_lt _ (by omega)
    generalize ms / 1000 = a at hm ⊢
    generalize ms % 1000 = b at hm hlt ⊢
    subst hm
    simp only []
    have hnn : ¬ now.nsec + (b : Int) * 1000000 < 0 := by omega
    by_cases hge : now.nsec + (b : Int) * 1000000 ≥ 1000000000
    · have hok : 0 ≤ now.nsec + (b : Int) * 1000000 - 1000000000 ∧ now.nsec + (b : Int) * 1000000 - 1000000000 < 1000000000 := by omega
      simp only [if_pos hge, if_pos hok]
      refine ⟨_, rfl, hok, ?_⟩
      simp only [ns, Int.natCast_add, Int.natCast_mul]; omega
    · have hok : 0 ≤ now.nsec + (b : Int) * 1000000 ∧ now.nsec + (b : Int) * 1000000 < 1000000000 := by omega
      simp only [if_neg hge, if_neg hnn, if_pos hok]
      refine ⟨_, rfl, hok, ?_⟩
      simp only [ns, Int.natCast_add, Int.natCast_mul]; omega

theorem curDiff_ns (ts cur : Ts) : curDiff ts cur = wrap32 (Int.tdiv (ns ts - ns cur) 1000000) := by
  unfold curDiff ns
  congr 2
  omega

theorem wrap32_id {x : Int} (h1 : -2147483648 ≤ x) (h2 : x < 2147483648) : wrap32 x = x := by
  unfold wrap32; omega

theorem tdiv_bounds (x : Int) : (0 ≤ x → Int.tdiv x 1000000 = x / 1000000) ∧ (x ≤ 0 → Int.tdiv x 1000000 = -((-x) / 1000000)) := by
  constructor
  · intro h; exact Int.tdiv_eq_ediv_of_nonneg h
  · intro h
    have := Int.tdiv_eq_ediv_of_nonneg (a := -x) (b := 1000000) (by omega)
    rw [Int.neg_tdiv] at this
    omega

/-- C59: a deadline is a valid time exactly the given number of milliseconds ahead, and as long as less than 2^31 ms separate a deadline and the current time,
the remaining time is the exact difference rounded to milliseconds towards zero. -/
theorem deadline_exact (now cur : Ts) (ms : Nat) (hn : ValidTs now)
    (hr : (ns now + ms * 1000000 - ns cur) / 1000000 < 2147483648 ∧ (ns cur - (ns now + ms * 1000000)) / 1000000 < 2147483648) :
    ∃ d, deadline now ms = some d ∧ ValidTs d ∧ ns d = ns now + ms * 1000000 ∧
      (ns cur ≤ ns d → 0 ≤ curDiff d cur ∧ curDiff d cur * 1000000 ≤ ns d - ns cur ∧ ns d - ns cur < (curDiff d cur + 1) * 1000000) ∧
      (ns d ≤ ns cur → curDiff d cur ≤ 0 ∧ -(curDiff d cur) * 1000000 ≤ ns cur - ns d ∧ ns cur - ns d < (-(curDiff d cur) + 1) * 1000000) := by
  obtain ⟨d, hd, hv, he⟩ := deadline_eq now ms hn
  refine ⟨d, hd, hv, he, ?_, ?_⟩
  · intro h
    rw [curDiff_ns, (tdiv_bounds _).1 (by omega), wrap32_id (by omega) (by omega)]
    omega
  · intro h
    rw [curDiff_ns, (tdiv_bounds _).2 (by omega), wrap32_id (by omega) (by omega)]
    omega

example : deadline ⟨10, 999000000⟩ 1500 = some ⟨12, 499000000⟩ ∧ curDiff ⟨12, 499000000⟩ ⟨11, 499500000⟩ = 999 ∧ curDiff ⟨12, 499000000⟩ ⟨12, 501000000⟩ = -2 := by decide

/-- C43, the part that holds: the remaining time is positive while a millisecond or more is left and not positive after the deadline, for distances below 2^31 ms.
Missing: the last millisecond before the deadline, see `deadline_passed_false`, and longer timeouts, see `deadline_long_false`.
Full statement: `∀ now cur ms d, ValidTs now → deadline now ms = some d → (curDiff d cur ≤ 0 ↔ ns d ≤ ns cur)`. -/
theorem deadline_passed_partial (d cur : Ts)
    (hr : (ns d - ns cur) / 1000000 < 2147483648 ∧ (ns cur - ns d) / 1000000 < 2147483648) :
    (ns cur + 1000000 ≤ ns d → 0 < curDiff d cur) ∧ (ns d ≤ ns cur → curDiff d cur ≤ 0) := by
  constructor
  · intro h
    rw [curDiff_ns, (tdiv_bounds _).1 (by omega), wrap32_id (by omega) (by omega)]
    omega
  · intro h
    rw [curDiff_ns, (tdiv_bounds _).2 (by omega), wrap32_id (by omega) (by omega)]
    omega

example : 0 < curDiff ⟨5, 2000000⟩ ⟨5, 1000000⟩ ∧ curDiff ⟨5, 0⟩ ⟨5, 0⟩ ≤ 0 := by decide

/-- C43 is false: half a millisecond before the deadline the remaining time is 0 already. -/
theorem deadline_passed_false : ¬ ∀ (now cur : Ts) (ms : Nat) (d : Ts), ValidTs now → ms < 2147483648 → deadline now ms = some d → (curDiff d cur ≤ 0 ↔ ns d ≤ ns cur) := by
  intro h
  have := (h ⟨0, 0⟩ ⟨0, 500000⟩ 1 ⟨0, 1000000⟩ (by unfold ValidTs; decide) (by decide) (by decide)).mp (by decide)
  revert this; decide

/-- C43 is false: every timeout of 2^31 ms up to the largest 32-bit value counts as passed immediately. -/
theorem deadline_long_false (now d : Ts) (ms : Nat) (hv : ValidTs now) (h1 : 2147483648 ≤ ms) (h2 : ms < 4294967296) (hd : deadline now ms = some d) : curDiff d now < 0 := by
  obtain ⟨d', hd', _, he⟩ := deadline_eq now ms hv
  rw [hd] at hd'
  obtain rfl := Option.some.inj hd'
  rw [curDiff_ns, (tdiv_bounds _).1 (by omega)]
  have : (ns d - ns now) / 1000000 = ms := by rw [he]; omega
  rw [this]
  unfold wrap32
  omega

example : deadline ⟨0, 0⟩ 2147483648 = some ⟨2147483, 648000000⟩ ∧ curDiff ⟨2147483, 648000000⟩ ⟨0, 0⟩ = -2147483648 := by decide

/-! ## C44, C60: waiting -/

/-- The system's calls are in time order from `t` on, and a call with a positive timeout returns at most that long after it was made. -/
inductive Timely (start : Ts) : (tm : Int) → (t : Ts) → List (Sys × Ts) → Prop
  | nil (tm : Int) (t : Ts) : Timely start tm t []
  | cons (tm tm' : Int) (t now : Ts) (r : Sys) (l : List (Sys × Ts)) :
    ns t ≤ ns now → (0 ≤ tm → ns now ≤ ns t + tm * 1000000) →
    (tm' = if tm > 0 then tm - (ns now - ns start) / 1000000 else tm) → (tm ≤ 0 ∨ 0 ≤ tm' → Timely start tm' now l) → Timely start tm t ((r, now) :: l)

theorem curDiff_start (start now : Ts) (h : ns start ≤ ns now) (h2 : (ns now - ns start) / 1000000 < 2147483648) : curDiff start now = -((ns now - ns start) / 1000000) := by
  rw [curDiff_ns, (tdiv_bounds _).2 (by omega), wrap32_id (by omega) (by omega)]
  omega

/-- C60: however often waiting is interrupted, `nc_poll` returns less than a millisecond after the requested time at the latest. -/
theorem poll_wait_bound (start : Ts) (tm : Int) (calls : List (Sys × Ts)) (h0 : 0 ≤ tm) (h1 : tm < 2147483647) (ht : Timely start tm start calls) (rc : Int) (fin : Ts)
    (h : ncPoll start tm calls = .ret rc fin) : ns fin < ns start + (tm + 1) * 1000000 := by
  suffices hs : ∀ (calls : List (Sys × Ts)) (tm' : Int) (t : Ts), 0 ≤ tm' → ns start ≤ ns t → ns t + tm' * 1000000 < ns start + (tm + 1) * 1000000 →
      Timely start tm' t calls → pollLoop start tm' calls = .ret rc fin → ns fin < ns start + (tm + 1) * 1000000 from
    hs calls tm start h0 (by omega) (by omega) ht h
  intro calls
  induction calls with
  | nil => intro tm' t _ _ _ _ h; simp [pollLoop] at h
  | cons c calls ih =>
    intro tm' t hpos hst hb ht h
    cases ht with
    | cons _ tm2 _ now r _ hle hto heq hrest =>
      have hnow := hto hpos
      have hlt : ns now < ns start + (tm + 1) * 1000000 := by omega
      unfold pollLoop at h
      have hd : curDiff start now = -((ns now - ns start) / 1000000) := curDiff_start start now (by omega) (by omega)
      have he : (if tm' > 0 then tm' + curDiff start now else tm') = tm2 := by
        rw [heq, hd]; split <;> omega
      simp only [he] at h
      split at h
      · cases h; exact hlt
      · rename_i hneg
        split at h
        · have h2 : tm' ≤ 0 ∨ 0 ≤ tm2 := by omega
          have h3 : 0 ≤ tm2 := by
            by_cases hp : tm' > 0
            · omega
            · rw [heq, if_neg hp]; exact hpos
          refine ih tm2 now h3 (by omega) ?_ (hrest h2) h
          by_cases hp : tm' > 0
          · rw [if_pos hp] at heq
            omega
          · rw [if_neg hp] at heq
            omega
        · cases h; exact hlt

/-- Two signals, then data: the call returns within the time. -/
example : ncPoll ⟨0, 0⟩ 100 [(.eintr, ⟨0, 10500000⟩), (.eintr, ⟨0, 20000000⟩), (.ready 1, ⟨0, 60000000⟩)] = .ret 1 ⟨0, 60000000⟩ ∧
    Timely ⟨0, 0⟩ 100 ⟨0, 0⟩ [(.eintr, ⟨0, 10500000⟩), (.eintr, ⟨0, 20000000⟩), (.ready 1, ⟨0, 60000000⟩)] := by
  refine ⟨by decide, ?_⟩
  refine .cons 100 90 _ _ _ _ (by decide) (by decide) (by decide) (fun _ => ?_)
  refine .cons 90 70 _ _ _ _ (by decide) (by decide) (by decide) (fun _ => ?_)
  exact .cons 70 10 _ _ _ _ (by decide) (by decide) (by decide) (fun _ => .nil _ _)

/-- C44, the part that holds: readiness is reported if no signal came before and it was noticed in time, or if there is no positive timeout (then after any number of signals).
Missing: readiness after a signal with a positive timeout, see `poll_ready_false`. Full statement: readiness at a time before the deadline is reported after any number of signals. -/
theorem poll_ready_partial (start : Ts) (tm : Int) (sigs : List Ts) (n : Nat) (now : Ts) (rest : List (Sys × Ts))
    (h : tm ≤ 0 ∨ (sigs = [] ∧ ns start ≤ ns now ∧ ns now < ns start + (tm + 1) * 1000000 ∧ tm < 2147483647)) :
    ncPoll start tm (sigs.map (fun t => (Sys.eintr, t)) ++ (.ready n, now) :: rest) = .ret n now := by
  rcases h with h | ⟨rfl, h1, h2, h3⟩
  · unfold ncPoll
    induction sigs with
    | nil =>
      simp only [List.map_nil, List.nil_append, pollLoop]
      rw [if_neg (by omega)]
      simp [Sys.rc]
    | cons s sigs ih =>
      simp only [List.map_cons, List.cons_append, pollLoop]
      rw [if_neg (by omega), if_pos trivial, if_neg (by omega)]
      exact ih
  · unfold ncPoll
    simp only [List.map_nil, List.nil_append, pollLoop]
    rw [if_neg]
    · simp [Sys.rc]
    · rintro ⟨hp, hn⟩
      rw [if_pos hp, curDiff_start start now h1 (by omega)] at hn
      omega

example : ncPoll ⟨0, 0⟩ 100 [(.ready 2, ⟨0, 90000000⟩)] = .ret 2 ⟨0, 90000000⟩ ∧ ncPoll ⟨0, 0⟩ (-1) [(.eintr, ⟨7, 0⟩), (.eintr, ⟨8, 0⟩), (.ready 1, ⟨9, 0⟩)] = .ret 1 ⟨9, 0⟩ := by decide

/-- C44 is false: with a timeout of 100 ms, a signal after 60 ms and data after 90 ms, a timeout is reported although data are ready (the elapsed time is subtracted twice). -/
theorem poll_ready_false : ¬ ∀ (start : Ts) (tm : Int) (sig now : Ts) (n : Nat), 0 < n → ns start ≤ ns sig → ns sig ≤ ns now → ns now < ns start + tm * 1000000 →
    ncPoll start tm [(.eintr, sig), (.ready n, now)] = .ret n now := by
  intro h
  have := h ⟨0, 0⟩ 100 ⟨0, 60000000⟩ ⟨0, 90000000⟩ 1 (by decide) (by decide) (by decide) (by decide)
  revert this; decide

/-- The same for all timeouts: readiness in the second half of the waiting time, after a signal in the second half, is always reported as a timeout. -/
theorem poll_ready_late_false (start : Ts) (tm : Int) (sig now : Ts) (n : Nat) (rest : List (Sys × Ts)) (h0 : 0 < tm) (h1 : tm < 2147483647)
    (hs : tm * 1000000 < 2 * (ns sig - ns start) - 4000000) (hn : ns sig ≤ ns now) (hd : ns now < ns start + tm * 1000000) :
    ncPoll start tm ((.eintr, sig) :: (.ready n, now) :: rest) = .ret 0 now := by
  unfold ncPoll
  simp only [pollLoop]
  rw [if_pos h0, curDiff_start start sig (by omega) (by omega)]
  rw [if_neg (by omega), if_pos trivial]
  rw [curDiff_start start now (by omega) (by omega)]
  rw [if_pos]
  have : tm + -((ns sig - ns start) / 1000000) > 0 := by omega
  rw [if_pos this]
  omega

example : ncPoll ⟨0, 0⟩ 100 [(.eintr, ⟨0, 60000000⟩), (.ready 1, ⟨0, 90000000⟩)] = .ret 0 ⟨0, 90000000⟩ := by decide

/-! ## C61: waiting for the message lock -/

/-- C61 is false: the time spent waiting for the lock is added to the timeout instead of subtracted. -/
theorem msgs_lock_timeout_false (timeout : Int) (start got : Ts) (h0 : 0 < timeout) (h : ns start + 1000000 ≤ ns got) (hg : (ns got - ns start) / 1000000 < 2147483648) :
    timeout < msgsLockTimeout timeout start got ∧ msgsLockTimeout timeout start got = timeout + (ns got - ns start) / 1000000 := by
  unfold msgsLockTimeout
  rw [if_pos h0, curDiff_start start got (by omega) hg]
  omega

example : msgsLockTimeout 1000 ⟨3, 0⟩ ⟨3, 900000000⟩ = 1900 := by decide

/-- C61, the part that holds: with the lock free, or without a positive timeout, the timeout is kept. Full statement: `msgsLockTimeout timeout start got = timeout - (ns got - ns start) / 1000000`. -/
theorem msgs_lock_timeout_partial (timeout : Int) (start got : Ts) (h : timeout ≤ 0 ∨ (ns start ≤ ns got ∧ ns got < ns start + 1000000)) :
    msgsLockTimeout timeout start got = timeout := by
  unfold msgsLockTimeout
  split
  · rw [curDiff_start start got (by omega) (by omega)]; omega
  · rfl

example : msgsLockTimeout 1000 ⟨3, 0⟩ ⟨3, 900000⟩ = 1000 := by decide

end Verif.Props
