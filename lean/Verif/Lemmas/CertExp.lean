import Verif.Model.CertExp

/-!
# Lemmas about certificate expiration: calendars, wake-up times
-/

namespace Verif.CertExp

/-- What is assumed of `localtime_r` and `mktime`: converting a time there and back gives the same time, and a later month, day or hour gives a later time. -/
structure Cal.Lawful (cal : Cal) : Prop where
  join_split : ∀ t, cal.join (cal.split t) = t
  mono : ∀ (tm : Tm) (mo d h : Int), 0 ≤ mo → 0 ≤ d → 0 ≤ h → 0 < mo + d + h →
    cal.join tm < cal.join { tm with mon := tm.mon + mo, mday := tm.mday + d, hour := tm.hour + h }

/-- A time span of at least one hour. -/
def Span.Pos (s : Span) : Prop := 0 ≤ s.months ∧ 0 ≤ s.weeks ∧ 0 ≤ s.days ∧ 0 ≤ s.hours ∧ 0 < s.months + s.weeks + s.days + s.hours

theorem lt_timeAdd {cal : Cal} (hc : cal.Lawful) {s : Span} (hs : s.Pos) (t : Int) : t < timeAdd cal t s := by
  obtain ⟨h1, h2, h3, h4, h5⟩ := hs
  have := hc.mono (cal.split t) s.months (7 * s.weeks + s.days) s.hours h1 (by omega) h4 (by omega)
  rw [hc.join_split] at this
  unfold timeAdd
  simp only [← Int.add_assoc] at this
  exact this

theorem timeSub_lt {cal : Cal} (hc : cal.Lawful) {s : Span} (hs : s.Pos) (t : Int) : timeSub cal t s < t := by
  obtain ⟨h1, h2, h3, h4, h5⟩ := hs
  have := hc.mono { cal.split t with mon := (cal.split t).mon - s.months, mday := (cal.split t).mday - 7 * s.weeks - s.days, hour := (cal.split t).hour - s.hours }
    s.months (7 * s.weeks + s.days) s.hours h1 (by omega) h4 (by omega)
  have e : ({ cal.split t with mon := (cal.split t).mon - s.months + s.months, mday := (cal.split t).mday - 7 * s.weeks - s.days + (7 * s.weeks + s.days), hour := (cal.split t).hour - s.hours + s.hours } : Tm) = cal.split t := by
    have a1 : (cal.split t).mon - s.months + s.months = (cal.split t).mon := by omega
    have a2 : (cal.split t).mday - 7 * s.weeks - s.days + (7 * s.weeks + s.days) = (cal.split t).mday := by omega
    have a3 : (cal.split t).hour - s.hours + s.hours = (cal.split t).hour := by omega
    rw [a1, a2, a3]
  rw [e, hc.join_split] at this
  exact this

/-! ## The calendar of UTC -/

/-- Day number of the first day of a month; month 0 is January of the year 0. -/
def monthStart (k : Int) : Int :=
  let y := k / 12
  let m := k % 12
  let leap : Int := if y % 4 = 0 ∧ (y % 100 ≠ 0 ∨ y % 400 = 0) then 1 else 0
  -- leap days of the years before `y`
  365 * y + ((y + 3) / 4 - (y + 99) / 100 + (y + 399) / 400) +
    (if m = 0 then 0 else if m = 1 then 31 else if m = 2 then 59 + leap else if m = 3 then 90 + leap else if m = 4 then 120 + leap else if m = 5 then 151 + leap
      else if m = 6 then 181 + leap else if m = 7 then 212 + leap else if m = 8 then 243 + leap else if m = 9 then 273 + leap else if m = 10 then 304 + leap else 334 + leap)

theorem monthStart_lt (k : Int) : monthStart k + 28 ≤ monthStart (k + 1) := by
  unfold monthStart
  by_cases h : k % 12 = 11
  · have h1 : (k + 1) / 12 = k / 12 + 1 := by omega
    have h2 : (k + 1) % 12 = 0 := by omega
    rw [h1, h2, h]
    generalize k / 12 = y
    simp
    split <;> omega
  · have h1 : (k + 1) / 12 = k / 12 := by omega
    have h2 : (k + 1) % 12 = k % 12 + 1 := by omega
    rw [h1, h2]
    generalize k / 12 = y
    have h3 : 0 ≤ k % 12 := by omega
    have h4 : k % 12 < 12 := by omega
    generalize k % 12 = m at *
    generalize (365 * y + ((y + 3) / 4 - (y + 99) / 100 + (y + 399) / 400)) = b
    have hl : (if y % 4 = 0 ∧ (y % 100 ≠ 0 ∨ y % 400 = 0) then (1 : Int) else 0) = 0 ∨ (if y % 4 = 0 ∧ (y % 100 ≠ 0 ∨ y % 400 = 0) then (1 : Int) else 0) = 1 := by
      split
      · right; rfl
      · left; rfl
    generalize (if y % 4 = 0 ∧ (y % 100 ≠ 0 ∨ y % 400 = 0) then (1 : Int) else 0) = leap at *
    have hm : m = 0 ∨ m = 1 ∨ m = 2 ∨ m = 3 ∨ m = 4 ∨ m = 5 ∨ m = 6 ∨ m = 7 ∨ m = 8 ∨ m = 9 ∨ m = 10 := by omega
    rcases hm with rfl | rfl | rfl | rfl | rfl | rfl | rfl | rfl | rfl | rfl | rfl <;> simp <;> omega

theorem monthStart_mono (k : Int) (n : Nat) : monthStart k + n ≤ monthStart (k + n) := by
  induction n with
  | zero => simp
  | succ n ih =>
    have := monthStart_lt (k + n)
    have e : k + ((n + 1 : Nat) : Int) = k + (n : Int) + 1 := by omega
    rw [e]
    omega

/-- The month of a day: search from month `k`, at most `fuel` months. -/
def monthOf (day : Int) : Nat → Int → Int
  | 0, k => k
  | fuel + 1, k => if monthStart (k + 1) ≤ day then monthOf day fuel (k + 1) else k

/-- Days between the first day of the year 0 and 1 January 1970. -/
def epoch : Int := monthStart (1970 * 12)

/-- Local time in UTC, for times from 1970 to 2136. -/
def utc : Cal where
  split t :=
    let day := t / 86400 + epoch
    let k := monthOf day 2000 (1970 * 12)
    ⟨k / 12, k % 12, day - monthStart k + 1, t % 86400 / 3600, t % 3600 / 60, t % 60, 0⟩
  join tm := (monthStart (tm.year * 12 + tm.mon) + tm.mday - 1 - epoch) * 86400 + tm.hour * 3600 + tm.min * 60 + tm.sec

theorem utc_lawful : utc.Lawful where
  join_split t := by
    simp only [utc]
    have h : ∀ k : Int, k / 12 * 12 + k % 12 = k := by intro k; omega
    rw [h]
    omega
  mono tm mo d h h1 h2 h3 h4 := by
    simp only [utc]
    obtain ⟨n, rfl⟩ := Int.eq_ofNat_of_zero_le h1
    have := monthStart_mono (tm.year * 12 + tm.mon) n
    have e : tm.year * 12 + (tm.mon + (n : Int)) = tm.year * 12 + tm.mon + n := by omega
    rw [e]
    omega

/-- 30 November 2026 noon and one month later. -/
example : utc.join ⟨2026, 10, 30, 12, 0, 0, 0⟩ = 1796040000 ∧ timeAdd utc 1796040000 { months := 1 } = 1798632000 := by decide +kernel

theorem utc_default (t : Int) : (defaultIntervals.map fun iv => timeSub utc t iv.anchor).Pairwise (· < ·) := by
  simp only [defaultIntervals, List.map_cons, List.map_nil, timeSub, utc]
  generalize monthOf (t / 86400 + epoch) 2000 (1970 * 12) = k
  have h1 := monthStart_lt (k - 3)
  have h2 := monthStart_lt (k - 2)
  have h3 := monthStart_lt (k - 1)
  have e1 : k - 3 + 1 = k - 2 := by omega
  have e2 : k - 2 + 1 = k - 1 := by omega
  have e3 : k - 1 + 1 = k := by omega
  rw [e1] at h1
  rw [e2] at h2
  rw [e3] at h3
  have a1 : k / 12 * 12 + (k % 12 - 3) = k - 3 := by omega
  have a2 : k / 12 * 12 + (k % 12 - 0) = k := by omega
  rw [a1, a2]
  simp
  omega

/-! ## Sequences of notification times -/

theorem initStarts_ok {cal : Cal} {expiration : Int} : ∀ {ivs : List Interval}, (∀ iv ∈ ivs, 0 ≤ timeSub cal expiration iv.anchor) →
    initStarts cal expiration ivs = .ok (ivs.map fun iv => timeSub cal expiration iv.anchor)
  | [], _ => rfl
  | iv :: ivs, h => by
    have h1 := h iv List.mem_cons_self
    simp only [initStarts, initStarts_ok (fun v hv => h v (List.mem_cons_of_mem _ hv)), List.map_cons]
    rw [if_neg (by omega)]

theorem get_lt {l : List Int} (h : l.Pairwise (· < ·)) {i j : Nat} {a b : Int} (hij : i < j) (ha : l[i]? = some a) (hb : l[j]? = some b) : a < b := by
  obtain ⟨h1, h2⟩ := List.getElem?_eq_some_iff.mp ha
  obtain ⟨h3, h4⟩ := List.getElem?_eq_some_iff.mp hb
  rw [← h2, ← h4]
  exact List.pairwise_iff_getElem.mp h i j h1 h3 hij

/-- The time lies in interval `i`. -/
structure InInterval (starts : List Int) (i : Nat) (t : Int) : Prop where
  lt : i < starts.length
  after : ∀ s, starts[i]? = some s → s ≤ t
  before : ∀ s, starts[i + 1]? = some s → t < s

theorem InInterval.skip {starts : List Int} {i : Nat} {t : Int} (h : InInterval starts i t) (hp : starts.Pairwise (· < ·)) {s : Int} (hs : s ∈ starts) (hts : t < s) :
    ∃ s1, starts[i + 1]? = some s1 ∧ s1 ≤ s := by
  obtain ⟨j, hj⟩ := List.mem_iff_getElem?.mp hs
  obtain ⟨hjl, _⟩ := List.getElem?_eq_some_iff.mp hj
  have hil := h.lt
  have hi := List.getElem?_eq_getElem hil
  have hij : i < j := by
    apply Classical.byContradiction
    intro hc
    have hle : s ≤ starts[i] := by
      by_cases e : j = i
      · subst e; have := Option.some.inj (hi.symm.trans hj); omega
      · exact Int.le_of_lt (get_lt hp (by omega) hj hi)
    have := h.after _ hi
    omega
  have h1 := List.getElem?_eq_getElem (l := starts) (i := i + 1) (by omega)
  refine ⟨_, h1, ?_⟩
  by_cases e : j = i + 1
  · subst e; have := Option.some.inj (h1.symm.trans hj); omega
  · exact Int.le_of_lt (get_lt hp (by omega) h1 hj)

theorem findInterval_spec {starts : List Int} {now : Int} (i : Nat) (hi : i < starts.length) (h : ∀ s, starts[i]? = some s → s ≤ now) :
    InInterval starts (findInterval starts now starts.length i) now := by
  unfold findInterval
  by_cases hl : i + 1 < starts.length
  · rw [if_pos hl]
    have e1 := List.getElem?_eq_getElem hi
    have e2 := List.getElem?_eq_getElem hl
    simp only [e1, e2]
    have h1 := h _ e1
    by_cases h2 : now - starts[i + 1] < 0
    · rw [if_pos ⟨by omega, h2⟩]
      refine ⟨hi, h, ?_⟩
      intro s hs
      rw [e2] at hs
      cases hs
      omega
    · rw [if_neg (by omega)]
      apply findInterval_spec (i + 1) hl
      intro s hs
      rw [e2] at hs
      cases hs
      omega
  · rw [if_neg hl]
    refine ⟨hi, h, ?_⟩
    intro s hs
    rw [List.getElem?_eq_none (by omega)] at hs
    cases hs
termination_by starts.length - i

theorem advance_spec {cal : Cal} (hc : cal.Lawful) {starts : List Int} (hp : starts.Pairwise (· < ·)) {now : Int} {p : Span} (hpos : p.Pos) {i : Nat} (t : Int)
    (h : InInterval starts i t) (h0 : 0 ≤ t) (hnow : ∀ s, starts[i + 1]? = some s → now < s)
    (hskip : ∀ s ∈ starts, now ≤ s → t ≤ s) :
    ∃ t' i', advance cal starts now starts.length i p t = .ok (t', i') ∧ InInterval starts i' t' ∧ now ≤ t' ∧ 0 ≤ t' ∧ (∀ s ∈ starts, now ≤ s → t' ≤ s) := by
  unfold advance
  by_cases hlt : t - now < 0
  · simp only [hlt, dif_pos]
    have hadd := lt_timeAdd hc hpos t
    rw [if_neg (by omega)]
    have hsk : ∀ s ∈ starts, now ≤ s → ∃ s1, starts[i + 1]? = some s1 ∧ s1 ≤ s := fun s hs hns => h.skip hp hs (by omega)
    by_cases hl : (i : Int) ≠ (starts.length : Int) - 1
    · rw [if_pos hl]
      have hi1 : i + 1 < starts.length := by have := h.lt; omega
      have e1 := List.getElem?_eq_getElem hi1
      simp only [e1]
      by_cases hov : timeAdd cal t p - starts[i + 1] ≥ 0
      · rw [if_pos hov]
        have := hnow _ e1
        have htb := h.before _ e1
        refine ⟨_, _, rfl, ⟨hi1, ?_, ?_⟩, by omega, by omega, ?_⟩
        · intro s hs; rw [e1] at hs; cases hs; omega
        · intro s hs; exact get_lt hp (by omega) e1 hs
        · intro s hs hns
          obtain ⟨s1, q1, q2⟩ := hsk s hs hns
          rw [e1] at q1
          cases q1
          exact q2
      · rw [if_neg hov, dif_pos hadd]
        refine advance_spec hc hp hpos _ ⟨h.lt, fun s hs => ?_, fun s hs => ?_⟩ (by omega) hnow ?_
        · have := h.after s hs; omega
        · rw [e1] at hs; cases hs; omega
        · intro s hs hns
          obtain ⟨s1, q1, q2⟩ := hsk s hs hns
          rw [e1] at q1
          cases q1
          omega
    · rw [if_neg hl, dif_pos hadd]
      have hnone : starts[i + 1]? = none := List.getElem?_eq_none (by omega)
      refine advance_spec hc hp hpos _ ⟨h.lt, fun s hs => ?_, fun s hs => ?_⟩ (by omega) hnow ?_
      · have := h.after s hs; omega
      · rw [hnone] at hs; cases hs
      · intro s hs hns
        obtain ⟨s1, q1, q2⟩ := hsk s hs hns
        rw [hnone] at q1
        cases q1
  · simp only [hlt, dif_neg, not_false_eq_true]
    exact ⟨t, i, rfl, h, by omega, h0, hskip⟩
termination_by (now - t).toNat

theorem firstTime_spec {cal : Cal} (hc : cal.Lawful) {ivs : List Interval} {starts : List Int} {expiration now : Int} (hne : ivs ≠ []) (hlen : starts.length = ivs.length)
    (hp : starts.Pairwise (· < ·)) (hpos : ∀ iv ∈ ivs, iv.period.Pos) (h0 : ∀ s ∈ starts, 0 ≤ s) (hnow0 : 0 ≤ now) :
    ∃ t i, firstTime cal ivs starts expiration now = .ok (t, i) ∧ now ≤ t ∧ 0 ≤ t ∧
      ((expiration < now ∧ t = now ∧ i < starts.length) ∨ (InInterval starts i t ∧ ∀ s ∈ starts, now ≤ s → t ≤ s)) := by
  have hl0 : 0 < starts.length := by rw [hlen]; exact List.length_pos_iff.mpr hne
  have e0 := List.getElem?_eq_getElem hl0
  unfold firstTime
  simp only [e0]
  by_cases h1 : starts[0] - now > 0
  · rw [if_pos h1]
    refine ⟨_, _, rfl, by omega, h0 _ (List.getElem_mem hl0), .inr ⟨⟨hl0, ?_, ?_⟩, ?_⟩⟩
    · intro s hs; rw [e0] at hs; cases hs; omega
    · intro s hs; exact get_lt hp (by omega) e0 hs
    · intro s hs _
      obtain ⟨j, hj⟩ := List.mem_iff_getElem?.mp hs
      by_cases e : j = 0
      · subst e; rw [e0] at hj; cases hj; omega
      · exact Int.le_of_lt (get_lt hp (by omega) e0 hj)
  · rw [if_neg h1]
    by_cases h2 : expiration - now < 0
    · rw [if_pos h2]
      exact ⟨_, _, rfl, by omega, hnow0, .inl ⟨by omega, rfl, by omega⟩⟩
    · rw [if_neg h2]
      have hin := findInterval_spec (now := now) (starts := starts) 0 hl0 (fun s hs => by rw [e0] at hs; cases hs; omega)
      rw [← hlen]
      generalize findInterval starts now starts.length 0 = i at hin ⊢
      have e1 := List.getElem?_eq_getElem hin.lt
      have hi2 : i < ivs.length := by rw [← hlen]; exact hin.lt
      have e2 := List.getElem?_eq_getElem hi2
      simp only [e1, e2]
      have hsn := hin.after _ e1
      obtain ⟨t', i', q1, q2, q3, q4, q5⟩ := advance_spec hc hp (hpos _ (List.getElem_mem hi2)) (now := now) starts[i]
        ⟨hin.lt, fun s hs => by rw [e1] at hs; cases hs; omega, fun s hs => get_lt hp (by omega) e1 hs⟩ (h0 _ (List.getElem_mem hin.lt)) hin.before
        (fun s _ hns => by omega)
      exact ⟨t', i', q1, q3, q4, .inr ⟨q2, q5⟩⟩

theorem nextTime_spec {cal : Cal} (hc : cal.Lawful) {ivs : List Interval} {e : Exp} (hlen : e.starts.length = ivs.length) (hp : e.starts.Pairwise (· < ·))
    (hpos : ∀ iv ∈ ivs, iv.period.Pos) (h0 : 0 ≤ e.notif) (now : Int) (h : e.expiration < now ∨ InInterval e.starts e.cur e.notif) :
    ∃ t i, nextTime cal ivs e now = .ok (t, i) ∧ e.notif < t ∧
      ((e.expiration < now ∧ t = timeAdd cal e.notif { days := 1 }) ∨
       (now ≤ e.expiration ∧ InInterval e.starts i t ∧ (∀ s ∈ e.starts, e.notif < s → t ≤ s) ∧ ∃ iv, ivs[e.cur]? = some iv ∧ t ≤ timeAdd cal e.notif iv.period)) := by
  unfold nextTime
  by_cases hx : e.expiration - now < 0
  · rw [if_pos hx]
    exact ⟨_, _, rfl, lt_timeAdd hc (by simp [Span.Pos]) _, .inl ⟨by omega, rfl⟩⟩
  · rw [if_neg hx]
    have hin := h.resolve_left (by omega)
    have hi2 : e.cur < ivs.length := by rw [← hlen]; exact hin.lt
    have e2 := List.getElem?_eq_getElem hi2
    simp only [e2]
    have hadd := lt_timeAdd hc (hpos _ (List.getElem_mem hi2)) e.notif
    rw [if_neg (by omega)]
    by_cases hl : (e.cur : Int) = (ivs.length : Int) - 1
    · rw [if_pos hl]
      have hnone : e.starts[e.cur + 1]? = none := List.getElem?_eq_none (by omega)
      refine ⟨_, _, rfl, hadd, .inr ⟨by omega, ⟨hin.lt, ?_, ?_⟩, ?_, _, rfl, Int.le_refl _⟩⟩
      · intro s hs; have := hin.after s hs; omega
      · intro s hs; rw [hnone] at hs; cases hs
      · intro s hs hns
        obtain ⟨s1, q1, _⟩ := hin.skip hp hs hns
        rw [hnone] at q1
        cases q1
    · rw [if_neg hl]
      have hi1 : e.cur + 1 < e.starts.length := by omega
      have e1 := List.getElem?_eq_getElem hi1
      simp only [e1]
      have hsk : ∀ s ∈ e.starts, e.notif < s → e.starts[e.cur + 1] ≤ s := by
        intro s hs hns
        obtain ⟨s1, q1, q2⟩ := hin.skip hp hs hns
        rw [e1] at q1
        cases q1
        exact q2
      by_cases hov : e.starts[e.cur + 1] - timeAdd cal e.notif ivs[e.cur].period > 0
      · rw [if_pos hov]
        refine ⟨_, _, rfl, hadd, .inr ⟨by omega, ⟨hin.lt, ?_, ?_⟩, ?_, _, rfl, Int.le_refl _⟩⟩
        · intro s hs; have := hin.after s hs; omega
        · intro s hs; rw [e1] at hs; cases hs; omega
        · intro s hs hns; have := hsk s hs hns; omega
      · rw [if_neg hov]
        refine ⟨_, _, rfl, hin.before _ e1, .inr ⟨by omega, ⟨hi1, ?_, ?_⟩, hsk, _, rfl, by omega⟩⟩
        · intro s hs; rw [e1] at hs; cases hs; omega
        · intro s hs; exact get_lt hp (by omega) e1 hs

/-! ## Waking up -/

theorem wakeupLoop_spec (now : Int) : ∀ (ts : List Int) (i : Nat) (mn wake : Int) (next : Option Nat), (∀ t ∈ ts, t - now < longMax) →
    (∃ j t, ts[j]? = some t ∧ t ≤ now ∧ (∀ (k : Nat) (u : Int), k < j → ts[k]? = some u → now < u) ∧ wakeupLoop now ts i mn wake next = (0, some (i + j))) ∨
    ((∀ t ∈ ts, now < t) ∧
      ((∃ j t, ts[j]? = some t ∧ (∀ u ∈ ts, t ≤ u) ∧ t - now < mn ∧ wakeupLoop now ts i mn wake next = (t, some (i + j))) ∨
       ((∀ u ∈ ts, mn ≤ u - now) ∧ wakeupLoop now ts i mn wake next = (wake, next))))
  | [], i, mn, wake, next, _ => .inr ⟨by simp, .inr ⟨by simp, rfl⟩⟩
  | t :: ts, i, mn, wake, next, hb => by
    have hb' : ∀ t ∈ ts, t - now < longMax := fun u hu => hb u (List.mem_cons_of_mem _ hu)
    by_cases h1 : t - now ≤ 0
    · left
      refine ⟨0, t, rfl, by omega, by simp, ?_⟩
      simp [wakeupLoop, h1]
    · by_cases h2 : t - now < mn
      · have e : wakeupLoop now (t :: ts) i mn wake next = wakeupLoop now ts (i + 1) (t - now) t (some i) := by simp [wakeupLoop, h1, h2]
        rw [e]
        rcases wakeupLoop_spec now ts (i + 1) (t - now) t (some i) hb' with ⟨j, u, a1, a2, a3, a4⟩ | ⟨a1, ⟨j, u, b1, b2, b3, b4⟩ | ⟨b1, b2⟩⟩
        · left
          refine ⟨j + 1, u, by simpa using a1, a2, ?_, by rw [a4]; simp; omega⟩
          intro k v hk hv
          cases k with
          | zero => simp at hv; omega
          | succ k => exact a3 k v (by omega) (by simpa using hv)
        · right
          refine ⟨?_, .inl ⟨j + 1, u, by simpa using b1, ?_, by omega, by rw [b4]; simp; omega⟩⟩
          · intro v hv
            rcases List.mem_cons.mp hv with rfl | hv
            · omega
            · exact a1 v hv
          · intro v hv
            rcases List.mem_cons.mp hv with rfl | hv
            · omega
            · exact b2 v hv
        · right
          refine ⟨?_, .inl ⟨0, t, rfl, ?_, h2, by rw [b2]; rfl⟩⟩
          · intro v hv
            rcases List.mem_cons.mp hv with rfl | hv
            · omega
            · exact a1 v hv
          · intro v hv
            rcases List.mem_cons.mp hv with rfl | hv
            · omega
            · have := b1 v hv; omega
      · have e : wakeupLoop now (t :: ts) i mn wake next = wakeupLoop now ts (i + 1) mn wake next := by simp [wakeupLoop, h1, h2]
        rw [e]
        rcases wakeupLoop_spec now ts (i + 1) mn wake next hb' with ⟨j, u, a1, a2, a3, a4⟩ | ⟨a1, ⟨j, u, b1, b2, b3, b4⟩ | ⟨b1, b2⟩⟩
        · left
          refine ⟨j + 1, u, by simpa using a1, a2, ?_, by rw [a4]; simp; omega⟩
          intro k v hk hv
          cases k with
          | zero => simp at hv; omega
          | succ k => exact a3 k v (by omega) (by simpa using hv)
        · right
          refine ⟨?_, .inl ⟨j + 1, u, by simpa using b1, ?_, b3, by rw [b4]; simp; omega⟩⟩
          · intro v hv
            rcases List.mem_cons.mp hv with rfl | hv
            · omega
            · exact a1 v hv
          · intro v hv
            rcases List.mem_cons.mp hv with rfl | hv
            · omega
            · exact b2 v hv
        · right
          refine ⟨?_, .inr ⟨?_, b2⟩⟩
          · intro v hv
            rcases List.mem_cons.mp hv with rfl | hv
            · omega
            · exact a1 v hv
          · intro v hv
            rcases List.mem_cons.mp hv with rfl | hv
            · omega
            · exact b1 v hv

end Verif.CertExp
