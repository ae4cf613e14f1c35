import Verif.Lemmas.CertExp

/-!
# Properties of certificate expiration notifications (C42, C90–C93)
-/

namespace Verif.Props
open Verif.CertExp

/-! ## C42 -/

/-- **C42, waking up.** Without certificates the thread sleeps for a year. If a notification is due, it wakes up at once for the first such certificate;
otherwise at the earliest notification time, for a certificate with this time. -/
theorem cert_wakeup (now : Int) (times : List Int) (hb : ∀ t ∈ times, t - now < 2 ^ 63 - 1) :
    (times = [] ∧ wakeup now times = (now + 31536000, none)) ∨
    (∃ (j : Nat) (t : Int), times[j]? = some t ∧ t ≤ now ∧ (∀ (k : Nat) (u : Int), k < j → times[k]? = some u → now < u) ∧ wakeup now times = (0, some j)) ∨
    (∃ (j : Nat) (t : Int), times[j]? = some t ∧ now < t ∧ (∀ u ∈ times, t ≤ u) ∧ wakeup now times = (t, some j)) := by
  have hb : ∀ t ∈ times, t - now < longMax := hb
  cases times with
  | nil => left; exact ⟨rfl, by simp [wakeup]⟩
  | cons a as =>
    right
    have e : wakeup now (a :: as) = wakeupLoop now (a :: as) 0 longMax 0 none := by simp [wakeup]
    rw [e]
    rcases wakeupLoop_spec now (a :: as) 0 longMax 0 none hb with ⟨j, t, h1, h2, h3, h4⟩ | ⟨h0, ⟨j, t, h1, h2, h3, h4⟩ | ⟨h1, h2⟩⟩
    · left
      exact ⟨j, t, h1, h2, h3, by rw [h4]; simp⟩
    · right
      exact ⟨j, t, h1, h0 t (List.mem_of_getElem? h1), h2, by rw [h4]; simp⟩
    · have := h1 a List.mem_cons_self
      have := hb a List.mem_cons_self
      omega

example : wakeup 100 [300, 200, 250] = (200, some 1) := by decide
example : wakeup 220 [300, 200, 250] = (0, some 1) := by decide

/-- The times of notifications sent at the times `nows`, starting with `e`. -/
def notifTimes (cal : Cal) (ivs : List Interval) : Exp → List Int → Option (List Int)
  | e, [] => some [e.notif]
  | e, now :: nows =>
    match nextTime cal ivs e now with
    | .ok (t, i) => (notifTimes cal ivs { e with notif := t, cur := i } nows).map (e.notif :: ·)
    | _ => none

/-- Consecutive notification times: until the certificate has expired, no start of an interval is skipped and the next notification is at most a period away;
then they are sent every day. -/
def Regular (cal : Cal) (ivs : List Interval) (starts : List Int) (expiration : Int) : List Int → List Int → Prop
  | now :: nows, t :: u :: ts =>
    t < u ∧ (expiration < now → u = timeAdd cal t { days := 1 }) ∧
    (now ≤ expiration → (∀ s ∈ starts, t < s → u ≤ s) ∧ ∃ iv ∈ ivs, u ≤ timeAdd cal t iv.period) ∧
    Regular cal ivs starts expiration nows (u :: ts)
  | [], [_] => True
  | _, _ => False

theorem notifTimes_regular {cal : Cal} (hc : cal.Lawful) {ivs : List Interval} (hpos : ∀ iv ∈ ivs, iv.period.Pos) :
    ∀ (nows : List Int) (e : Exp) (last : Int), e.starts.length = ivs.length → e.starts.Pairwise (· < ·) → 0 ≤ e.notif →
      (e.expiration < last ∨ InInterval e.starts e.cur e.notif) → (last :: nows).Pairwise (· ≤ ·) →
      ∃ ts, notifTimes cal ivs e nows = some ts ∧ ts.head? = some e.notif ∧ Regular cal ivs e.starts e.expiration nows ts
  | [], e, last, _, _, _, _, _ => ⟨[e.notif], rfl, rfl, trivial⟩
  | now :: nows, e, last, hlen, hp, h0, h, hm => by
    have hle : last ≤ now := (List.pairwise_cons.mp hm).1 now List.mem_cons_self
    obtain ⟨t, i, q1, q2, q3⟩ := nextTime_spec hc hlen hp hpos h0 now (h.imp (fun h => by omega) id)
    have hinv : e.expiration < now ∨ InInterval e.starts i t := by
      rcases q3 with ⟨h1, _⟩ | ⟨_, h1, _⟩
      · exact .inl h1
      · exact .inr h1
    obtain ⟨ts, r1, r2, r3⟩ := notifTimes_regular hc hpos nows { e with notif := t, cur := i } now hlen hp (by show 0 ≤ t; omega) hinv (List.pairwise_cons.mp hm).2
    cases ts with
    | nil => simp at r2
    | cons u us =>
      simp only [List.head?_cons, Option.some.injEq] at r2
      subst r2
      refine ⟨e.notif :: u :: us, by simp [notifTimes, q1, r1], rfl, q2, ?_, ?_, r3⟩
      · intro hx
        rcases q3 with ⟨_, h1⟩ | ⟨h1, _⟩
        · exact h1
        · omega
      · intro hx
        rcases q3 with ⟨h1, _⟩ | ⟨_, _, h1, iv, h2, h3⟩
        · omega
        · exact ⟨h1, iv, List.mem_of_getElem? h2, h3⟩

theorem regular_sorted {cal : Cal} {ivs : List Interval} {starts : List Int} {expiration : Int} : ∀ (nows ts : List Int), Regular cal ivs starts expiration nows ts → ts.Pairwise (· < ·)
  | nows, [], _ => List.Pairwise.nil
  | nows, [t], _ => by simp
  | [], _ :: _ :: _, h => by simp [Regular] at h
  | now :: nows, t :: u :: ts, h => by
    have ih := regular_sorted nows (u :: ts) h.2.2.2
    refine List.pairwise_cons.mpr ⟨?_, ih⟩
    intro v hv
    rcases List.mem_cons.mp hv with rfl | hv
    · exact h.1
    · have := (List.pairwise_cons.mp ih).1 v hv
      have := h.1
      omega

/-- The intervals are listed by the time of their starts, which are after 1970. -/
def Ascending (cal : Cal) (expiration : Int) (ivs : List Interval) : Prop :=
  (ivs.map fun iv => timeSub cal expiration iv.anchor).Pairwise (· < ·) ∧ ∀ iv ∈ ivs, 0 ≤ timeSub cal expiration iv.anchor

/-- **C42, part.** If the intervals are listed in ascending order of their starts, the first notification is not before the certificate is found,
not after the next start of an interval, and immediate for an expired certificate. The notification times strictly increase; until the certificate expires, no start
of an interval is skipped and the distance is at most a period; afterwards it is a day.

Missing of the full claim: other orders (`cert_times_false`). -/
theorem cert_times_partial (cal : Cal) (hc : cal.Lawful) (ivs : List Interval) (hne : ivs ≠ []) (hpos : ∀ iv ∈ ivs, iv.period.Pos) (expiration now : Int)
    (hasc : Ascending cal expiration ivs) (hnow : 0 ≤ now) (nows : List Int) (hm : (now :: nows).Pairwise (· ≤ ·)) :
    ∃ e ts, certAppend cal ivs now (some expiration) = .ok e ∧ e.expiration = expiration ∧ now ≤ e.notif ∧
      (∀ iv ∈ ivs, now ≤ expiration → now ≤ timeSub cal expiration iv.anchor → e.notif ≤ timeSub cal expiration iv.anchor) ∧
      (expiration < now → (∀ iv ∈ ivs, timeSub cal expiration iv.anchor < now) → e.notif = now) ∧
      notifTimes cal ivs e nows = some ts ∧ ts.Pairwise (· < ·) ∧
      Regular cal ivs (ivs.map fun iv => timeSub cal expiration iv.anchor) expiration nows ts := by
  have hs := initStarts_ok hasc.2
  obtain ⟨t, i, q1, q2, q3, q4⟩ := firstTime_spec (expiration := expiration) hc hne (starts := ivs.map fun iv => timeSub cal expiration iv.anchor) (by simp) hasc.1 hpos
    (fun s hs => by obtain ⟨iv, hiv, rfl⟩ := List.mem_map.mp hs; exact hasc.2 iv hiv) hnow
  obtain ⟨ts, r1, r2, r3⟩ := notifTimes_regular hc hpos nows ⟨ivs.map fun iv => timeSub cal expiration iv.anchor, i, expiration, t⟩ now (by simp) hasc.1 q3
    (by rcases q4 with ⟨h1, _⟩ | ⟨h1, _⟩ <;> simp [h1]) hm
  refine ⟨_, ts, by simp only [certAppend, hs, q1], rfl, q2, ?_, ?_, r1, regular_sorted _ _ r3, r3⟩
  · intro iv hiv hle hns
    rcases q4 with ⟨h1, _⟩ | ⟨_, h1⟩
    · omega
    · exact h1 _ (List.mem_map.mpr ⟨iv, hiv, rfl⟩) hns
  · intro hx hall
    have hl0 : 0 < (ivs.map fun iv => timeSub cal expiration iv.anchor).length := by simpa using List.length_pos_iff.mpr hne
    have e0 := List.getElem?_eq_getElem hl0
    have h1 : (ivs.map fun iv => timeSub cal expiration iv.anchor)[0] < now := by
      obtain ⟨iv, hiv, he⟩ := List.mem_map.mp (List.getElem_mem hl0)
      rw [← he]
      exact hall iv hiv
    unfold firstTime at q1
    simp only [e0] at q1
    rw [if_neg (by omega), if_pos (by omega)] at q1
    simp only [Out.ok.injEq, Prod.mk.injEq] at q1
    exact q1.1.symm

/-- Notification times without configured intervals: until two weeks before the expiration every month, then a week before it, then every day. -/
def DefaultTimes (expiration : Int) : List Int → List Int → Prop
  | now :: nows, t :: u :: ts =>
    (expiration < now ∨ expiration - 7 * 86400 ≤ t → u = t + 86400) ∧
    (now ≤ expiration → expiration - 14 * 86400 ≤ t → t < expiration - 7 * 86400 → u = expiration - 7 * 86400) ∧
    (now ≤ expiration → t < expiration - 14 * 86400 → u = min (timeAdd utc t { months := 1 }) (expiration - 14 * 86400)) ∧
    DefaultTimes expiration nows (u :: ts)
  | [], [_] => True
  | _, _ => False

theorem utc_month_split (k : Int) : k / 12 * 12 + k % 12 = k := by omega

theorem utc_day (t : Int) : timeAdd utc t { days := 1 } = t + 86400 := by
  simp only [timeAdd, utc, Int.add_zero, utc_month_split]
  omega

theorem utc_week (t : Int) : timeAdd utc t { weeks := 1 } = t + 7 * 86400 := by
  simp only [timeAdd, utc, Int.add_zero, utc_month_split]
  omega

theorem utc_two_weeks (t : Int) : timeSub utc t { weeks := 2 } = t - 14 * 86400 := by
  simp only [timeSub, utc, Int.sub_zero, utc_month_split]
  omega

theorem utc_seven_days (t : Int) : timeSub utc t { days := 7 } = t - 7 * 86400 := by
  simp only [timeSub, utc, Int.sub_zero, utc_month_split]
  omega

theorem notifTimes_default (s0 x : Int) (h0 : 0 ≤ s0) (h1 : s0 < x - 14 * 86400) : ∀ (nows : List Int) (i : Nat) (t last : Int), 0 ≤ t →
    (x < last ∨ InInterval [s0, x - 14 * 86400, x - 7 * 86400] i t) → (last :: nows).Pairwise (· ≤ ·) →
    ∃ ts, notifTimes utc defaultIntervals ⟨[s0, x - 14 * 86400, x - 7 * 86400], i, x, t⟩ nows = some (t :: ts) ∧ DefaultTimes x nows (t :: ts)
  | [], i, t, last, _, _, _ => ⟨[], rfl, trivial⟩
  | now :: nows, i, t, last, ht, h, hm => by
    have hle : last ≤ now := (List.pairwise_cons.mp hm).1 now List.mem_cons_self
    have key : ∃ u j, nextTime utc defaultIntervals ⟨[s0, x - 14 * 86400, x - 7 * 86400], i, x, t⟩ now = .ok (u, j) ∧ 0 ≤ u ∧
        (x < now ∨ InInterval [s0, x - 14 * 86400, x - 7 * 86400] j u) ∧
        (x < now ∨ x - 7 * 86400 ≤ t → u = t + 86400) ∧
        (now ≤ x → x - 14 * 86400 ≤ t → t < x - 7 * 86400 → u = x - 7 * 86400) ∧
        (now ≤ x → t < x - 14 * 86400 → u = min (timeAdd utc t { months := 1 }) (x - 14 * 86400)) := by
      by_cases hx : x < now
      · refine ⟨t + 86400, i, ?_, by omega, .inl hx, fun _ => rfl, fun _ => by omega, fun _ => by omega⟩
        simp only [nextTime]
        rw [if_pos (by omega), utc_day]
      · have hin := h.resolve_left (by omega)
        have hlt := hin.lt
        simp only [List.length_cons, List.length_nil] at hlt
        have hi : i = 0 ∨ i = 1 ∨ i = 2 := by omega
        rcases hi with rfl | rfl | rfl
        · have a1 := hin.after s0 rfl
          have a2 := hin.before (x - 14 * 86400) rfl
          have hadd := lt_timeAdd utc_lawful (s := { months := 1 }) (by simp [Span.Pos]) t
          by_cases hb : timeAdd utc t { months := 1 } < x - 14 * 86400
          · refine ⟨timeAdd utc t { months := 1 }, 0, ?_, by omega, .inr ⟨by simp, ?_, ?_⟩, by omega, by omega, by omega⟩
            · simp only [nextTime, defaultIntervals, List.getElem?_cons_zero, List.getElem?_cons_succ]
              rw [if_neg (by omega), if_neg (by omega), if_neg (by simp), if_pos (by omega)]
            · intro s hs; simp at hs; omega
            · intro s hs; simp at hs; omega
          · refine ⟨x - 14 * 86400, 1, ?_, by omega, .inr ⟨by simp, ?_, ?_⟩, by omega, by omega, by omega⟩
            · simp only [nextTime, defaultIntervals, List.getElem?_cons_zero, List.getElem?_cons_succ]
              rw [if_neg (by omega), if_neg (by omega), if_neg (by simp), if_neg (by omega)]
            · intro s hs; simp at hs; omega
            · intro s hs; simp at hs; omega
        · have a1 := hin.after (x - 14 * 86400) rfl
          have a2 := hin.before (x - 7 * 86400) rfl
          refine ⟨x - 7 * 86400, 2, ?_, by omega, .inr ⟨by simp, ?_, ?_⟩, by omega, by omega, by omega⟩
          · simp only [nextTime, defaultIntervals, List.getElem?_cons_zero, List.getElem?_cons_succ, utc_week]
            rw [if_neg (by omega), if_neg (by omega), if_neg (by simp), if_neg (by omega)]
          · intro s hs; simp at hs; omega
          · intro s hs; simp at hs
        · have a1 := hin.after (x - 7 * 86400) rfl
          refine ⟨t + 86400, 2, ?_, by omega, .inr ⟨by simp, ?_, ?_⟩, fun _ => rfl, by omega, by omega⟩
          · simp only [nextTime, defaultIntervals, List.getElem?_cons_zero, List.getElem?_cons_succ, utc_day]
            rw [if_neg (by omega), if_neg (by omega), if_pos (by simp)]
          · intro s hs; simp at hs; omega
          · intro s hs; simp at hs
    obtain ⟨u, j, k1, k2, k3, k4, k5, k6⟩ := key
    obtain ⟨ts, r1, r2⟩ := notifTimes_default s0 x h0 h1 nows j u now k2 k3 (List.pairwise_cons.mp hm).2
    exact ⟨u :: ts, by simp only [notifTimes, k1, r1, Option.map_some], k4, k5, k6, r2⟩

/-- **C42 with the default intervals**, in UTC: the first notification of a certificate found earlier than three months before its expiration is three months
before it, an expired one is notified at once; further ones come every month, a week before the expiration, and every day from then on. -/
theorem cert_times_default (expiration now : Int) (h : 0 ≤ timeSub utc expiration { months := 3 }) (hnow : 0 ≤ now) (nows : List Int)
    (hm : (now :: nows).Pairwise (· ≤ ·)) :
    ∃ e ts, certAppend utc defaultIntervals now (some expiration) = .ok e ∧ notifTimes utc defaultIntervals e nows = some (e.notif :: ts) ∧
      now ≤ e.notif ∧ (now ≤ timeSub utc expiration { months := 3 } → e.notif = timeSub utc expiration { months := 3 }) ∧
      (now ≤ expiration - 14 * 86400 → e.notif ≤ expiration - 14 * 86400) ∧ (now ≤ expiration - 7 * 86400 → e.notif ≤ expiration - 7 * 86400) ∧
      (expiration < now → e.notif = now) ∧ DefaultTimes expiration nows (e.notif :: ts) := by
  have hp := utc_default expiration
  have hl : (defaultIntervals.map fun iv => timeSub utc expiration iv.anchor) =
      [timeSub utc expiration { months := 3 }, expiration - 14 * 86400, expiration - 7 * 86400] := by
    simp [defaultIntervals, utc_two_weeks, utc_seven_days]
  have h01 : timeSub utc expiration { months := 3 } < expiration - 14 * 86400 := by
    rw [hl] at hp
    simp at hp
    omega
  have hall : ∀ iv ∈ defaultIntervals, 0 ≤ timeSub utc expiration iv.anchor := by
    simp only [defaultIntervals, List.mem_cons, List.not_mem_nil, or_false, forall_eq_or_imp, forall_eq, utc_two_weeks, utc_seven_days]
    omega
  have hs := initStarts_ok hall
  rw [hl] at hs hp
  obtain ⟨t, i, q1, q2, q3, q4⟩ := firstTime_spec (expiration := expiration) utc_lawful (ivs := defaultIntervals) (by simp [defaultIntervals])
    (starts := [timeSub utc expiration { months := 3 }, expiration - 14 * 86400, expiration - 7 * 86400]) (by simp [defaultIntervals]) hp
    (by simp [defaultIntervals, Span.Pos])
    (fun s hs => by simp at hs; omega) hnow
  obtain ⟨ts, r1, r2⟩ := notifTimes_default _ expiration h h01 nows i t now q3 (q4.imp And.left And.left) hm
  refine ⟨_, ts, by simp only [certAppend, hs, q1], r1, q2, ?_, ?_, ?_, ?_, r2⟩
  · intro hn
    show t = _
    simp only [firstTime, List.getElem?_cons_zero] at q1
    by_cases he : now = timeSub utc expiration { months := 3 }
    · rcases q4 with ⟨g1, _⟩ | ⟨g1, g2⟩
      · omega
      · have := g2 _ List.mem_cons_self hn
        omega
    · rw [if_pos (by omega)] at q1
      simp only [Out.ok.injEq, Prod.mk.injEq] at q1
      exact q1.1.symm
  · intro hn
    show t ≤ _
    rcases q4 with ⟨g1, _⟩ | ⟨g1, g2⟩
    · omega
    · exact g2 _ (by simp) hn
  · intro hn
    show t ≤ _
    rcases q4 with ⟨g1, _⟩ | ⟨g1, g2⟩
    · omega
    · exact g2 _ (by simp) hn
  · intro hn
    show t = _
    simp only [firstTime, List.getElem?_cons_zero] at q1
    rw [if_neg (by omega), if_pos (by omega)] at q1
    simp only [Out.ok.injEq, Prod.mk.injEq] at q1
    exact q1.1.symm

/-- A certificate that expires on 30 November 2026, looked at on 1 September: notifications on 30 September, 30 October, 16, 23, 24, … November. -/
example : certAppend utc defaultIntervals 1788220800 (some 1796040000) = .ok ⟨[1788091200, 1794830400, 1795435200], 0, 1796040000, 1790769600⟩ ∧
    notifTimes utc defaultIntervals ⟨[1788091200, 1794830400, 1795435200], 0, 1796040000, 1790769600⟩ [1790769600, 1793361600, 1794830400, 1795435200] =
      some [1790769600, 1793361600, 1794830400, 1795435200, 1795521600] := by decide +kernel

/-- **C42 is false in general.** With the intervals 7 days and then 3 months, the notification a week before the expiration is followed by one three months before it. -/
theorem cert_times_false : ∃ (ivs : List Interval) (expiration now : Int) (e : Exp) (nows ts : List Int), (∀ iv ∈ ivs, iv.period.Pos) ∧
    certAppend utc ivs now (some expiration) = .ok e ∧ notifTimes utc ivs e nows = some ts ∧ ¬ ts.Pairwise (· < ·) := by
  refine ⟨[⟨{ days := 7 }, { days := 1 }⟩, ⟨{ months := 3 }, { months := 1 }⟩], 1796040000, 1788220800, ⟨[1795435200, 1788091200], 0, 1796040000, 1795435200⟩,
    [1795435200], [1795435200, 1788091200], by simp [Span.Pos], by decide +kernel, by decide +kernel, by decide⟩

/-! ## C90: every day from the expiration on -/

/-- **C90, part.** In an interval with a period of at most a day, and after the expiration, the next notification comes within a day.

Missing of the full claim: longer periods (`cert_daily_false`). -/
theorem cert_daily_partial (cal : Cal) (hc : cal.Lawful) (ivs : List Interval) (hpos : ∀ iv ∈ ivs, iv.period.Pos) (e : Exp) (now : Int)
    (hlen : e.starts.length = ivs.length) (hp : e.starts.Pairwise (· < ·)) (h0 : 0 ≤ e.notif) (h : e.expiration < now ∨ InInterval e.starts e.cur e.notif)
    (hday : ∀ iv, ivs[e.cur]? = some iv → timeAdd cal e.notif iv.period ≤ timeAdd cal e.notif { days := 1 }) :
    ∃ t i, nextTime cal ivs e now = .ok (t, i) ∧ e.notif < t ∧ t ≤ timeAdd cal e.notif { days := 1 } := by
  obtain ⟨t, i, q1, q2, q3⟩ := nextTime_spec hc hlen hp hpos h0 now h
  refine ⟨t, i, q1, q2, ?_⟩
  rcases q3 with ⟨_, h1⟩ | ⟨_, _, _, iv, h1, h2⟩
  · omega
  · have := hday iv h1
    omega

example : nextTime utc defaultIntervals ⟨[1788091200, 1794830400, 1795435200], 2, 1796040000, 1796040000⟩ 1796040000 = .ok (1796126400, 2) := by decide +kernel

/-- **C90 is false in general.** With one interval starting 4 weeks before the expiration and a period of 3 weeks, which the YANG module allows, there is a notification a week before
the expiration and none until two weeks after it. -/
theorem cert_daily_false : ∃ (expiration now : Int) (e : Exp) (nows : List Int), certAppend utc [⟨{ weeks := 4 }, { weeks := 3 }⟩] now (some expiration) = .ok e ∧
    notifTimes utc [⟨{ weeks := 4 }, { weeks := 3 }⟩] e nows = some [expiration - 4 * 604800, expiration - 604800, expiration + 2 * 604800] := by
  refine ⟨1796040000, 1788220800, ⟨[1793620800], 0, 1796040000, 1793620800⟩, [1793620800, 1795435200], by decide +kernel, by decide +kernel⟩

/-! ## C91: unreadable certificates -/

/-- **C91, part.** If all certificates can be read, every certificate gets its notification time.

Missing of the full claim: a certificate that cannot be read (`cert_unreadable_false`). -/
theorem cert_unreadable_partial (cal : Cal) (hc : cal.Lawful) (ivs : List Interval) (hne : ivs ≠ []) (hpos : ∀ iv ∈ ivs, iv.period.Pos) (now : Int) (hnow : 0 ≤ now) :
    ∀ certs : List Int, (∀ x ∈ certs, Ascending cal x ivs) → ∃ es, datesGet cal ivs now (certs.map some) = .ok es ∧ es.map Exp.expiration = certs ∧ ∀ e ∈ es, now ≤ e.notif
  | [], _ => ⟨[], rfl, rfl, by simp⟩
  | x :: xs, h => by
    obtain ⟨e, _, h1, h2, h3, _⟩ := cert_times_partial cal hc ivs hne hpos x now (h x List.mem_cons_self) hnow [] (by simp)
    obtain ⟨es, g1, g2, g3⟩ := cert_unreadable_partial cal hc ivs hne hpos now hnow xs (fun y hy => h y (List.mem_cons_of_mem _ hy))
    refine ⟨e :: es, by simp [datesGet, h1, g1], by simp [h2, g2], ?_⟩
    intro e' he'
    rcases List.mem_cons.mp he' with rfl | he'
    · exact h3
    · exact g3 e' he'

example : datesGet utc defaultIntervals 1788220800 [some 1796040000, some 1788000000] =
    .ok [⟨[1788091200, 1794830400, 1795435200], 0, 1796040000, 1790769600⟩, ⟨[1780051200, 1786790400, 1787395200], 2, 1788000000, 1788220800⟩] := by decide +kernel

/-- **C91 is false in general.** A certificate that cannot be read ends the thread, no application is told about the other certificates;
the thread is still considered running and cannot be started again. -/
theorem cert_unreadable_false : (∀ (cal : Cal) (ivs : List Interval) (now : Int) (cs : List (Option Int)), datesGet cal ivs now (none :: cs) = .err) ∧
    ∃ s, acts started [.load false] = some s ∧ s.pc = .ended ∧ s.running = true ∧ act s .start = none :=
  ⟨fun _ _ _ _ => rfl, _, rfl, rfl, rfl, rfl⟩

/-! ## C92, C93: stopping the thread, changes of the configuration -/

/-- A thread that was told to stop outside of the moment before waiting. -/
def Ending (s : Thread) : Prop := s.running = false ∧ s.pc ≠ .prepared ∧ s.pc ≠ .waiting

/-- Steps left at most. -/
def stepsLeft (s : Thread) : Nat :=
  match s.pc with
  | .ended => 0
  | .load => 2
  | .notify => 2
  | _ => 1

theorem ending_step {s t : Thread} (h : Ending s) (a : Act) (e : act s a = some t) (ha : a ≠ .config ∧ a ≠ .stop ∧ a ≠ .start) : Ending t ∧ stepsLeft t < stepsLeft s := by
  obtain ⟨pc, r, st⟩ := s
  obtain ⟨h1, h2, h3⟩ := h
  simp only at h1 h2 h3
  subst h1
  cases a <;> cases pc <;> simp [act] at e h2 h3 ha <;> subst e <;> (first | (simp [Ending, stepsLeft]; done) | (split <;> simp [Ending, stepsLeft]))

/-- **C92, the other direction.** A thread that was not told to stop and could read all certificates has not ended, and it is able to go on; while it waits, the next notification is given once its time arrives. -/
theorem cert_runs_until_stopped (as : List Act) (s : Thread) (h : acts started as = some s) (hs : Act.stop ∉ as) (hl : Act.load false ∉ as) :
    s.running = true ∧ s.pc ≠ .ended ∧ (∃ a t, a ≠ .config ∧ a ≠ .stop ∧ act s a = some t ∧ t.pc ≠ .ended) ∧
    (s.pc = .waiting → ∃ t, act s .timeout = some t ∧ t.pc = .notify) := by
  have key : ∀ (as : List Act) (s t : Thread), s.running = true ∧ s.pc ≠ .ended → Act.stop ∉ as → Act.load false ∉ as → acts s as = some t → t.running = true ∧ t.pc ≠ .ended := by
    intro as
    induction as with
    | nil => intro s t h _ _ e; cases e; exact h
    | cons a as ih =>
      intro s t h hs hl e
      simp only [List.mem_cons, not_or] at hs hl
      simp only [acts] at e
      cases e1 : act s a with
      | none => rw [e1] at e; cases e
      | some u =>
        rw [e1] at e
        refine ih u t ?_ hs.2 hl.2 e
        obtain ⟨pc, r, st⟩ := s
        simp only at h
        obtain ⟨rfl, h2⟩ := h
        rcases a with (_ | _) | _ | _ | _ | _ | _ | _ | _ | _ <;> cases pc <;> simp [act] at e1 h2 hs hl <;> subst e1 <;> simp
  obtain ⟨h1, h2⟩ := key as started s ⟨rfl, by simp [started]⟩ hs hl h
  obtain ⟨pc, r, st⟩ := s
  simp only at h1 h2
  subst h1
  refine ⟨rfl, h2, ?_, fun hw => by simp only at hw; subst hw; exact ⟨_, rfl, rfl⟩⟩
  cases pc
  · exact ⟨.load true, _, by simp, by simp, rfl, by simp⟩
  · exact ⟨.check, _, by simp, by simp, rfl, by simp⟩
  · exact ⟨.wait, _, by simp, by simp, rfl, by simp⟩
  · exact ⟨.timeout, _, by simp, by simp, rfl, by simp⟩
  · exact ⟨.wokenUp, _, by simp, by simp, rfl, by simp⟩
  · exact ⟨.notified, _, by simp, by simp, rfl, by simp⟩
  · exact absurd rfl h2

/-- A thread woken by a change, reading again, notifying and waiting again. -/
example : ∃ s, acts started [.load true, .check, .wait, .config, .wokenUp, .load true, .check, .wait, .timeout, .notified, .check, .wait] = some s ∧ s.pc = .waiting := ⟨_, rfl, rfl⟩

/-- **C92, part.** If the thread is told to stop at any moment but between its check of the flag and waiting, then it does not wait any more and ends after at most two more steps.

Missing of the full claim: that moment (`cert_stop_false`). -/
theorem cert_stop_partial (as bs : List Act) (s t : Thread) (_ : acts started as = some s) (hr : s.running = true) (hpc : s.pc ≠ .prepared)
    (hb : ∀ a ∈ bs, a ≠ .config ∧ a ≠ .stop ∧ a ≠ .start) (ht : acts s (.stop :: bs) = some t) : bs.length ≤ 2 ∧ t.pc ≠ .waiting ∧ (t.pc ≠ .ended → ∃ a u, act t a = some u ∧ Ending u ∧ stepsLeft u < stepsLeft t) := by
  have key : ∀ (bs : List Act) (s t : Thread), Ending s → (∀ a ∈ bs, a ≠ .config ∧ a ≠ .stop ∧ a ≠ .start) → acts s bs = some t → bs.length + stepsLeft t ≤ stepsLeft s ∧ Ending t := by
    intro bs
    induction bs with
    | nil => intro s t h _ e; cases e; exact ⟨by simp, h⟩
    | cons a bs ih =>
      intro s t h hb e
      simp only [acts] at e
      cases e1 : act s a with
      | none => rw [e1] at e; cases e
      | some u =>
        rw [e1] at e
        obtain ⟨g1, g2⟩ := ending_step h a e1 (hb a List.mem_cons_self)
        obtain ⟨k1, k2⟩ := ih u t g1 (fun b hb' => hb b (List.mem_cons_of_mem _ hb')) e
        exact ⟨by simp only [List.length_cons]; omega, k2⟩
  simp only [acts, act, hr, if_true, Option.bind_some] at ht
  have hend : Ending { s with running := false, pc := if s.pc = .waiting then .woken else s.pc } := by
    refine ⟨rfl, ?_, ?_⟩
    · simp only; split
      · simp
      · exact hpc
    · simp only; split
      · simp
      · assumption
  obtain ⟨k1, k2⟩ := key bs _ t hend hb ht
  refine ⟨?_, k2.2.2, ?_⟩
  · have : stepsLeft { s with running := false, pc := if s.pc = .waiting then .woken else s.pc } ≤ 2 := by
      unfold stepsLeft
      split <;> simp
    omega
  · intro hne
    obtain ⟨pc, r, st⟩ := t
    obtain ⟨h1, h2, h3⟩ := k2
    simp only at h1 h2 h3 hne
    subst h1
    cases pc <;> simp at h2 h3 hne
    · exact ⟨.load true, _, rfl, by simp [Ending], by simp [stepsLeft]⟩
    · exact ⟨.check, _, rfl, by simp [Ending], by simp [stepsLeft]⟩
    · exact ⟨.wokenUp, _, rfl, by simp [Ending], by simp [stepsLeft]⟩
    · exact ⟨.notified, _, rfl, by simp [Ending], by simp [stepsLeft]⟩

example : ∃ t, acts started [.load true, .check, .wait, .stop, .wokenUp] = some t ∧ t.pc = .ended := ⟨_, rfl, rfl⟩

/-- **C92 is false in general.** A thread told to stop after its check of the flag and before waiting sleeps until its next notification; without certificates for a year. -/
theorem cert_stop_false : ∃ t, acts started [.load true, .check, .stop, .wait] = some t ∧ t.pc = .waiting ∧ t.running = false ∧
    (∀ a u, act t a = some u → u.pc ≠ .waiting → a = .timeout) := by
  refine ⟨⟨.waiting, false, false⟩, rfl, rfl, rfl, ?_⟩
  intro a u h hu
  cases a <;> simp [act] at h <;> subst h <;> simp at hu ⊢

/-- **C93, part.** A change of the configuration made while the thread waits is taken into account: the thread reads the configuration before it waits again.

Missing of the full claim: a change made while the thread is not waiting (`cert_reload_false`). -/
theorem cert_reload_partial (as bs : List Act) (s t : Thread) (_ : acts started as = some s) (hr : s.running = true) (hpc : s.pc = .waiting)
    (hb : ∀ a ∈ bs, a ≠ .config) (ht : acts s (.config :: bs) = some t) (hw : t.pc = .waiting) : t.stale = false := by
  have key : ∀ (bs : List Act) (s t : Thread), (s.stale = true → s.pc = .woken ∨ s.pc = .load ∨ s.pc = .ended) → (∀ a ∈ bs, a ≠ .config) → acts s bs = some t →
      (t.stale = true → t.pc = .woken ∨ t.pc = .load ∨ t.pc = .ended) := by
    intro bs
    induction bs with
    | nil => intro s t h _ e; cases e; exact h
    | cons a bs ih =>
      intro s t h hb e
      simp only [acts] at e
      cases e1 : act s a with
      | none => rw [e1] at e; cases e
      | some u =>
        rw [e1] at e
        refine ih u t ?_ (fun b hb' => hb b (List.mem_cons_of_mem _ hb')) e
        have ha := hb a List.mem_cons_self
        obtain ⟨pc, r, st⟩ := s
        simp only at h
        intro hst
        cases a <;> cases pc <;> cases r <;> simp [act] at e1 ha <;> subst e1 <;> (try split at hst) <;> simp_all
  have := key bs { s with stale := true, pc := .woken } t (by simp) hb (by simpa [acts, act, hr, hpc] using ht)
  cases hst : t.stale with
  | false => rfl
  | true =>
    have := this hst
    rw [hw] at this
    simp at this

example : ∃ t, acts started [.load true, .check, .wait, .config, .wokenUp, .load true, .check, .wait] = some t ∧ t.pc = .waiting ∧ t.stale = false := ⟨_, rfl, rfl, rfl⟩

/-- **C93 is false in general.** A change of the configuration made while the application is being notified, or before the thread waits, is not noticed: the thread waits
with the certificates of the old configuration. -/
theorem cert_reload_false :
    (∃ t, acts started [.load true, .check, .wait, .timeout, .config, .notified, .check, .wait] = some t ∧ t.pc = .waiting ∧ t.running = true ∧ t.stale = true) ∧
    (∃ t, acts started [.load true, .check, .config, .wait] = some t ∧ t.pc = .waiting ∧ t.running = true ∧ t.stale = true) :=
  ⟨⟨_, rfl, rfl, rfl, rfl⟩, ⟨_, rfl, rfl, rfl, rfl⟩⟩

end Verif.Props
