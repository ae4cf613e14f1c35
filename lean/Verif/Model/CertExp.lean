/-!
# Certificate expiration notifications (session_server.c)

The times at which the application is told that a certificate expires, and the thread which waits for them.
-/

namespace Verif.CertExp

/-- Results of functions: a value, an error, undefined behaviour (index out of bounds), a loop that does not end.
`-1` is returned on errors (src/session_server.c:3370, 3397, 3435). -/
inductive Out (α : Type) | ok (a : α) | err | ub | hang
  deriving DecidableEq, Repr

/-- Months, weeks, days and hours, `struct nc_cert_exp_time` (src/session_p.h:399-404). -/
structure Span where
  months : Int := 0
  weeks : Int := 0
  days : Int := 0
  hours : Int := 0
  deriving DecidableEq, Repr

/-- Broken-down time, the `struct tm` used at src/session_server.c:3364-3377. -/
structure Tm where
  year : Int
  mon : Int
  mday : Int
  hour : Int
  min : Int
  sec : Int
  dst : Int
  deriving DecidableEq, Repr

/-- The C library: `localtime_r` and `mktime`, parameters (used at src/session_server.c:3367, 3378). -/
structure Cal where
  split : Int → Tm
  join : Tm → Int

/-- `nc_server_notif_cert_exp_time_add` (src/session_server.c:3362-3379). -/
def timeAdd (cal : Cal) (t : Int) (s : Span) : Int :=
  let tm := cal.split t
  cal.join { tm with mon := tm.mon + s.months, mday := tm.mday + 7 * s.weeks + s.days, hour := tm.hour + s.hours }

/-- `nc_server_notif_cert_exp_time_sub` (src/session_server.c:3389-3406). -/
def timeSub (cal : Cal) (t : Int) (s : Span) : Int :=
  let tm := cal.split t
  cal.join { tm with mon := tm.mon - s.months, mday := tm.mday - 7 * s.weeks - s.days, hour := tm.hour - s.hours }

/-- `struct nc_interval` (src/session_p.h:599-602). -/
structure Interval where
  anchor : Span
  period : Span
  deriving DecidableEq, Repr

/-- `struct nc_cert_expiration` (src/session_p.h:409-417) without the path. -/
structure Exp where
  starts : List Int
  cur : Nat
  expiration : Int
  notif : Int
  deriving DecidableEq, Repr

/-- The default intervals (src/session_server.c:3891-3895). -/
def defaultIntervals : List Interval :=
  [⟨{ months := 3 }, { months := 1 }⟩, ⟨{ weeks := 2 }, { weeks := 1 }⟩, ⟨{ days := 7 }, { days := 1 }⟩]

/-- `nc_server_notif_cert_exp_next_notif_time_get` (src/session_server.c:3417-3452): the time and the index of the interval. -/
def nextTime (cal : Cal) (ivs : List Interval) (e : Exp) (now : Int) : Out (Int × Nat) :=
  if e.expiration - now < 0 then .ok (timeAdd cal e.notif { days := 1 }, e.cur)
  else
    match ivs[e.cur]? with
    | none => .ub
    | some iv =>
      let t := timeAdd cal e.notif iv.period
      if t = -1 then .err
      else if (e.cur : Int) = (ivs.length : Int) - 1 then .ok (t, e.cur)
      else
        match e.starts[e.cur + 1]? with
        | none => .ub
        | some s => if s - t > 0 then .ok (t, e.cur) else .ok (s, e.cur + 1)

/-- `nc_server_notif_cert_exp_init_intervals` (src/session_server.c:3463-3479). -/
def initStarts (cal : Cal) (expiration : Int) : List Interval → Out (List Int)
  | [] => .ok []
  | iv :: ivs =>
    let s := timeSub cal expiration iv.anchor
    if s = -1 then .err
    else
      match initStarts cal expiration ivs with
      | .ok l => .ok (s :: l)
      | o => o

/-- The loop looking for the interval of the current time (src/session_server.c:3517-3522): the index where it ends. -/
def findInterval (starts : List Int) (now : Int) (count i : Nat) : Nat :=
  if i + 1 < count then
    match starts[i]?, starts[i + 1]? with
    | some a, some b => if now - a ≥ 0 ∧ now - b < 0 then i else findInterval starts now count (i + 1)
    | _, _ => i
  else i
  termination_by count - i

/-- The loop adding periods until the time is not in the past (src/session_server.c:3525-3539). It does not end if adding the period does not increase the time. -/
def advance (cal : Cal) (starts : List Int) (now : Int) (count i : Nat) (p : Span) (t : Int) : Out (Int × Nat) :=
  if _h : t - now < 0 then
    let t' := timeAdd cal t p
    if t' = -1 then .err
    else if (i : Int) ≠ (count : Int) - 1 then
      match starts[i + 1]? with
      | none => .ub
      | some s => if t' - s ≥ 0 then .ok (s, i + 1) else if _h' : t < t' then advance cal starts now count i p t' else .hang
    else if _h' : t < t' then advance cal starts now count i p t' else .hang
  else .ok (t, i)
  termination_by (now - t).toNat

/-- `nc_server_notif_cert_exp_first_notif_time_get` (src/session_server.c:3490-3544). -/
def firstTime (cal : Cal) (ivs : List Interval) (starts : List Int) (expiration now : Int) : Out (Int × Nat) :=
  match starts[0]? with
  | none => .ub
  | some s0 =>
    if s0 - now > 0 then .ok (s0, 0)
    else if expiration - now < 0 then .ok (now, ivs.length - 1)
    else
      let i := findInterval starts now ivs.length 0
      match starts[i]?, ivs[i]? with
      | some t, some iv => advance cal starts now ivs.length i iv.period t
      | _, _ => .ub

/-- `nc_server_notif_cert_exp_date_append` (src/session_server.c:3558-3607) for a certificate with its expiration time, `none` if it cannot be read. -/
def certAppend (cal : Cal) (ivs : List Interval) (now : Int) (cert : Option Int) : Out Exp :=
  match cert with
  | none => .err
  | some expiration =>
    match initStarts cal expiration ivs with
    | .ok starts =>
      match firstTime cal ivs starts expiration now with
      | .ok (t, i) => .ok ⟨starts, i, expiration, t⟩
      | .err => .err
      | .ub => .ub
      | .hang => .hang
    | .err => .err
    | .ub => .ub
    | .hang => .hang

/-- `nc_server_notif_cert_exp_dates_get` (src/session_server.c:3681-3760) over all certificates of the configuration, ends with the first error. -/
def datesGet (cal : Cal) (ivs : List Interval) (now : Int) : List (Option Int) → Out (List Exp)
  | [] => .ok []
  | c :: cs =>
    match certAppend cal ivs now c with
    | .ok e =>
      match datesGet cal ivs now cs with
      | .ok es => .ok (e :: es)
      | o => o
    | .err => .err
    | .ub => .ub
    | .hang => .hang

/-- `LONG_MAX` (src/session_server.c:3773). -/
def longMax : Int := 9223372036854775807

/-- The loop of `nc_server_notif_cert_exp_wakeup_time_get` (src/session_server.c:3787-3803): `i` is the index, `minTime`, `wake`, `next` its variables.
Simplified: `difftime` is exact. -/
def wakeupLoop (now : Int) : List Int → Nat → Int → Int → Option Nat → Int × Option Nat
  | [], _, _, wake, next => (wake, next)
  | t :: ts, i, minTime, wake, next =>
    if t - now ≤ 0 then (0, some i)
    else if t - now < minTime then wakeupLoop now ts (i + 1) (t - now) t (some i)
    else wakeupLoop now ts (i + 1) minTime wake next

/-- `nc_server_notif_cert_exp_wakeup_time_get` (src/session_server.c:3771-3804) for the notification times of all certificates:
the time and the index of the certificate. -/
def wakeup (now : Int) (times : List Int) : Int × Option Nat :=
  if times.length = 0 then (now + 365 * 24 * 60 * 60, none) else wakeupLoop now times 0 longMax 0 none

/-! ## The thread -/

/-- Places of the thread (src/session_server.c:3884-3970): `load`: about to read the configuration (3900-3903, 3928-3930); `check`: in front of the check of the loop (3908);
`prepared`: the time was computed (3910), before waiting; `waiting`: in the condition (3914); `woken`: by a signal (3918); `notify`: the time has come (3934);
`ended`. -/
inductive Pc | load | check | prepared | waiting | woken | notify | ended
  deriving DecidableEq, Repr

/-- The thread and the flag `thread_running` (src/session_p.h:592, cleared only at src/session_server.c:4030); `stale`: the configuration was changed after it was read the last time. -/
structure Thread where
  pc : Pc
  running : Bool
  stale : Bool
  deriving DecidableEq, Repr

/-- What happens: a step of the thread, `load` with the success of reading all certificates; the time of the next notification arrives;
a change of the configuration ended with a signal (src/server_config.c:4409-4414, 4490-4495); stop and start (src/session_server.c:3973-4049). -/
inductive Act | load (ok : Bool) | check | wait | timeout | wokenUp | notified | config | stop | start
  deriving DecidableEq, Repr

/-- One action (src/session_server.c:3884-4049, src/server_config.c:4409-4414); `none` if it is not possible. A signal is lost unless the thread is waiting. -/
def act (s : Thread) : Act → Option Thread
  | .load ok => if s.pc = .load then some (if ok then { s with pc := .check, stale := false } else { s with pc := .ended }) else none
  | .check => if s.pc = .check then some { s with pc := if s.running then .prepared else .ended } else none
  | .wait => if s.pc = .prepared then some { s with pc := .waiting } else none
  | .timeout => if s.pc = .waiting then some { s with pc := .notify } else none
  | .wokenUp => if s.pc = .woken then some { s with pc := if s.running then .load else .ended } else none
  | .notified => if s.pc = .notify then some { s with pc := .check } else none
  | .config => some { s with stale := true, pc := if s.running ∧ s.pc = .waiting then .woken else s.pc }
  | .stop => some (if s.running then { s with running := false, pc := if s.pc = .waiting then .woken else s.pc } else s)
  | .start => if s.running then none else if s.pc = .ended then some { s with running := true, pc := .load } else none

/-- Actions in order (src/session_server.c:3884-4049). -/
def acts : Thread → List Act → Option Thread
  | s, [] => some s
  | s, a :: as => (act s a).bind fun t => acts t as

/-- After `nc_server_notif_cert_expiration_thread_start` (src/session_server.c:3973-4016). -/
def started : Thread := ⟨.load, true, false⟩

end Verif.CertExp
