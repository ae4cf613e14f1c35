/-!
# Deadlines and waiting (src/session.c:55-137, 469-508)
-/

namespace Verif.Timeout

/-- `struct timespec` (src/session.c:55): seconds and nanoseconds, `time_t` taken as unbounded. -/
structure Ts where
  sec : Int
  nsec : Int
  deriving DecidableEq, Repr

/-- Conversion to `int32_t` (src/session.c:94): modulo 2^32. -/
def wrap32 (x : Int) : Int := (x + 2147483648) % 4294967296 - 2147483648

/-- `nc_timeouttime_get` (src/session.c:54-81) at the current time `now`; `none` is a failed assertion. -/
def deadline (now : Ts) (addMs : Nat) : Option Ts :=
  if addMs = 0 then some now
  else if ¬ (0 ≤ now.nsec ∧ now.nsec < 1000000000) then none
  else
    let sec := now.sec + (addMs / 1000 : Nat)
    let nsec := now.nsec + (addMs % 1000 : Nat) * 1000000
    let r : Ts :=
      if nsec ≥ 1000000000 then ⟨sec + 1, nsec - 1000000000⟩
      else if nsec < 0 then ⟨sec - 1, nsec + 1000000000⟩
      else ⟨sec, nsec⟩
    if 0 ≤ r.nsec ∧ r.nsec < 1000000000 then some r else none

/-- `nc_timeouttime_cur_diff` (src/session.c:83-95) at the current time `cur`: C division truncates; the 64-bit computation is taken as unbounded. -/
def curDiff (ts cur : Ts) : Int := wrap32 (Int.tdiv ((ts.sec - cur.sec) * 1000000000 + (ts.nsec - cur.nsec)) 1000000)

/-- Result of the system call `poll` (src/session.c:119, 129): so many descriptors ready, timeout, interrupted by a signal, other error. -/
inductive Sys where
  | ready (n : Nat)
  | timeout
  | eintr
  | error
  deriving DecidableEq, Repr

/-- Result of `nc_poll` (src/session.c:106-137): return value and the time of the return, or waiting for ever. -/
inductive PollRes where
  | ret (rc : Int) (now : Ts)
  | waiting
  deriving DecidableEq, Repr

/-- Return value of the system call (src/session.c:119). -/
def Sys.rc : Sys → Int
  | .ready n => n
  | .timeout => 0
  | .eintr => -1
  | .error => -1

/-- The loop of `nc_poll` (src/session.c:117-131): `calls` are the results of the successive calls of `poll` with the times they return. -/
def pollLoop (start : Ts) : (tm : Int) → (calls : List (Sys × Ts)) → PollRes
  | _, [] => .waiting
  | tm, (r, now) :: calls =>
    let tm' := if tm > 0 then tm + curDiff start now else tm
    if tm > 0 ∧ tm' < 0 then .ret 0 now
    else if r = .eintr then pollLoop start tm' calls
    else .ret r.rc now

/-- `nc_poll` (src/session.c:106-137) started at time `start`. -/
def ncPoll (start : Ts) (tm : Int) (calls : List (Sys × Ts)) : PollRes := pollLoop start tm calls

/-- The timeout left after `nc_session_client_msgs_lock` (src/session.c:478-488) got the lock at time `got`, having started at `start`. -/
def msgsLockTimeout (timeout : Int) (start got : Ts) : Int := if timeout > 0 then timeout - curDiff start got else timeout

end Verif.Timeout
