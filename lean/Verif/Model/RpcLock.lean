/-!
# The RPC lock of a server session (src/session.c:294-422) and its use when freeing a session (src/session.c:876-886)

Interleaving semantics: each event is one memory or mutex operation of one thread.  Waking up from the condition
variable is allowed at any time (signal or spurious), timeouts may happen whenever the code waits.
-/

namespace Verif.RpcLock

/-- The three kinds of `timeout` argument (src/session.c:310, 325, 334). -/
inductive Mode where
  | try_
  | timed
  | forever
  deriving DecidableEq, Repr

/-- Program counter of a thread; `free` says that the lock call was made by `nc_session_free`. (src/session.c:294-422) -/
inductive PC where
  | idle
  /-- before `pthread_mutex_*lock` (src/session.c:314, 327, 336) -/
  | lockWant (m : Mode) (free : Bool)
  /-- mutex held, before reading `rpc_inuse` (src/session.c:316, 329, 338) -/
  | lockTest (m : Mode) (free : Bool)
  /-- in `pthread_cond_*wait` (src/session.c:317, 339) -/
  | waiting (m : Mode) (free : Bool)
  /-- wait finished, mutex not yet re-acquired; `late` says it timed out -/
  | rewant (m : Mode) (free late : Bool)
  /-- mutex held, timed out or busy, before unlocking and returning 0 (src/session.c:320, 330) -/
  | giveUp (free : Bool)
  /-- mutex held, `rpc_inuse` was read as 0, before setting it (src/session.c:360-361) -/
  | lockSet (free : Bool)
  /-- mutex held, `rpc_inuse` set, before unlocking the mutex (src/session.c:364) -/
  | lockDone (free : Bool)
  /-- the call returned 1 -/
  | owner (free : Bool)
  /-- `nc_session_free` goes on without the lock (src/session.c:882-885) -/
  | freesUnlocked
  /-- `nc_session_rpc_unlock` before taking the mutex (src/session.c:387-398) -/
  | unlockWant
  /-- before `rpc_inuse = 0`, with or without the mutex (src/session.c:404-408) -/
  | unlockClear (held : Bool)
  /-- before the mutex is released (src/session.c:409-413) -/
  | unlockDone (held : Bool)
  deriving DecidableEq, Repr

/-- State shared by all threads, and their program counters. (src/session_p.h:761-764) -/
structure Sys where
  mutex : Option Nat
  inuse : Bool
  pc : Nat → PC

/-- A new session (src/session.c:255-285, `calloc`). -/
def init : Sys := ⟨none, false, fun _ => .idle⟩

/-- Events of thread `t`: calling the lock (from `nc_ps_poll` or `nc_session_free`), obtaining the mutex, failing to obtain it, the next
operation under the mutex, a wake-up, a wait timeout, calling the unlock, finishing the free. (src/session.c:294-422) -/
inductive Ev where
  | call (t : Nat) (m : Mode) (free : Bool)
  | get (t : Nat)
  | miss (t : Nat)
  | next (t : Nat)
  | wake (t : Nat)
  | late (t : Nat)
  | unlock (t : Nat)
  deriving DecidableEq, Repr

/-- Setting a program counter. (src/session.c:294-422) -/
def Sys.set (s : Sys) (t : Nat) (p : PC) : Sys := { s with pc := fun u => if u = t then p else s.pc u }

/-- One event (lines as at the constructors of `PC`); impossible events change nothing. (src/session.c:294-422) -/
def step (s : Sys) : Ev → Sys
  | .call t m free => if s.pc t = .idle then s.set t (.lockWant m free) else s
  | .get t =>
    if s.mutex = none then
      match s.pc t with
      | .lockWant m free => { s.set t (.lockTest m free) with mutex := some t }
      | .rewant m free late => { s.set t (if late then .giveUp free else .lockTest m free) with mutex := some t }
      | .unlockWant => { s.set t (.unlockClear true) with mutex := some t }
      | _ => s
    else s
  | .miss t =>
    match s.pc t with
    | .lockWant .try_ free => s.set t (if free then .freesUnlocked else .idle)      -- EBUSY: return 0
    | .lockWant .timed free => s.set t (if free then .freesUnlocked else .idle)     -- ETIMEDOUT: return 0
    | .unlockWant => s.set t (.unlockClear false)                                   -- 404-405
    | _ => s
  | .next t =>
    match s.pc t with
    | .lockTest m free =>
      if s.inuse then
        if m = .try_ then s.set t (.giveUp free)
        else { s.set t (.waiting m free) with mutex := none }
      else s.set t (.lockSet free)
    | .giveUp free => { s.set t (if free then .freesUnlocked else .idle) with mutex := none }
    | .lockSet free => { s.set t (.lockDone free) with inuse := true }
    | .lockDone free => { s.set t (.owner free) with mutex := none }
    | .unlockClear held => { s.set t (.unlockDone held) with inuse := false }
    | .unlockDone held => { s.set t .idle with mutex := if held then none else s.mutex }
    | _ => s
  | .wake t =>
    match s.pc t with
    | .waiting m free => s.set t (.rewant m free false)
    | _ => s
  | .late t =>
    match s.pc t with
    | .waiting .timed free => s.set t (.rewant .timed free true)
    | _ => s
  | .unlock t =>
    match s.pc t with
    | .owner _ => s.set t .unlockWant
    | _ => s

/-- A whole execution. (src/session.c:294-422) -/
def run (s : Sys) : List Ev → Sys
  | [] => s
  | e :: es => run (step s e) es

end Verif.RpcLock
