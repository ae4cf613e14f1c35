/-!
# Freeing a session of Call Home while its thread waits for the end of the session (src/session_server.c:2798-2879, src/session.c:856-858, 959-985, 1013-1021)

Two threads share `ch_lock`, `ch_cond`, `status` and the flag `NC_SESSION_CH_THREAD`: the Call Home thread, which has given the session to the application, and the
thread of the application that calls `nc_session_free`. Steps of both in any order. Between two steps the mutex is held by the Call Home thread or by nobody;
what the application does while it holds it is one step.

Simplified: the parts of `nc_session_free` in front of the mutex (src/session.c:860-957) are left out, as is the message after the wait (`Model/ChCtx`).
-/

namespace Verif.ChFree

/-- `session->status` of a session in use (src/session.h:76-82). -/
inductive Status where
  | running
  | invalid
  | closing
  deriving DecidableEq, Repr

/-- The Call Home thread: it sleeps on `ch_cond` (src/session_server.c:2829), it is awake and needs the mutex, `sig` if the wait returns 0 (2830), it has the mutex
(2830-2869), it will wait again and still has the mutex (2826-2829), it is done with the session, with a value other than 0 if `rc` (2871-2878). -/
inductive TPc where
  | asleep
  | awake (sig : Bool)
  | inside (sig : Bool)
  | again
  | out (rc : Bool)
  deriving DecidableEq, Repr

/-- The thread of the application: not yet in `nc_session_free`, in front of the mutex (src/session.c:961), asleep on `ch_cond` (975), awake and in need of the mutex,
`late` if its time is up, done, with the session freed (987-1021). -/
inductive UPc where
  | idle
  | want
  | asleep
  | awake (late : Bool)
  | freed
  deriving DecidableEq, Repr

/-- The shared data (src/session_p.h:736, src/session.c:269-270): `flag` is `NC_SESSION_CH_THREAD`; `ub`: the Call Home thread used a freed session. -/
structure St where
  status : Status
  flag : Bool
  t : TPc
  u : UPc
  ub : Bool
  deriving DecidableEq, Repr

/-- The session was given to the application and the thread waits (src/session_server.c:2809-2829). -/
def given : St := ⟨.running, true, .asleep, .idle, false⟩

/-- The Call Home thread has the mutex (src/session_server.c:2829-2876). -/
def held : TPc → Bool
  | .inside _ => true
  | .again => true
  | _ => false

/-- Steps: the Call Home thread wakes up, with 0 or because a second is over (src/session_server.c:2826-2840); takes the mutex; looks at the client, which is there or
removed, and at the time, which is up or not, or the wait had failed (2830-2876); goes to sleep again (2826-2829); the session becomes invalid, by the peer or by polling; `nc_session_free` is called;
it takes the mutex (src/session.c:961-985); it wakes up, by itself or because its time is up (975); it takes the mutex again (974-985). -/
inductive Act where
  | tWake (sig : Bool)
  | tLock
  | tCheck (failed present idle : Bool)
  | tSleep
  | invalid
  | uFree
  | uLock
  | uWake (late : Bool)
  | uBack
  deriving DecidableEq, Repr

/-- The Call Home thread leaves (src/session_server.c:2871-2878): the flag is cleared, a sleeping `nc_session_free` is woken up. -/
def leave (s : St) (rc : Bool) : St := { s with flag := false, t := .out rc, u := if s.u = .asleep then .awake false else s.u }

/-- One step, `none` if it is not possible (src/session_server.c:2829-2876, src/session.c:856-858, 959-985). A step of the Call Home thread that needs the session is undefined
once it is freed. -/
def step (s : St) : Act → Option St
  | .tWake sig => if s.t = .asleep then some { s with t := .awake sig } else none
  | .tLock =>
    match s.t with
    | .awake sig => some { s with t := .inside sig, ub := s.ub || decide (s.u = .freed) }
    | _ => none
  | .tCheck failed present idle =>
    match s.t with
    | .inside sig =>
      if failed && !sig then some (leave s true)
      else if sig && decide (s.status ≠ .running) then some (leave s false)
      else if !present then some (leave s true)
      else
        let s := if idle then { s with status := .invalid } else s
        if s.status = .running then some { s with t := .again } else some (leave s false)
    | _ => none
  | .tSleep => if s.t = .again then some { s with t := .asleep } else none
  | .invalid => if s.status = .running then some { s with status := .invalid } else none
  | .uFree => if s.u = .idle ∧ s.status ≠ .closing then some { s with u := .want } else none
  | .uLock =>
    if s.u = .want ∧ held s.t = false then
      if s.flag then some { s with status := .closing, t := if s.t = .asleep then .awake true else s.t, u := .asleep }
      else some { s with status := .closing, u := .freed }
    else none
  | .uWake late => if s.u = .asleep then some { s with u := .awake late } else none
  | .uBack =>
    match s.u with
    | .awake late =>
      if held s.t then none
      else if late then some { s with u := .freed }
      else if s.flag then some { s with u := .asleep }
      else some { s with u := .freed }
    | _ => none

/-- Steps in their order, `none` if one of them is not possible (src/session_server.c:2829-2876, src/session.c:959-985). -/
def exec : St → List Act → Option St
  | s, [] => some s
  | s, a :: as => (step s a).bind fun t => exec t as

end Verif.ChFree
