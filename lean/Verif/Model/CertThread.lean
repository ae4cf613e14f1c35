/-!
# Starting and stopping the thread for expiring certificates (src/session_server.c:3829-3845, 3884-4049)

The threads there are, the flag they look at, and the data of the application they free, for all sequences of starts and stops. Threads are numbered in the
order of their creation; the data given to a start have the number of its thread.

Simplified: what a thread does between two looks at the flag is left out (`Model/CertExp`). A stop that waits returns after the thread has ended; that its
signal may come too early for it to end soon is the matter of `Model/CertExp`.
-/

namespace Verif.CertThread

/-- `thread_running` and `tid` (src/session_p.h:590-592), `tid` is `none` if it is 0; the threads that run; the data freed by threads (src/session_server.c:3964-3966);
the number of the next thread. -/
structure State where
  flag : Bool
  tid : Option Nat
  threads : List Nat
  freed : List Nat
  next : Nat
  deriving DecidableEq, Repr

/-- Nothing started (src/session_server.c:54-58). -/
def State.init : State := ⟨false, none, [], [], 0⟩

/-- What happens: `nc_server_notif_cert_expiration_thread_start`, whether a callback is given, there is memory, and a thread can be created
(src/session_server.c:3980-4005); `nc_server_notif_cert_expiration_thread_stop` (4018-4049); a thread looks at the flag (3908, 3920); a thread ends because of
an error (3904, 3931, 3943, 3953, 3958). -/
inductive Ev where
  | start (clb mem create : Bool)
  | stop (wait : Bool)
  | look (i : Nat)
  | fail (i : Nat)
  deriving DecidableEq, Repr

/-- The end of a thread (src/session_server.c:3962-3969). -/
def endThread (s : State) (i : Nat) : State :=
  if i ∈ s.threads then { s with threads := s.threads.filter (fun j => !(j == i)), freed := s.freed ++ [i] } else s

/-- `nc_server_notif_cert_expiration_thread_start` (src/session_server.c:3972-4016): 0 is `true`. -/
def start (s : State) (clb mem create : Bool) : State × Bool :=
  if clb = false then (s, false)
  else if mem = false then (s, false)
  else if s.flag then (s, false)
  else if create = false then ({ s with flag := true }, false)
  else ({ s with flag := true, tid := some s.next, threads := s.threads ++ [s.next], next := s.next + 1 }, true)

/-- `nc_server_notif_cert_expiration_thread_stop` (src/session_server.c:4018-4049): `none` is undefined behaviour, a thread that never was is joined or
detached (4037-4039). -/
def stop (s : State) (wait : Bool) : Option State :=
  if s.flag then
    match s.tid with
    | none => none
    | some i => if wait then some (endThread { s with flag := false, tid := none } i) else some { s with flag := false, tid := none }
  else some s

/-- A thread looks at the flag (src/session_server.c:3829-3845, 3908, 3918-3923). -/
def look (s : State) (i : Nat) : State := if s.flag then s else endThread s i

/-- One event (src/session_server.c:3884-4049). -/
def step (s : State) : Ev → Option State
  | .start c m k => some (start s c m k).1
  | .stop w => stop s w
  | .look i => some (look s i)
  | .fail i => some (endThread s i)

/-- Events in their order (src/session_server.c:3884-4049). -/
def run : State → List Ev → Option State
  | s, [] => some s
  | s, e :: es => (step s e).bind fun t => run t es

end Verif.CertThread
