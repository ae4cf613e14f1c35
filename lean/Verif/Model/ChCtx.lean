/-!
# Contexts and sessions of a Call Home thread (src/session_server.c:2695-2879, 2989-3162)

What a Call Home thread does with the contexts it acquires and the sessions it creates, as the list of events in their order. What the peer, the
operating system, the callbacks of the application and the configuration do are the answers of a `Round`. Sessions are numbered by the attempts.

Simplified: `nc_session_free` called by the application waits until the thread is done with the session (src/session.c:967-980); that it gives up
after a second is left out. Locks and the choice of the endpoint are left out.
-/

namespace Verif.ChCtx

/-- How waiting for the end of a session ends (src/session_server.c:2829-2869): the session is not running any more, the client was removed
(2845-2850), waiting failed (2835-2838). -/
inductive Wait where
  | ended
  | removed
  | failed
  deriving DecidableEq, Repr

/-- What is seen of the thread (src/session_server.c:2712, 2784, 2821; 2724; 2781, 2820; 2812; src/log.c:104-106): `acquire_ctx_cb` with a context or NULL,
`release_ctx_cb`, a session is created, the library frees it, it is passed to `new_session_cb` which answers 0 or not, the application frees it,
the library reads its memory. -/
inductive Ev where
  | acquired (ok : Bool)
  | released
  | created (n : Nat)
  | freed (n : Nat)
  | given (n : Nat) (ok : Bool)
  | userFreed (n : Nat)
  | used (n : Nat)
  deriving DecidableEq, Repr

/-- The answers in one round of the thread's loop (src/session_server.c:3011-3147): is it connected (2705), is there a context (2712), is there memory
for a session (2724), did the transport (2733-2761) and the hello messages (2767) succeed, is the thread to run on (3021), did `new_session_cb` return 0
(2812), how did waiting end, has the application freed the session before the thread writes its last message (3153), is there a next round
(3034-3064, 3098-3101, 3011). -/
structure Round where
  sock : Bool
  ctx : Bool
  mem : Bool
  transport : Bool
  hello : Bool
  running : Bool
  taken : Bool
  wait : Wait
  freed : Bool
  next : Bool
  deriving DecidableEq, Repr

/-- `nc_connect_ch_endpt` (src/session_server.c:2695-2787): the events and whether there is a session. -/
def connectEndpt (n : Nat) (r : Round) : List Ev × Bool :=
  if r.sock = false then ([], false)
  else if r.ctx = false then ([.acquired false], false)
  else if r.mem = false then ([.acquired true, .released], false)
  else if r.transport = false then ([.acquired true, .created n, .freed n, .released], false)
  else if r.hello = false then ([.acquired true, .created n, .freed n, .released], false)
  else ([.acquired true, .created n], true)

/-- `VRB(session, …)` (src/log_p.h:47, src/log.c:104-106, src/session_server.c:3027, 3153): the number of the session is read if the messages are written. -/
def vrb (verbose : Bool) (n : Nat) : List Ev := if verbose then [.used n] else []

/-- `nc_server_ch_client_thread_session_cond_wait` (src/session_server.c:2798-2879), then what the application does with the session: the events and whether
the returned value is not 0. -/
def condWait (n : Nat) (r : Round) : List Ev × Bool :=
  if r.taken = false then ([.given n false, .freed n, .released], false)
  else ([.given n true, .used n] ++ (if r.freed then [.userFreed n] else []), decide (r.wait ≠ .ended))

/-- `nc_ch_client_thread` (src/session_server.c:2989-3162): the loop and the message of the label `cleanup`, where `session` is not NULL if
the thread was told to stop just after a session was established (3021-3024) or waiting returned another value than 0 (3028-3030). -/
def thread (verbose : Bool) : Nat → List Round → List Ev
  | _, [] => []
  | n, r :: rs =>
    if (connectEndpt n r).2 then
      if r.running = false then (connectEndpt n r).1 ++ vrb verbose n
      else if (condWait n r).2 then (connectEndpt n r).1 ++ vrb verbose n ++ (condWait n r).1 ++ vrb verbose n
      else (connectEndpt n r).1 ++ vrb verbose n ++ (condWait n r).1 ++ (if r.next then thread verbose (n + 1) rs else [])
    else (connectEndpt n r).1 ++ (if r.next then thread verbose (n + 1) rs else [])

end Verif.ChCtx
