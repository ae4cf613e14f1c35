/-!
# The Call Home thread (session_server.c)

One thread connects to the endpoints of one Call Home client. Its decisions are modelled here: which endpoint is tried next, when a periodic
connection is attempted again, and how the thread and the removal of its client interact.
-/

namespace Verif.CallHome

/-- Policies of choosing the endpoint to start with, `NC_CH_START_WITH` (src/session.h:111-115, set at src/server_config.c:3770-3786). -/
inductive StartWith | firstListed | lastConnected | random
  deriving DecidableEq, Repr

/-- What the thread reads of `struct nc_ch_client` (src/session_p.h:529-571) to choose an endpoint: names of the endpoints, `max_attempts`, `start_with`. -/
structure Cfg where
  eps : List Nat
  maxAttempts : Nat
  startWith : StartWith
  deriving DecidableEq, Repr

/-- Local variables of the thread: `cur_endpt_name` (also `cur_endpt`) and `cur_attempts`, a `uint8_t` (src/session_server.c:2993-2996). -/
structure Th where
  cur : Nat
  attempts : Nat
  deriving DecidableEq, Repr

/-- The loops looking for the endpoint by its name (src/session_server.c:3076-3080 and 3110-3114); the number of endpoints if it was removed. -/
def find (name : Nat) : List Nat → Nat
  | [] => 0
  | e :: es => if e = name then 0 else find name es + 1

/-- `cur_endpt = &client->ch_endpts[next_endpt_index]` (src/session_server.c:3144-3146); undefined (`none`) outside of the array. -/
def take (c : Cfg) (idx attempts : Nat) : Option Th := (c.eps[idx]?).map fun e => ⟨e, attempts⟩

/-- Start of the thread with the first endpoint (src/session_server.c:3008-3009, `cur_attempts = 0` at 2993). -/
def start (c : Cfg) : Option Th := take c 0 0

/-- After a failed attempt (src/session_server.c:3107-3141); `c` is the configuration after waiting. `++cur_attempts` wraps at 256. -/
def afterFail (c : Cfg) (t : Th) : Option Th :=
  let attempts := (t.attempts + 1) % 256
  let idx := find t.cur c.eps
  if idx ≥ c.eps.length then take c 0 0
  else if attempts = c.maxAttempts then take c (if idx < c.eps.length - 1 then idx + 1 else 0) 0
  else take c idx attempts

/-- After a session ended (src/session_server.c:3071-3088); `r` is the value of `rand()`, the division by zero for no endpoint is undefined. -/
def afterSession (c : Cfg) (r : Nat) (t : Th) : Option Th :=
  match c.startWith with
  | .firstListed => take c 0 t.attempts
  | .lastConnected =>
    let idx := find t.cur c.eps
    take c (if idx ≥ c.eps.length then 0 else idx) t.attempts
  | .random => if c.eps.length = 0 then none else take c (r % c.eps.length) t.attempts

/-! ## Periodic connections -/

/-- `reconnect_in` in seconds (src/session_server.c:3049-3055): the C remainder truncates and is converted to `uint32_t`, division by zero is undefined. -/
def reconnectIn (now anchor : Int) (period : Nat) : Option Nat :=
  if anchor ≠ 0 then
    if period * 60 = 0 then none
    else some (((now - anchor).tmod ((period * 60 : Nat) : Int)) % 4294967296).toNat
  else some (period * 60)

/-- Time in ms the thread waits for: the product is converted to the `uint32_t` parameter of `nc_timeouttime_get`
(src/session_server.c:2899, src/session.c:56). -/
def waitMs (seconds : Nat) : Nat := seconds * 1000 % 4294967296

/-! ## Removing the client -/

/-- Places of the thread between its atomic sections (src/session_server.c:2989-3162).
`locked`: holding the locks in front of the check of the loop (3011); `connecting`: after it (3016);
`established`: a session is established, the locks were released (3020); `given`: waiting in the callback or for the end of the session (3028);
`ended`: the session ended (3034); `relock`: about to lock the client (3040); `relocked`: holding the locks in front of the check of a periodic connection (3048); `waiting`: in `nc_server_ch_client_thread_is_running_wait` (3062, 3098);
`relockAssert`: about to lock the client after waiting (3067, 3104); `cleanup` (3152); `done`: the thread ended. -/
inductive Pc | first | locked | connecting | established | given | ended | relock | relocked | waiting | relockAssert | cleanup | done
  deriving DecidableEq, Repr

/-- Places of the thread removing the client (src/server_config.c:912-934 and 945-976):
`idle`; `unlinked`: the client was removed from the array; `joining`: the thread was told to stop; `finished`. -/
inductive Del | idle | unlinked | joining | finished
  deriving DecidableEq, Repr

/-- The client, its thread and the thread removing it. `dispatched`: `thread_data` was set (src/session_server.c:3207-3208); `data`: `thread_data` is allocated;
`running`: `thread_running`; `present`: the client is in the array; `leaked`: the thread ended with a session nobody has;
`ub`: invalid memory was accessed or an assertion failed. -/
structure St where
  dispatched : Bool
  present : Bool
  data : Bool
  running : Bool
  pc : Pc
  del : Del
  leaked : Bool
  ub : Bool
  deriving DecidableEq, Repr

/-- A configured client without a thread (src/server_config.c:3482-3508). -/
def configured : St := ⟨false, true, false, false, .done, .idle, false, false⟩

/-- After `nc_connect_ch_client_dispatch` (src/session_server.c:3164-3220). -/
def dispatched : St := ⟨true, true, true, true, .first, .idle, false, false⟩

/-- The thread holds the read lock of the clients (src/session_server.c:3002-3019, 3040-3058, 3067-3150); the thread removing the client needs the write lock. -/
def holdsLock : Pc → Bool
  | .locked | .connecting | .relocked => true
  | _ => false

/-- What can happen: a step of the Call Home thread with the outcome of the connection, the session or the wait (src/session_server.c:2989-3162); a step of the removal (src/server_config.c:912-976). -/
inductive Act
  | lockClient | checkRun | connected (ok : Bool) | checkEstablished | sessionEnds (ok : Bool) | noticeRemoved | checkEnded
  | periodic (yes : Bool) | wakes (timedOut : Bool) | cleanup
  | unlink | stop | join
  deriving DecidableEq, Repr

/-- Steps of the thread (src/session_server.c:2989-3162) and of the removal (src/server_config.c:912-975); `none` if the step is not possible.
`noticeRemoved`: the session is kept but the client is not found any more (src/session_server.c:2841-2851). A step of `wakes` with `timedOut = false`
stands for an error of waiting; being told to stop ends the thread in both cases (2904-2919).
Simplified: waiting for endpoints to be configured (2962-2977) is left out, it only repeats the step of locking. -/
def step (s : St) : Act → Option St
  | .lockClient =>
    match s.pc with
    | .first => some { s with pc := if s.present then .locked else .cleanup }
    | .relock => some { s with pc := if s.present then .relocked else .cleanup }
    | .relockAssert => some (if s.present then { s with pc := .locked } else { s with ub := true })
    | _ => none
  | .checkRun => if s.pc = .locked then some { s with pc := if s.running then .connecting else .cleanup } else none
  | .connected ok => if s.pc = .connecting then some { s with pc := if ok then .established else .waiting } else none
  | .checkEstablished =>
    if s.pc = .established then some (if s.running then { s with pc := .given } else { s with pc := .cleanup, leaked := true }) else none
  | .sessionEnds ok => if s.pc = .given then some { s with pc := if ok then .ended else .cleanup } else none
  | .noticeRemoved => if s.pc = .given ∧ s.present = false then some { s with pc := .cleanup } else none
  | .checkEnded => if s.pc = .ended then some { s with pc := if s.running then .relock else .cleanup } else none
  | .periodic yes => if s.pc = .relocked then some { s with pc := if yes then .waiting else .locked } else none
  | .wakes timedOut =>
    if s.pc = .waiting then some { s with pc := if s.running && timedOut then .relockAssert else .cleanup } else none
  | .cleanup => if s.pc = .cleanup then some { s with pc := .done, data := false } else none
  | .unlink => if s.del = .idle ∧ holdsLock s.pc = false then some { s with present := false, del := .unlinked } else none
  | .stop =>
    if s.del = .unlinked then
      if s.dispatched && s.data then some (if s.running then { s with running := false, del := .joining } else { s with del := .finished })
      else some { s with ub := true }
    else none
  | .join => if s.del = .joining ∧ s.pc = .done then some { s with del := .finished } else none

/-- Executing steps; `none` if one of them is not possible (src/session_server.c:2989-3162, src/server_config.c:912-975). -/
def exec : St → List Act → Option St
  | s, [] => some s
  | s, a :: as => (step s a).bind fun t => exec t as

end Verif.CallHome
