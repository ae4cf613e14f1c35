/-!
# Threads of Call Home clients (src/session_server.c:259-271, 3164-3220, src/server_config.c:912-976, 3482-3542)

Which Call Home clients are called, by how many threads, with which callbacks. Names of clients and callbacks are numbers; NULL is `none`.

Simplified: the array of clients is a function of their names, which are unique in the data tree the configuration comes from. Threads run until they are
told to stop and joined; that they may end before is the matter of `Model/CallHome`. The server is initialised and there is memory.
-/

namespace Verif.ChDispatch

/-- The callbacks and their data (src/session_p.h:576-582). -/
structure Data where
  acquire : Nat
  release : Nat
  ctxData : Nat
  newSession : Nat
  newData : Nat
  deriving DecidableEq, Repr

/-- A thread of `nc_ch_client_thread` (src/session_server.c:2989, 3185-3200): its number, the name of the client it calls, its callbacks. -/
structure Thread where
  id : Nat
  client : Nat
  data : Data
  deriving DecidableEq, Repr

/-- `ch_dispatch_data`, the clients with the thread of `tid` and `thread_data`, the threads that run, the number of the next one (src/session_p.h:529-532, 571, 576-582). -/
structure World where
  dflt : Option Data
  clients : Nat → Option (Option Nat)
  threads : List Thread
  next : Nat

/-- Nothing configured (src/session_server.c:54-58). -/
def World.init : World := ⟨none, fun _ => none, [], 0⟩

/-- What the application and the configuration do: `nc_server_ch_set_dispatch_data` (src/session_server.c:259-271), a client is created, with the answer of
`pthread_create` (src/server_config.c:3517-3535), `nc_connect_ch_client_dispatch` with the answer of `pthread_create` (src/session_server.c:3164-3220), a client is
deleted (src/server_config.c:3536-3538). -/
inductive Ev where
  | set (acquire release : Option Nat) (ctxData : Nat) (newSession : Option Nat) (newData : Nat)
  | create (c : Nat) (ok : Bool)
  | dispatch (c : Nat) (d : Data) (ok : Bool)
  | delete (c : Nat)
  deriving DecidableEq, Repr

/-- A client is set (src/server_config.c:3493-3502, src/session_server.c:3207-3208, src/server_config.c:964-970). -/
def World.put (w : World) (c : Nat) (x : Option (Option Nat)) : World := { w with clients := fun d => if d = c then x else w.clients d }

/-- `nc_connect_ch_client_dispatch` (src/session_server.c:3164-3220): 0 is `true`. -/
def dispatch (w : World) (c : Nat) (d : Data) (ok : Bool) : World × Bool :=
  match w.clients c with
  | none => (w, false)
  | some _ =>
    if ok then ({ (w.put c (some (some w.next))) with threads := w.threads ++ [⟨w.next, c, d⟩], next := w.next + 1 }, true)
    else (w, false)

/-- `nc_server_ch_set_dispatch_data` (src/session_server.c:259-271). -/
def setData (w : World) (a r : Option Nat) (x : Nat) (n : Option Nat) (y : Nat) : World :=
  match a, r, n with
  | some a, some r, some n => { w with dflt := some ⟨a, r, x, n, y⟩ }
  | _, _, _ => w

/-- `nc_server_config_netconf_client` for a new client (src/server_config.c:3482-3508, 3517-3535): `true` if it succeeds. -/
def create (w : World) (c : Nat) (ok : Bool) : World × Bool :=
  match w.dflt with
  | none => (w.put c (some none), true)
  | some d => dispatch (w.put c (some none)) c d ok

/-- `nc_server_config_ch_del_client`, `nc_server_config_destroy_ch_client` (src/server_config.c:912-976): `none` is undefined behaviour, NULL is read for a client
that has no thread (919). The thread is told to stop and joined. -/
def delete (w : World) (c : Nat) : Option World :=
  match w.clients c with
  | none => some w
  | some none => none
  | some (some i) => some { (w.put c none) with threads := w.threads.filter (fun t => !(t.id == i)) }

/-- One event (src/session_server.c:259-271, 3164-3220, src/server_config.c:3510-3542). -/
def step (w : World) : Ev → Option World
  | .set a r x n y => some (setData w a r x n y)
  | .create c ok => some (create w c ok).1
  | .dispatch c d ok => some (dispatch w c d ok).1
  | .delete c => delete w c

/-- Events in their order (src/session_server.c:259-271, 3164-3220, src/server_config.c:3510-3542); `none` is undefined behaviour. -/
def run : World → List Ev → Option World
  | w, [] => some w
  | w, e :: es => (step w e).bind fun w' => run w' es

end Verif.ChDispatch
