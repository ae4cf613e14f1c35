/-!
# Arrays of configured objects (src/server_config.c, src/session_server.c)

Arrays are modelled with the memory behind the count: `slots` are the allocated cells, of which the first `cnt` are in use.
Objects on the heap are represented by numbers; freeing an object appends its number to a list.
-/

namespace Verif.Endpoints

/-- Transports of an endpoint (NC_TRANSPORT_IMPL, src/session.h). (src/session.h:87-96) -/
inductive Ti where
  | ssh
  | tls
  | unixSock
  deriving DecidableEq, Repr

/-- `struct nc_endpt` (src/session_p.h): the name, the heap data (`obj`: name and option structures), the transport, and the name of the
referenced endpoint together with the heap string holding it. (src/session_p.h:508-524) -/
structure Endpt where
  obj : Nat
  name : Nat
  ti : Ti
  ref : Option (Nat × Nat)
  deriving DecidableEq, Repr

/-- `server_opts.endpts`, `server_opts.binds` (one socket each, `none` for -1), `server_opts.endpt_count`, and what was released so far. (src/session_p.h:504-525) -/
structure Srv where
  endpts : List Endpt
  binds : List (Option Nat)
  cnt : Nat
  freedObj : List Nat
  freedStr : List Nat
  closed : List Nat
  deriving DecidableEq, Repr

/-- The initial state. (static `server_opts`, src/session_server.c:54-58) -/
def Srv.empty : Srv := ⟨[], [], 0, [], [], []⟩

/-- Creating an endpoint: both arrays are reallocated to `cnt + 1` cells, the new cells are zeroed and filled
(src/server_config.c:538-561, 1080-1112; src/session_server.c:2368-2405). -/
def create (s : Srv) (e : Endpt) (sock : Option Nat) : Srv :=
  { s with endpts := s.endpts.take s.cnt ++ [e], binds := s.binds.take s.cnt ++ [sock], cnt := s.cnt + 1 }

/-- The reference of one endpoint after deletion of `name` (src/server_config.c:676-688). -/
def dropRef (name : Nat) (e : Endpt) : Endpt :=
  match e.ref with
  | some (n, _) => if n = name then { e with ref := none } else e
  | none => e

/-- The string released for it. (src/server_config.c:676-688) -/
def dropRefStr (name : Nat) (e : Endpt) : List Nat :=
  match e.ref with
  | some (n, str) => if n = name then [str] else []
  | none => []

/-- `nc_server_config_del_endpt_references` (src/server_config.c:671-689), listening endpoints: only the first `cnt` cells are visited. -/
def delRefs (s : Srv) (name : Nat) : Srv :=
  { s with
    endpts := (s.endpts.take s.cnt).map (dropRef name) ++ s.endpts.drop s.cnt
    freedStr := s.freedStr ++ ((s.endpts.take s.cnt).map (dropRefStr name)).flatten }

/-- Shrinking both arrays (src/server_config.c:729-738, 862-871; src/session_server.c:2438-2447): the last cell in use replaces cell `i`. -/
def shrink (s : Srv) (i : Nat) : Srv :=
  let c := s.cnt - 1
  if c = 0 then { s with endpts := [], binds := [], cnt := 0 }
  else
    match s.endpts[c]?, s.binds[c]? with
    | some e, some b => { s with endpts := s.endpts.set i e, binds := s.binds.set i b, cnt := c }
    | _, _ => { s with cnt := c }

/-- The strings owned by an endpoint besides `obj`. (src/server_config.c:676-688, 719-727) -/
def refStr (e : Endpt) : List Nat :=
  match e.ref with
  | some (_, str) => [str]
  | none => []

/-- `nc_server_config_del_endpt_ssh` / `nc_server_config_del_endpt_tls` (src/server_config.c:719-739, 851-872) and
`_nc_server_del_endpt_unix_socket` (src/session_server.c:2432-2448, no references): `none` if cell `i` is not allocated. -/
def delAt (s : Srv) (i : Nat) : Option Srv :=
  match s.endpts[i]? with
  | none => none
  | some e0 =>
    let s1 := if e0.ti = .unixSock then s else delRefs s e0.name
    match s1.endpts[i]?, s1.binds[i]? with
    | some e, some b =>
      some (shrink
        { s1 with freedObj := s1.freedObj ++ [e.obj], freedStr := s1.freedStr ++ refStr e, closed := s1.closed ++ b.toList } i)
    | _, _ => none

/-- Deleting an endpoint by configuration (src/server_config.c:139-166, 1142-1167): the first endpoint of that name, UNIX
endpoints are left alone. -/
def delConf (s : Srv) (name : Nat) : Option Srv :=
  match (s.endpts.take s.cnt).findIdx? (fun e => e.name == name) with
  | none => some s
  | some i =>
    match s.endpts[i]? with
    | some e => if e.ti = .unixSock then some s else delAt s i
    | none => none

/-- `nc_server_del_endpt_unix_socket` (src/session_server.c:2451-2483). -/
def delUnix (s : Srv) (name : Nat) : Option Srv :=
  match (s.endpts.take s.cnt).findIdx? (fun e => e.name == name) with
  | none => some s
  | some i =>
    match s.endpts[i]? with
    | some e => if e.ti = .unixSock then delAt s i else some s
    | none => none

/-- The loop of `nc_server_config_listen` deleting everything (src/server_config.c:988-1007), `n` iterations from `i`. -/
def listenLoop (s : Srv) (i : Nat) : (n : Nat) → Option Srv
  | 0 => some s
  | n + 1 =>
    match s.endpts[i]? with
    | none => none
    | some e =>
      if e.ti = .unixSock then listenLoop s (i + 1) n
      else
        match delAt s i with
        | none => none
        | some s' => listenLoop s' (i + 1) n

/-- `nc_server_config_listen` with NC_OP_DELETE (src/server_config.c:978-1010). -/
def listenDelete (s : Srv) : Option Srv := listenLoop s 0 s.cnt

/-! ## Other arrays -/

/-- An array of heap objects: host keys, users, public keys, certificates (src/server_config.c:567-633, 742-755), Call Home clients. -/
structure Arr where
  slots : List Nat
  cnt : Nat
  freed : List Nat
  deriving DecidableEq, Repr

/-- `nc_server_config_realloc` (src/server_config.c:538-561). -/
def Arr.push (a : Arr) (x : Nat) : Arr := ⟨a.slots.take a.cnt ++ [x], a.cnt + 1, a.freed⟩

/-- `nc_server_config_del_hostkey`, `..._del_auth_client_pubkey`, `..._del_auth_client`, `..._del_cert`
(src/server_config.c:567-587, 589-602, 620-637, 742-755) and `nc_server_config_ch_del_client` (946-975): free the object of cell `i`,
move the last one in use to `i`. -/
def Arr.del (a : Arr) (i : Nat) : Option Arr :=
  match a.slots[i]? with
  | none => none
  | some x =>
    let c := a.cnt - 1
    if c = 0 then some ⟨[], 0, a.freed ++ [x]⟩
    else
      match a.slots[c]? with
      | some y => some ⟨if i ≠ c then a.slots.set i y else a.slots, c, a.freed ++ [x]⟩
      | none => none

/-- Deleting all of them (src/server_config.c:604-611, 650-658): `n` deletions at `i`, `i + 1`, … -/
def Arr.delLoop (a : Arr) (i : Nat) : (n : Nat) → Option Arr
  | 0 => some a
  | n + 1 =>
    match a.del i with
    | none => none
    | some a' => a'.delLoop (i + 1) n

/-- `nc_server_config_ch_del_endpt` (src/server_config.c:876-909): the object is freed and the count decremented, nothing is moved. -/
def Arr.chDel (a : Arr) (i : Nat) : Option Arr :=
  match a.slots[i]? with
  | none => none
  | some x =>
    let c := a.cnt - 1
    some ⟨if c = 0 then [] else a.slots, c, a.freed ++ [x]⟩

/-- The loop of `nc_server_config_destroy_ch_client` (src/server_config.c:938-941). -/
def Arr.chLoop (a : Arr) (i : Nat) : (n : Nat) → Option Arr
  | 0 => some a
  | n + 1 =>
    match a.chDel i with
    | none => none
    | some a' => a'.chLoop (i + 1) n

/-- The elements in use. (all loops run to the count, e.g. src/server_config.c:650-658) -/
def Arr.active (a : Arr) : List Nat := a.slots.take a.cnt

end Verif.Endpoints
