/-!
# UNIX sockets and the passwd database (src/session_server.c, src/session_client.c, src/io.c)

Paths are lists of bytes without null bytes, and two different paths are different files (no links). Sockets are numbered in the order in which
they are opened; numbers are not used again. The file system is changed only by the calls that are modelled. What the operating system answers
is a parameter.
-/

namespace Verif.UnixSock

/-- A path of the file system as bytes (src/session_server.c:403). -/
abbrev Path := List Nat

/-- A file: the socket that was bound to it, if it is a socket, and its mode and owners (src/session_server.c:406-423). -/
structure Node where
  sock : Option Nat
  mode : Nat
  uid : Nat
  gid : Nat
  deriving DecidableEq, Repr

/-- Files, open sockets, listening sockets and the number of the next one (src/session_server.c:395-428). -/
structure World where
  fs : Path → Option Node
  fds : List Nat
  lis : List Nat
  next : Nat

/-- Which calls the operating system grants, and the mode and owners of a new file (src/session_server.c:395-428). -/
structure Env where
  socketOk : Bool
  unlinkOk : Bool
  bindOk : Bool
  chmodOk : Bool
  chownOk : Bool
  listenOk : Bool
  mode : Nat
  uid : Nat
  gid : Nat
  deriving DecidableEq, Repr

/-- `struct nc_server_unix_opts` (src/session_p.h:302-307); `none` is the value -1. -/
structure Opts where
  address : Path
  mode : Option Nat
  uid : Option Nat
  gid : Option Nat
  deriving DecidableEq, Repr

/-- A changed file (src/session_server.c:405-423). -/
def upd (fs : Path → Option Node) (p : Path) (n : Option Node) : Path → Option Node := fun q => if q = p then n else fs q

/-- `socket` (src/session_server.c:395). -/
def socket (w : World) : World := { w with fds := w.next :: w.fds, next := w.next + 1 }

/-- `close` (src/session_server.c:434, 2422). -/
def close (w : World) (f : Nat) : World := { w with fds := w.fds.filter (fun x => !(x == f)), lis := w.lis.filter (fun x => !(x == f)) }

/-- `unlink` (src/session_server.c:405, 2425). -/
def unlink (e : Env) (w : World) (p : Path) : World := if e.unlinkOk then { w with fs := upd w.fs p none } else w

/-- `bind` (src/session_server.c:406): it fails if there is such a file. -/
def bind (e : Env) (w : World) (f : Nat) (p : Path) : Option World :=
  if e.bindOk then
    match w.fs p with
    | none => some { w with fs := upd w.fs p (some ⟨some f, e.mode, e.uid, e.gid⟩) }
    | some _ => none
  else none

/-- `chmod`, if there is a mode to set (src/session_server.c:411-416). -/
def chmod (e : Env) (w : World) (p : Path) (mode : Option Nat) : World :=
  match w.fs p, mode with
  | some n, some m => if e.chmodOk then { w with fs := upd w.fs p (some { n with mode := m }) } else w
  | _, _ => w

/-- `chown`, -1 leaves an owner as it is (src/session_server.c:418-423). -/
def chown (e : Env) (w : World) (p : Path) (uid gid : Option Nat) : World :=
  match w.fs p with
  | some n =>
    if (uid.isSome || gid.isSome) && e.chownOk then
      { w with fs := upd w.fs p (some { n with uid := uid.getD n.uid, gid := gid.getD n.gid }) }
    else w
  | none => w

/-- `listen` (src/session_server.c:425). -/
def listen (w : World) (f : Nat) : World := { w with lis := f :: w.lis }

/-- `snprintf` into an array of `size` bytes (src/session_server.c:403, src/session_client.c:1487). -/
def snprintf (size : Nat) (a : Path) : Path := a.take (size - 1)

/-- `sizeof(sun.sun_path)` (src/session_server.c:390). -/
def sunPathSize : Nat := 108

/-- Result of `nc_sock_listen_unix`: the socket, the world, and the worlds after its calls one by one (src/session_server.c:384-437). -/
structure Out where
  sock : Option Nat
  w : World
  hist : List World

/-- The label `fail` with an open socket (src/session_server.c:432-436). -/
def failClose (w : World) (f : Nat) (hist : List World) : Out := ⟨none, close w f, hist ++ [close w f]⟩

/-- `nc_sock_listen_unix` from a bound socket on (src/session_server.c:411-436). -/
def listenBound (e : Env) (o : Opts) (w3 : World) (f : Nat) (p : Path) (hist : List World) : Out :=
  if o.mode.isSome && !e.chmodOk then failClose w3 f (hist ++ [w3])
  else
    let w4 := chmod e w3 p o.mode
    if (o.uid.isSome || o.gid.isSome) && !e.chownOk then failClose w4 f (hist ++ [w3, w4])
    else
      let w5 := chown e w4 p o.uid o.gid
      if !e.listenOk then failClose w5 f (hist ++ [w3, w4, w5])
      else ⟨some f, listen w5 f, hist ++ [w3, w4, w5, listen w5 f]⟩

/-- `nc_sock_listen_unix` (src/session_server.c:384-437). The size given to `snprintf` is `sizeof(sun.sun_path) - 1`. -/
def listenUnix (e : Env) (o : Opts) (w : World) : Out :=
  if sunPathSize - 1 < o.address.length then ⟨none, w, []⟩
  else if !e.socketOk then ⟨none, w, []⟩
  else
    let p := snprintf (sunPathSize - 1) o.address
    let w1 := socket w
    let w2 := unlink e w1 p
    match bind e w2 w.next p with
    | none => failClose w2 w.next [w1, w2]
    | some w3 => listenBound e o w3 w.next p [w1, w2]

/-! ## Endpoints -/

/-- A UNIX endpoint with its bind (src/session_server.c:2376-2405); no socket is -1. -/
structure Endpt where
  name : Nat
  path : Path
  sock : Option Nat
  deriving DecidableEq, Repr

/-- The endpoints (src/session_p.h:506-525) and the world; of the endpoints with other transports only the names. -/
structure Srv where
  w : World
  endpts : List Endpt
  others : List Nat

/-- `nc_server_add_endpt_unix_socket_listen` with enough memory (src/session_server.c:2349-2416), `nc_server_set_address_port` (2197-2258)
included: whether it succeeds, and the server. An endpoint whose socket does not listen stays in the array. -/
def add (e : Env) (name : Nat) (o : Opts) (s : Srv) : Bool × Srv :=
  if s.endpts.any (fun x => x.name == name) || s.others.contains name then (false, s)
  else
    let r := listenUnix e o s.w
    (r.sock.isSome, { s with w := r.w, endpts := s.endpts ++ [⟨name, o.address, r.sock⟩] })

/-- `nc_server_del_endpt_unix_socket_opts` (src/session_server.c:2418-2430). -/
def delOpts (e : Env) (w : World) (x : Endpt) : World :=
  match x.sock with
  | some f => unlink e (close w f) x.path
  | none => unlink e w x.path

/-- `nc_server_del_endpt_unix_socket` (src/session_server.c:2432-2483); the order in the array is left out. -/
def del (e : Env) (name : Nat) (s : Srv) : Srv :=
  match s.endpts.find? (fun x => x.name == name) with
  | none => s
  | some x => { s with w := delOpts e s.w x, endpts := s.endpts.filter (fun y => !(y.name == name)) }

/-- A call of the application (src/session_server.c:2349, 2451) with what the operating system grants. -/
inductive Call where
  | add (e : Env) (name : Nat) (o : Opts)
  | del (e : Env) (name : Nat)

/-- One call (src/session_server.c:2349, 2451). -/
def Call.run (s : Srv) : Call → Srv
  | .add e name o => (UnixSock.add e name o s).2
  | .del e name => UnixSock.del e name s

/-! ## Clients -/

/-- `connect` (src/session_client.c:1489): the socket reached. -/
def connect (w : World) (p : Path) : Option Nat :=
  match w.fs p with
  | some n =>
    match n.sock with
    | some f => if w.fds.contains f && w.lis.contains f then some f else none
    | none => none
  | none => none

/-- The connection of `nc_connect_unix` (src/session_client.c:1477-1492, 1514): the socket reached and the path of the session. -/
def connectUnix (w : World) (address : Path) : Option (Nat × Path) :=
  (connect w (snprintf sunPathSize address)).map (fun f => (f, address))

/-! ## Users -/

/-- A name (src/io.c:1098). -/
abbrev Name := List Char

/-- What the passwd database has for a key (src/io.c:1118-1123): size of the buffer needed to look it up, the entry, and whether looking it up fails. -/
structure Db where
  need : Nat
  entry : Option Name
  err : Bool
  deriving DecidableEq, Repr

/-- The answer with a large enough buffer (src/io.c:1119-1132). -/
def Db.answer (d : Db) : Option Name := if d.err then none else d.entry

/-- By how much the buffer grows (src/io.c:1111). -/
def pwStep : Nat := 2048

/-- The loop of `nc_getpw` (src/io.c:1104-1124) with the size of this iteration: the name, and whether `buf` is allocated. -/
def getpwLoop (alloc : Nat → Bool) (d : Db) (size : Nat) : Option Name × Bool :=
  if !alloc size then (none, false)
  else if size < d.need then getpwLoop alloc d (size + pwStep)
  else (d.answer, true)
termination_by d.need - size
decreasing_by
  have h : 0 < pwStep := by unfold pwStep; exact Nat.succ_pos 2047
  omega

/-- `nc_getpw` with an empty buffer (src/io.c:1097-1133); `sys` is the value of `sysconf`, `none` for -1 (it is assumed not to be 0). -/
def getpw (alloc : Nat → Bool) (sys : Option Nat) (d : Db) : Option Name × Bool := getpwLoop alloc d (sys.getD 2048)

/-- The loop of `nc_server_ssh_getpwnam` and `nc_server_ssh_getspnam` (src/session_server_ssh.c:489-506, 527-549). A size of 0 would never grow,
but the only caller begins with 256. -/
def retryLoop (alloc : Nat → Bool) (d : Db) (size : Nat) : Option Name :=
  if 0 < size ∧ size < d.need then
    if alloc (size * 4) then retryLoop alloc d (size * 4) else none
  else d.answer
termination_by d.need - size

/-- `nc_server_ssh_getpwnam`, `nc_server_ssh_getspnam` as called by `nc_server_ssh_get_pwd_hash` (src/session_server_ssh.c:482-552, 566-571). -/
def getpwnam (alloc : Nat → Bool) (d : Db) : Option Name := retryLoop alloc d 256

/-- Result of `nc_accept_unix_session` (src/session_server.c:2305-2347): the user of the session if accepted, whether the socket is open, and
whether a buffer was not freed. -/
structure Accepted where
  user : Option Name
  sockOpen : Bool
  leak : Bool
  deriving DecidableEq, Repr

/-- `nc_accept_unix_session` with SO_PEERCRED (src/session_server.c:2305-2347): `peer` is the UID of the client, `none` if it cannot be learned,
`dup` whether there is memory for the name. -/
def acceptUnix (alloc : Nat → Bool) (dup : Bool) (sys : Option Nat) (db : Nat → Db) (peer : Option Nat) : Accepted :=
  match peer with
  | none => ⟨none, false, false⟩
  | some uid =>
    match getpw alloc sys (db uid) with
    | (none, buf) => ⟨none, false, buf⟩
    | (some n, _) => if dup then ⟨some n, true, false⟩ else ⟨none, false, false⟩

end Verif.UnixSock
