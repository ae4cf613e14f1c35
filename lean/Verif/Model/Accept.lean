/-!
# Accepting connections on listening sockets (session_server.c)

One call of `nc_sock_accept_binds` in one thread; the lock of the binds is held all the time.  System calls are parameters.  `none` is undefined behaviour
(reading after the end of the array).
-/

namespace Verif.Accept

/-- The part of `struct nc_bind` used here (src/session_p.h:312-317). -/
structure Bind where
  sock : Int
  pollin : Bool
  deriving DecidableEq, Repr

/-- What poll(2) reports for a socket: whether POLLIN is set, whether any other event is (src/session_server.c:563-564, 579). -/
structure Ev where
  pollin : Bool
  other : Bool
  deriving DecidableEq, Repr

/-- The first loop: the index of the first valid socket with a remembered event, or the sockets to poll (src/session_server.c:543-559). -/
def scan : List Bind → Nat → Nat ⊕ List Int
  | [], _ => .inr []
  | b :: bs, i =>
    if b.sock < 0 then scan bs (i + 1)
    else if b.pollin then .inl i
    else
      match scan bs (i + 1) with
      | .inl k => .inl k
      | .inr pfd => .inr (b.sock :: pfd)

/-- `while (binds[i].sock != pfd[j].fd) ++i` (src/session_server.c:575-577): the index found at or after the start of the given rest of the array. -/
def seek (fd : Int) : List Bind → Nat → Option Nat
  | [], _ => none
  | b :: bs, i => if b.sock = fd then some i else seek fd bs (i + 1)

/-- The second loop (src/session_server.c:573-591): remembers events in all sockets but the last one with an event; result: the binds and the index of the socket to use, if any. -/
def mark : List (Int × Ev) → Nat → Nat → List Bind → Option (List Bind × Option Nat)
  | [], _, _, binds => some (binds, none)
  | (fd, e) :: evs, i, ret, binds =>
    match seek fd (binds.drop i) i with
    | none => none
    | some k =>
      if e.pollin then
        if ret - 1 = 0 then some (binds, some k)
        else mark evs (k + 1) (ret - 1) (binds.modify k fun b => { b with pollin := true })
      else mark evs (k + 1) ret binds

/-- What is decided before accept(2) is called: waiting timed out, an error, or a socket by its index (src/session_server.c:561-600). -/
inductive Choice | timeout | error | at (i : Nat)
  deriving DecidableEq, Repr

/-- `nc_sock_accept_binds` up to accept(2) (src/session_server.c:527-600); `poll` gives the events of a socket, or fails for all (`none`). -/
def choose (poll : Option (Int → Ev)) (binds : List Bind) : Option (List Bind × Choice) :=
  match scan binds 0 with
  | .inl i => some (binds.modify i fun b => { b with pollin := false }, .at i)
  | .inr pfd =>
    match poll with
    | none => some (binds, .error)
    | some ev =>
      let evs := pfd.map fun fd => (fd, ev fd)
      let ret := evs.countP fun e => e.2.pollin || e.2.other
      if ret = 0 then some (binds, .timeout)
      else
        match mark evs 0 ret binds with
        | none => none
        | some (binds, none) => some (binds, .error)
        | some (binds, some i) => some (binds, .at i)

/-- A new listening socket for a bind, as `nc_server_set_address_port` sets it (src/session_server.c:2230-2233). -/
def relisten (i : Nat) (sock : Int) (binds : List Bind) : List Bind := binds.modify i fun b => { b with sock := sock }

end Verif.Accept
