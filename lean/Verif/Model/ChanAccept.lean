/-!
# Accepting further channels of one SSH connection (src/session_server_ssh.c:1404-1427, 2015-2127, src/session.c:752-813)

The sessions of one connection, in the order of their ring, and what the application was given and has freed. `Model/SshRing` has the pointers of the ring; here it is a list.
Sessions are numbered in the order in which they are made; 0 is the one of `nc_accept`.

Simplified: a session of the ring other than 0 always has a channel and the flag `NC_SESSION_SSH_SUBSYS_NETCONF` (src/session_server_ssh.c:1420-1426), so that the
search looks at the status only.
-/

namespace Verif.ChanAccept

/-- `session->status` (src/session.h:76-82). -/
inductive Status where
  | starting
  | running
  | invalid
  deriving DecidableEq, Repr

/-- One session of the ring (src/session_server_ssh.c:1406-1426). -/
structure Sess where
  id : Nat
  status : Status
  deriving DecidableEq, Repr

/-- The connection (src/session.c:757-807): the ring, the number of sessions made, the sessions given to the application and freed by it or with the connection, and whether the
connection is closed. -/
structure Conn where
  ring : List Sess
  next : Nat
  given : List Nat
  freed : List Nat
  closed : Bool
  deriving DecidableEq, Repr

/-- `nc_accept` has returned the first session of the connection (src/session_server_ssh.c:1790). -/
def Conn.start : Conn := ⟨[⟨0, .running⟩], 1, [0], [], false⟩

/-- The sessions from the one after `x` round the ring to the one before it (src/session_server_ssh.c:2026-2028). -/
def after (l : List Sess) (x : Nat) : List Sess := (l.dropWhile fun y => y.id ≠ x).tail ++ l.takeWhile fun y => y.id ≠ x

/-- Whether `x` is a running session of the ring (src/session_server_ssh.c:2024). -/
def runs (l : List Sess) (x : Nat) : Bool := l.any fun y => decide (y = ⟨x, .running⟩)

/-- The request for the subsystem on a new channel, taken from a message by the poll of `x` (src/session_server_ssh.c:1404-1427): a new session right after `x`. -/
def request (c : Conn) (x : Nat) : Conn :=
  if runs c.ring x then
    { c with ring := c.ring.flatMap fun y => if y.id = x then [y, ⟨c.next, .starting⟩] else [y], next := c.next + 1 }
  else c

/-- How the handshake ends (src/session_server_ssh.c:2049-2052, src/session.c:1472-1536): with the messages exchanged, with an error that leaves the session as it is (a message that
cannot be read as one, or none in time), or with one of the connection that makes it invalid (src/io.c:119). -/
inductive Outcome where
  | hello
  | kept
  | broken
  deriving DecidableEq, Repr

/-- Result of accepting a channel: none is ready, the handshake of that session failed, that session is given (src/session_server_ssh.c:2040-2061). -/
inductive Res where
  | notReady
  | failed (i : Nat)
  | given (i : Nat)
  deriving DecidableEq, Repr

/-- The session to accept (src/session_server_ssh.c:2080-2100; with one session 2024-2038): the first one that is starting after the first of the polled sessions that is running and
has one in its ring. -/
def pick (l : List Sess) : List Nat → Option Nat
  | [] => none
  | x :: xs =>
    match (if runs l x then (after l x).find? fun y => decide (y.status = .starting) else none) with
    | some y => some y.id
    | none => pick l xs

/-- A session of the ring gets a status (src/session_server_ssh.c:2058). -/
def setStatus (l : List Sess) (i : Nat) (st : Status) : List Sess := l.map fun y => if y.id = i then { y with status := st } else y

/-- `nc_ps_accept_ssh_channel` with these sessions polled, `nc_session_accept_ssh_channel` with one (src/session_server_ssh.c:2015-2127). -/
def accept (c : Conn) (xs : List Nat) (o : Outcome) : Conn × Res :=
  match pick c.ring xs with
  | none => (c, .notReady)
  | some i =>
    match o with
    | .hello => ({ c with ring := setStatus c.ring i .running, given := c.given ++ [i] }, .given i)
    | .kept => (c, .failed i)
    | .broken => ({ c with ring := setStatus c.ring i .invalid }, .failed i)

/-- The part of an accept after the search, when the lock of the polled sessions is released already (src/session_server_ssh.c:2102-2126; 2045-2061). -/
def acceptEnd (c : Conn) (i : Nat) : Outcome → Conn × Res
  | .hello => ({ c with ring := setStatus c.ring i .running, given := c.given ++ [i] }, .given i)
  | .kept => (c, .failed i)
  | .broken => ({ c with ring := setStatus c.ring i .invalid }, .failed i)

/-- `nc_session_free` by the application of a session it was given (src/session.c:752-813): if all others are starting, they are freed and the connection is closed. -/
def free (c : Conn) (x : Nat) : Conn :=
  if x ∈ c.given ∧ x ∉ c.freed then
    let others := c.ring.filter fun y => y.id ≠ x
    if others.all fun y => decide (y.status = .starting) then
      { c with ring := [], freed := c.freed ++ x :: others.map (·.id), closed := true }
    else { c with ring := others, freed := c.freed ++ [x] }
  else c

/-- What happens to the connection (src/session_server_ssh.c:1404-1427, 2015-2127, src/session.c:752-813); `invalid`: a session the application was given ends. -/
inductive Ev where
  | request (x : Nat)
  | accept (xs : List Nat) (o : Outcome)
  | invalid (x : Nat)
  | free (x : Nat)
  deriving DecidableEq, Repr

/-- One event (src/session_server_ssh.c:1404-1427, 2015-2127, src/session.c:752-813). -/
def step (c : Conn) : Ev → Conn
  | .request x => request c x
  | .accept xs o => (accept c xs o).1
  | .invalid x => if runs c.ring x then { c with ring := setStatus c.ring x .invalid } else c
  | .free x => free c x

/-- Events in their order (src/session_server_ssh.c:1404-1427, 2015-2127, src/session.c:752-813). -/
def run (c : Conn) (h : List Ev) : Conn := h.foldl step c

end Verif.ChanAccept
