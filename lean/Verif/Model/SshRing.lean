/-!
# NETCONF sessions sharing one SSH connection (src/session.c:752-813, src/session_client_ssh.c:1872-1933, src/session_server_ssh.c:1404-1427)

The sessions of one connection form a ring list by `ti.libssh.next` (NULL for a single one).  They share the SSH session and the IO lock.
-/

namespace Verif.SshRing

/-- Session states as far as the ring code tells them apart: STARTING or another one (src/session.c:766). -/
inductive Status | starting | other
  deriving DecidableEq, Repr

/-- What the ring code uses of a session structure (src/session_p.h:700-716). -/
structure Node where
  status : Status
  next : Option Nat
  deriving DecidableEq, Repr

/-- Memory: `none` is freed (or never allocated) memory. (src/session_p.h:675-716) -/
abbrev Mem := Nat → Option Node

/-- The connection: its sessions, the number of times its SSH session was freed (`ssh_free`), the sessions freed in order, and whether the IO lock
is held. (src/session.c:752-813) -/
structure Conn where
  mem : Mem
  closed : Nat
  freed : List Nat
  locked : Bool

/-- Assignment in memory. (src/session.c:802, 805) -/
def upd (m : Mem) (a : Nat) (n : Option Node) : Mem := fun b => if b = a then n else m b

/-- `x->ti.libssh.next`; reading freed memory is `none` (undefined). (src/session.c:765) -/
def nextOf (m : Mem) (a : Nat) : Option (Option Nat) := (m a).map (·.next)

/-- The loop looking for another session that is not starting (src/session.c:765-770); the fuel is the number of iterations allowed. `none`: undefined or too
many iterations. -/
def scan (m : Mem) (s : Nat) : Nat → Nat → Option Bool
  | 0, _ => none
  | fuel + 1, a =>
    if a = s then some false
    else match m a with
      | none => none
      | some n => if n.status ≠ .starting then some true
        else match n.next with
          | none => none
          | some b => scan m s fuel b

/-- The loop freeing starting sessions (src/session.c:776-788): `do … while (session->next != session)`. -/
def freeStarting (s : Nat) : Nat → Mem → List Nat → Option (Mem × List Nat)
  | 0, _, _ => none
  | fuel + 1, m, fr =>
    match m s with
    | some ⟨st, some a⟩ =>
      match m a with
      | some ⟨_, some b⟩ =>
        let m' := upd (upd m s (some ⟨st, some b⟩)) a none
        if b ≠ s then freeStarting s fuel m' (fr ++ [a]) else some (m', fr ++ [a])
      | _ => none
    | _ => none

/-- The loop finding the predecessor (src/session.c:799). -/
def findPrev (m : Mem) (s : Nat) : Nat → Nat → Option Nat
  | 0, _ => none
  | fuel + 1, a =>
    match m a with
    | some ⟨_, some b⟩ => if b = s then some a else findPrev m s fuel b
    | _ => none

/-- `nc_session_free` of a session of an SSH connection, reduced to `nc_session_free_transport` and the final free (src/session.c:752-813, 1021).  If the IO lock is held by this
thread, locking fails after a timeout and the function goes on (src/session.c:762, 810-812). `fuel` bounds the loops. -/
def free (fuel s : Nat) (c : Conn) : Option Conn :=
  match c.mem s with
  | none => none
  | some ⟨_, nx⟩ =>
    match (match nx with | none => some false | some a => scan c.mem s fuel a) with
    | none => none
    | some false =>
      match nx with
      | none => some { c with mem := upd c.mem s none, closed := c.closed + 1, freed := c.freed ++ [s] }
      | some _ =>
        match freeStarting s fuel c.mem c.freed with
        | none => none
        | some (m, fr) => some { c with mem := upd m s none, closed := c.closed + 1, freed := fr ++ [s] }
    | some true =>
      match nx with
      | none => none
      | some a =>
        match findPrev c.mem s fuel a with
        | none => none
        | some p =>
          match c.mem p with
          | none => none
          | some ⟨pst, _⟩ =>
            let m := upd c.mem p (some ⟨pst, if a = p then none else some a⟩)
            some { c with mem := upd m s none, freed := c.freed ++ [s] }

/-- Insertion of a new session after `s` (src/session_client_ssh.c:1889-1897, src/session_server_ssh.c:1410-1415). -/
def insert (s new : Nat) (c : Conn) : Option Conn :=
  match c.mem s with
  | none => none
  | some ⟨st, nx⟩ =>
    let back := match nx with | none => s | some a => a
    some { c with mem := upd (upd c.mem s (some ⟨st, some new⟩)) new (some ⟨.starting, some back⟩) }

/-- Change of the state of a session (src/session_client_ssh.c:1917, src/session_server_ssh.c:2061). -/
def setStatus (s : Nat) (st : Status) (c : Conn) : Option Conn :=
  match c.mem s with
  | none => none
  | some ⟨_, nx⟩ => some { c with mem := upd c.mem s (some ⟨st, nx⟩) }

/-- Operations on the sessions of one connection. (src/session.c:752, src/session_client_ssh.c:1889, src/session_server_ssh.c:1410) -/
inductive Op | insert (s new : Nat) | setStatus (s : Nat) (st : Status) | free (s : Nat)
  deriving DecidableEq, Repr

/-- One operation. (src/session.c:752, src/session_client_ssh.c:1889, src/session_server_ssh.c:1410) -/
def step (fuel : Nat) (c : Conn) : Op → Option Conn
  | .insert s new => insert s new c
  | .setStatus s st => setStatus s st c
  | .free s => free fuel s c

/-- A sequence of operations; `none`: one was undefined. (src/session.c:752, src/session_client_ssh.c:1889, src/session_server_ssh.c:1410) -/
def run (fuel : Nat) : List Op → Conn → Option Conn
  | [], c => some c
  | o :: os, c => match step fuel c o with
    | none => none
    | some c' => run fuel os c'

/-- A connection with its first session 0, still starting. (src/session_server.c:2528-2536) -/
def init : Conn := ⟨upd (fun _ => none) 0 (some ⟨.starting, none⟩), 0, [], false⟩

/-! ## Opening another channel in a client -/

/-- What the parts of `nc_connect_ssh_channel` meet: whether the channel with its subsystem is opened, the context is created, the hello messages are exchanged and the context is
filled (src/session_client_ssh.c:1903-1923). -/
structure ChanEnv where
  opened : Bool
  ctx : Bool
  hello : Bool
  filled : Bool
  deriving DecidableEq, Repr

/-- Results of `nc_connect_ssh_channel`: a session, NULL, or waiting for the IO lock for ever (src/session_client_ssh.c:1899-1932). -/
inductive ChanRes | session (c : Conn) | null (c : Conn) | hang

/-- `nc_connect_ssh_channel` (src/session_client_ssh.c:1872-1933) in one thread; `none` is undefined behaviour.  Simplification: the memory of the new session is at a fresh address. -/
def connectChannel (fuel : Nat) (e : ChanEnv) (s new : Nat) (c : Conn) : Option ChanRes :=
  match insert s new c with
  | none => none
  | some c1 =>
    if c1.locked then some .hang
    else
      let c2 := { c1 with locked := true }
      if !e.opened then (free fuel new c2).map .null
      else
        let c3 := { c2 with locked := false }
        if !e.ctx then (free fuel new c3).map .null
        else if !e.hello then (free fuel new c3).map .null
        else
          match setStatus new .other c3 with
          | none => none
          | some c4 => if !e.filled then (free fuel new c4).map .null else some (.session c4)

/-- Whether an RPC can be sent or a reply received on a session of the connection: the IO lock can be taken (src/io.c:870-876, 500-503). -/
def usable (c : Conn) (s : Nat) : Bool := (c.mem s).isSome && !c.locked

end Verif.SshRing
