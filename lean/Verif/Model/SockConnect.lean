/-!
# Connecting to a host (src/session_client.c:1597-1798, src/session_server.c:2695-2709, 3121-3131)

Addresses are numbers. Sockets are numbered in the order in which they are opened; numbers are not used again, so that a use of a closed socket
is seen. What the operating system answers is a parameter. Waiting is left out: an answer to `poll` comes within the timeout, or it is a timeout.
-/

namespace Verif.SockConnect

/-- Outcome: undefined behaviour (a socket that is not open is used, an assertion fails) or a value (src/session_client.c:1612, 1659, 1671, 1704). -/
inductive Res (α : Type) where
  | ub
  | ok (a : α)
  deriving DecidableEq, Repr

/-- Open sockets with the address they were connected to, and the number of the next one (src/session_client.c:1620). -/
structure World where
  socks : List (Nat × Nat)
  next : Nat
  deriving DecidableEq, Repr

/-- What happens until the connection is started (src/session_client.c:1613-1652): the address is not printable, there is no socket, it cannot be made
non-blocking, reuse or binding fails, the connection is refused at once, it is under way or established. -/
inductive Setup where
  | noText
  | noSocket
  | noFlags
  | noBind
  | refused
  | started
  deriving DecidableEq, Repr

/-- What happens then (src/session_client.c:1659-1692): `poll` fails, nothing for the given time, the connection failed, keepalives cannot be set,
the connection is established. -/
inductive Wait where
  | pollError
  | timeout
  | sockError
  | noKeepalives
  | up
  deriving DecidableEq, Repr

/-- `close(fd)` (src/session_client.c:1671, 1704, 1792). -/
def close (w : World) (f : Nat) : Res World :=
  if w.socks.any (fun x => x.1 == f) then .ok { w with socks := w.socks.filter (fun x => !(x.1 == f)) } else .ub

/-- The label `cleanup` of `sock_connect` (src/session_client.c:1700-1705): `pend` is `none` if there is no `sock_pending`, then its value. -/
def cleanup (w : World) (pend : Option (Option Nat)) (f : Nat) : Res (World × Option (Option Nat) × Option Nat) :=
  match close w f with
  | .ub => .ub
  | .ok w' => .ok (w', pend.map (fun _ => none), none)

/-- `sock_connect` from `poll` on (src/session_client.c:1655-1705). -/
def waitSock (w : World) (pend : Option (Option Nat)) (f : Nat) (a : Wait) : Res (World × Option (Option Nat) × Option Nat) :=
  if w.socks.any (fun x => x.1 == f) then
    match a with
    | .pollError | .sockError | .noKeepalives => cleanup w pend f
    | .timeout =>
      match pend with
      | some _ => .ok (w, some (some f), none)
      | none =>
        match close w f with
        | .ub => .ub
        | .ok w' => .ok (w', none, none)
    | .up => .ok (w, pend.map (fun _ => none), some f)
  else .ub

/-- `sock_connect` (src/session_client.c:1597-1706): the world, the pending socket and the socket returned. -/
def sockConnect (w : World) (pend : Option (Option Nat)) (res : Option Nat) (s : Setup) (a : Wait) :
    Res (World × Option (Option Nat) × Option Nat) :=
  match pend with
  | some (some f) => waitSock w pend f a
  | _ =>
    match res with
    | none => .ub
    | some addr =>
      match s with
      | .noText | .noSocket => .ok (w, pend, none)
      | .noFlags | .noBind | .refused => cleanup ⟨w.socks ++ [(w.next, addr)], w.next + 1⟩ pend w.next
      | .started => waitSock ⟨w.socks ++ [(w.next, addr)], w.next + 1⟩ pend w.next a

/-- What is returned by `nc_sock_connect`: the world, the pending socket, the socket, and the address reported
(src/session_client.c:1708-1711). -/
structure Ret where
  w : World
  pend : Option (Option Nat)
  sock : Option Nat
  host : Option Nat
  deriving DecidableEq, Repr

/-- The label `error` (src/session_client.c:1787-1797). -/
def error (w : World) (pend : Option (Option Nat)) : Option Nat → Res Ret
  | none => .ok ⟨w, pend.map (fun _ => none), none, none⟩
  | some f =>
    match close w f with
    | .ub => .ub
    | .ok w' => .ok ⟨w', pend.map (fun _ => none), none, none⟩

/-- Answers for an address: until the connection is started, then, and whether the options and the text of a connected socket can be set
(src/session_client.c:1597-1706, 1755-1763). -/
structure Ans where
  setup : Setup
  wait : Wait
  post : Bool
  deriving DecidableEq, Repr

/-- The loop over the addresses (src/session_client.c:1737-1765). -/
def loop (w : World) (pend : Option (Option Nat)) : List (Nat × Ans) → Res Ret
  | [] => .ok ⟨w, pend, none, none⟩
  | (a, x) :: rest =>
    match sockConnect w pend (some a) x.setup x.wait with
    | .ub => .ub
    | .ok (w', p', none) =>
      match p' with
      | some (some _) => .ok ⟨w', p', none, none⟩
      | _ => loop w' p' rest
    | .ok (w', p', some f) => if x.post then .ok ⟨w', p', some f, some a⟩ else error w' p' (some f)

/-- The address at the other end of a socket (src/session_client.c:1774). -/
def peer (w : World) (f : Nat) : Option Nat := (w.socks.find? (fun x => x.1 == f)).map Prod.snd

/-- `nc_sock_connect` (src/session_client.c:1708-1798): `addrs` are the results of `getaddrinfo`, if it succeeds, with the answers for them; `pa` are the
answers for the pending socket. -/
def connect (w : World) (pend : Option (Option Nat)) (addrs : Option (List (Nat × Ans))) (pa : Wait × Bool) : Res Ret :=
  match pend with
  | some (some _) =>
    match sockConnect w pend none .started pa.1 with
    | .ub => .ub
    | .ok (w', p', none) => .ok ⟨w', p', none, none⟩
    | .ok (w', p', some f) =>
      if f = 0 then .ok ⟨w', p', some f, none⟩
      else if pa.2 then .ok ⟨w', p', some f, peer w' f⟩
      else error w' p' (some f)
  | _ =>
    match addrs with
    | none => error w pend none
    | some l => loop w pend l

/-! ## Attempts of a Call Home endpoint -/

/-- An attempt of the thread: the addresses of the configured host with the answers, those for a pending socket, and whether it is the last one
allowed, after which a pending socket is closed (src/session_server.c:2705-2709, 3121-3131). -/
structure Attempt where
  addrs : Option (List (Nat × Ans))
  pend : Wait × Bool
  last : Bool
  deriving DecidableEq, Repr

/-- One attempt (src/session_server.c:2705-2709, 3121-3131): the world, the pending socket of the endpoint, the address connected to. A
connection that is established belongs to a session then and is left out of the world. -/
def attempt (w : World) (p : Option Nat) (a : Attempt) : Res (World × Option Nat × Option Nat) :=
  match connect w (some p) a.addrs a.pend with
  | .ub => .ub
  | .ok r =>
    match r.sock with
    | some f =>
      match close r.w f with
      | .ub => .ub
      | .ok w' => .ok (w', r.pend.getD none, peer r.w f)
    | none =>
      match a.last, r.pend.getD none with
      | true, some f =>
        match close r.w f with
        | .ub => .ub
        | .ok w' => .ok (w', none, none)
      | _, p' => .ok (r.w, p', none)

/-- Attempts, one after another (src/session_server.c:3011-3150): the addresses connected to. -/
def attempts (w : World) (p : Option Nat) : List Attempt → Res (World × Option Nat × List (Option Nat))
  | [] => .ok (w, p, [])
  | a :: as =>
    match attempt w p a with
    | .ub => .ub
    | .ok (w', p', x) =>
      match attempts w' p' as with
      | .ub => .ub
      | .ok (w2, p2, xs) => .ok (w2, p2, x :: xs)

end Verif.SockConnect
