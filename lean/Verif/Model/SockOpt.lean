import Verif.Model.Accept
import Verif.Model.ConfEndpt

/-!
# Options of the sockets of sessions

Which options the socket has that is given to a transport: connections accepted by the server and by a client that is called (src/session_server.c:330-376,
527-658, 2518-2529; src/session_client.c:1906-1918), connections of a client and of Call Home (src/session_client.c:1597-1798; src/session_server.c:2705-2709),
TCP keepalives (src/session.c:209-249).

What is simplified: a socket is its options; the sockets themselves (closed, leaked, used again) are in `Model.SockConnect`. What the operating system answers is a
parameter, also which options a new socket has. A socket that is accepted has the options of the listening one and is blocking, as on Linux. Only TCP sockets.
-/

namespace Verif.SockOpt
open Verif.ConfEndpt (Ka)

/-- Options of a socket: O_NONBLOCK, TCP_NODELAY, SO_KEEPALIVE, TCP_KEEPIDLE, TCP_KEEPCNT, TCP_KEEPINTVL (src/session.c:214-246; src/session_client.c:1626,
1756; src/session_server.c:354, 611). -/
structure Opts where
  nonblock : Bool
  nodelay : Bool
  alive : Bool
  idle : Nat
  cnt : Nat
  intvl : Nat
  deriving DecidableEq, Repr

/-- Whether the calls that set keepalives succeed (src/session.c:215, 225, 233, 241). -/
structure KaAns where
  alive : Bool
  idle : Bool
  cnt : Bool
  intvl : Bool
  deriving DecidableEq, Repr

/-- `nc_sock_configure_ka` (src/session.c:209-249): the options afterwards and whether it succeeds. -/
def configureKa (k : Ka) (a : KaAns) (o : Opts) : Opts × Bool :=
  if !a.alive then (o, false)
  else
    let o := { o with alive := k.enabled }
    if !k.enabled then (o, true)
    else if !a.idle then (o, false)
    else
      let o := { o with idle := k.idle }
      if !a.cnt then (o, false)
      else
        let o := { o with cnt := k.probes }
        if !a.intvl then (o, false)
        else ({ o with intvl := k.interval }, true)

/-! ## Accepting -/

/-- Whether the calls of `nc_sock_listen_inet` succeed (src/session_server.c:342-369). -/
structure ListenAns where
  socket : Bool
  reuse : Bool
  nodelay : Bool
  bind : Bool
  listen : Bool
  deriving DecidableEq, Repr

/-- `nc_sock_listen_inet` (src/session_server.c:330-376): the options of the listening socket; `new` are those of a new one. -/
def listenInet (new : Opts) (a : ListenAns) : Option Opts :=
  if !a.socket then none
  else if !a.reuse then none
  else if !a.nodelay then none
  else
    let o := { new with nodelay := true }
    if !a.bind then none else if !a.listen then none else some o

/-- Whether accepting, making the socket non-blocking and learning the other end succeed (src/session_server.c:602-636). -/
structure AcceptAns where
  accept : Bool
  flags : Bool
  host : Bool
  deriving DecidableEq, Repr

/-- `nc_sock_accept_binds` (src/session_server.c:527-658): the binds afterwards, the index returned and the options of the socket; `lst` are the options of
the listening sockets. `none` is undefined behaviour. -/
def acceptBinds (poll : Option (Int → Accept.Ev)) (lst : Int → Opts) (a : AcceptAns) (binds : List Accept.Bind) :
    Option (List Accept.Bind × Option (Nat × Opts)) :=
  match Accept.choose poll binds with
  | none => none
  | some (bs, .at i) =>
    match bs[i]? with
    | none => none
    | some b =>
      if !a.accept then some (bs, none)
      else
        let o := { lst b.sock with nonblock := false }
        if !a.flags then some (bs, none)
        else
          let o := { o with nonblock := true }
          if !a.host then some (bs, none) else some (bs, some (i, o))
  | some (bs, _) => some (bs, none)

/-- `nc_accept` up to the transport (src/session_server.c:2512-2529): the endpoint by its index, the options of its socket; `kas` are the keepalives of the
endpoints. -/
def accept (poll : Option (Int → Accept.Ev)) (lst : Int → Opts) (a : AcceptAns) (ka : KaAns) (kas : List Ka) (binds : List Accept.Bind) :
    Option (List Accept.Bind × Option (Nat × Opts)) :=
  if kas.isEmpty then some (binds, none)
  else
    match acceptBinds poll lst a binds with
    | none => none
    | some (bs, none) => some (bs, none)
    | some (bs, some (i, o)) =>
      match kas[i]? with
      | none => none
      | some k =>
        match configureKa k ka o with
        | (o', true) => some (bs, some (i, o'))
        | (_, false) => some (bs, none)

/-- Whose settings a thread of a client uses: those of the main thread or its own, as long as it does not take those of another one
(src/session_client.c:149-195, 205-226). -/
inductive Ctx where
  | main
  | own
  deriving DecidableEq, Repr

/-- The keepalives of a client: those of the main thread are initialised, others are zero (src/session_client.c:69-75, 165-167); no function changes them. -/
def Ctx.ka : Ctx → Ka
  | .main => ⟨true, 1, 10, 5⟩
  | .own => ⟨false, 0, 0, 0⟩

/-- `nc_accept_callhome` up to the transport (src/session_client.c:1906-1918). -/
def acceptCallhome (c : Ctx) (poll : Option (Int → Accept.Ev)) (lst : Int → Opts) (a : AcceptAns) (ka : KaAns) (binds : List Accept.Bind) :
    Option (List Accept.Bind × Option (Nat × Opts)) :=
  match acceptBinds poll lst a binds with
  | none => none
  | some (bs, none) => some (bs, none)
  | some (bs, some (i, o)) =>
    match configureKa c.ka ka o with
    | (o', true) => some (bs, some (i, o'))
    | (_, false) => some (bs, none)

/-! ## Connecting -/

/-- What `poll` says about the connection (src/session_client.c:1659-1687): it fails, nothing for the given time, the connection failed, it is established. -/
inductive Wait where
  | error
  | timeout
  | failed
  | up
  deriving DecidableEq, Repr

/-- Answers for an address (src/session_client.c:1613-1692, 1756-1763): until the connection is started (making the socket non-blocking apart), waiting,
keepalives, TCP_NODELAY, the text of the address. -/
structure Ans where
  socket : Bool
  flags : Bool
  start : Bool
  wait : Wait
  ka : KaAns
  nodelay : Bool
  text : Bool
  deriving DecidableEq, Repr

/-- Answers for a pending socket (src/session_client.c:1659-1692, 1774-1781): waiting, keepalives, the other end. -/
structure PendAns where
  wait : Wait
  ka : KaAns
  host : Bool
  deriving DecidableEq, Repr

/-- What comes of an attempt: nothing, a socket that is kept for the next attempt, a connection (src/session_client.c:1664-1705). -/
inductive Out where
  | failed
  | pending (o : Opts)
  | conn (o : Opts)
  deriving DecidableEq, Repr

/-- `sock_connect` from `poll` on (src/session_client.c:1655-1705); `keep` tells that there is a `sock_pending`. -/
def waitSock (keep : Bool) (k : Ka) (w : Wait) (ka : KaAns) (o : Opts) : Out :=
  match w with
  | .error | .failed => .failed
  | .timeout => if keep then .pending o else .failed
  | .up =>
    match configureKa k ka o with
    | (o', true) => .conn o'
    | (_, false) => .failed

/-- `sock_connect` for an address (src/session_client.c:1597-1705). -/
def sockConnect (new : Opts) (keep : Bool) (k : Ka) (a : Ans) : Out :=
  if !a.socket then .failed
  else if !a.flags then .failed
  else
    let o := { new with nonblock := true }
    if !a.start then .failed else waitSock keep k a.wait a.ka o

/-- The loop over the addresses (src/session_client.c:1737-1765). -/
def loop (new : Opts) (keep : Bool) (k : Ka) : List Ans → Out
  | [] => .failed
  | a :: as =>
    match sockConnect new keep k a with
    | .failed => loop new keep k as
    | .pending o => .pending o
    | .conn o => if !a.nodelay then .failed else if !a.text then .failed else .conn { o with nodelay := true }

/-- `nc_sock_connect` (src/session_client.c:1708-1798): `p` is the pending socket, `as` are the answers for the addresses the host has, those for the pending
socket `a` (the other end and its text are learnt together there). -/
def connect (new : Opts) (keep : Bool) (p : Option Opts) (k : Ka) (as : List Ans) (a : PendAns) : Out :=
  match p with
  | none => loop new keep k as
  | some o =>
    match waitSock keep k a.wait a.ka o with
    | .conn o' => if !a.host then .failed else .conn o'
    | r => r

/-- A client connects (src/session_client_ssh.c:1819; src/session_client_tls.c:393): there is no pending socket. -/
def clientConnect (new : Opts) (c : Ctx) (as : List Ans) : Out := connect new false none c.ka as ⟨.error, ⟨false, false, false, false⟩, false⟩

/-- An attempt of Call Home to reach an endpoint (src/session_server.c:2705-2709, 3121-3131): the keepalives of the endpoint then, the answers for the
addresses of the host and for a pending socket, and whether a pending socket is closed afterwards. -/
structure Attempt where
  ka : Ka
  ans : List Ans
  pend : PendAns
  last : Bool
  deriving DecidableEq, Repr

/-- The pending socket after an attempt (src/session_client.c:1695-1703, 1669; src/session_server.c:3121-3131). -/
def kept (last : Bool) : Out → Option Opts
  | .pending o => if last then none else some o
  | _ => none

/-- Attempts, one after another, with what comes of each (src/session_server.c:3011-3150). -/
def attempts (new : Opts) : Option Opts → List Attempt → List Out
  | _, [] => []
  | p, t :: ts =>
    let r := connect new true p t.ka t.ans t.pend
    r :: attempts new (kept t.last r) ts

end Verif.SockOpt
