/-
Waiting loops while a transport is being established: the client opening an SSH
channel (src/session_client_ssh.c:1565-1630) and making a TLS connection
(src/session_client_tls.c:327-341), the server accepting SSH
(src/session_server_ssh.c:1767-1803, src/session_server_ssh.c:1862-1909,
src/session_server_ssh.c:1970-2005) and TLS (src/session_server_tls.c:907-922).
Times are in ns.  What the libraries answer and when is an argument; remaining
times are exact, which holds for limits below 2^31 ms (C43, C59).
-/
namespace Verif.Establish

/-- One round of a loop, src/session_client_ssh.c:1589-1594: what the library
answers (`none` is `SSH_AGAIN`) and the time when the loop goes on (after
`usleep`, if it has to be called again). -/
structure Ev (α : Type) where
  ans : Option α
  time : Nat

/-- Result of a loop, src/session_client_ssh.c:1589-1604: still in it, timeout,
or an answer, with the time. -/
inductive Waited (α : Type) where
  | waiting
  | timeout (t : Nat)
  | got (a : α) (t : Nat)
deriving DecidableEq, Repr

/-- `nc_timeouttime_cur_diff(&ts) < 1`, src/session.c:83-95, with a limit:
less than 1 ms is left at time `t`. -/
def passed (deadline : Option Nat) (t : Nat) : Bool :=
  match deadline with
  | none => false
  | some d => decide (d < t + 1000000)

/-- A loop, src/session_client_ssh.c:1589-1594 and the like. -/
def wait {α : Type} (deadline : Option Nat) : List (Ev α) → Waited α
  | [] => .waiting
  | e :: r =>
    match e.ans with
    | some a => .got a e.time
    | none => if passed deadline e.time then .timeout e.time else wait deadline r

/-- `nc_timeouttime_get(&ts_timeout, timeout)` if `timeout > -1`,
src/session_client_ssh.c:1585-1587; `start` is the time. -/
def limitMs (start : Nat) (timeout : Int) : Option Nat :=
  if timeout > -1 then some (start + timeout.toNat * 1000000) else none

/-- Answer of libssh other than `SSH_AGAIN`, src/session_client_ssh.c:1595-1604. -/
inductive Ssh where
  | ok
  | error
deriving DecidableEq, Repr

/-- What a function establishing something gives: its return value and the time,
or it has not returned; src/session_client_ssh.c:1565-1630. -/
inductive Done where
  | running
  | ret (rc : Int) (t : Nat)
deriving DecidableEq, Repr

/-- `open_netconf_channel`, src/session_client_ssh.c:1565-1630, with whether the
session has a channel afterwards.  `openEv` and `subEv` are the rounds of both
loops. -/
def openChannel (connected channel : Bool) (timeout : Int) (start : Nat) (openEv subEv : List (Ev Ssh)) :
    Done × Bool :=
  if connected = false then (.ret (-1) start, channel)
  else if channel then (.ret (-1) start, channel)
  else
    match wait (limitMs start timeout) openEv with
    | .waiting => (.running, true)
    | .timeout t => (.ret 0 t, false)
    | .got .error t => (.ret (-1) t, false)
    | .got .ok t =>
      match wait (limitMs t timeout) subEv with
      | .waiting => (.running, true)
      | .timeout t => (.ret 0 t, false)
      | .got .error t => (.ret (-1) t, false)
      | .got .ok t => (.ret 1 t, true)

/-- The handshake of TLS of the client, src/session_client_tls.c:327-341, and of
the server, src/session_server_tls.c:907-922: answer `true` if it was made.
The result of the client is NULL in both cases of failure; here -1 is failure
and 0 the timeout. -/
def handshake (timeout : Int) (start : Nat) (ev : List (Ev Bool)) : Done :=
  match wait (limitMs start timeout) ev with
  | .waiting => .running
  | .timeout t => .ret 0 t
  | .got true t => .ret 1 t
  | .got false t => .ret (-1) t

/-- Key exchange of the server, src/session_server_ssh.c:1970-1992. -/
def keyExchange (timeout : Int) (start : Nat) (ev : List (Ev Ssh)) : Done :=
  match wait (limitMs start timeout) ev with
  | .waiting => .running
  | .timeout t => .ret 0 t
  | .got .ok t => .ret 1 t
  | .got .error t => .ret (-1) t

/-- What ends a round of a loop of the server waiting for messages,
src/session_server_ssh.c:1777-1792 and src/session_server_ssh.c:1874-1889: the
connection is lost or what is waited for was done. -/
inductive Msg where
  | lost
  | done
deriving DecidableEq, Repr

/-- `nc_accept_ssh_session_auth`, src/session_server_ssh.c:1862-1909;
`authTimeout` in seconds, 0 is no limit. -/
def authenticate (authTimeout : Nat) (start : Nat) (ev : List (Ev Msg)) : Done :=
  match wait (if authTimeout ≠ 0 then some (start + authTimeout * 1000 * 1000000) else none) ev with
  | .waiting => .running
  | .timeout t => .ret 0 t
  | .got .done t => .ret 1 t
  | .got .lost t => .ret (-1) t

/-- `nc_accept_ssh_session_open_netconf_channel`, src/session_server_ssh.c:1767-1803:
the argument is multiplied by 1000 and converted to `uint32_t`
(src/session.c:56); 0 is no limit. -/
def acceptChannel (timeout : Int) (start : Nat) (ev : List (Ev Msg)) : Done :=
  match wait (if timeout ≠ 0 then some (start + (timeout * 1000 % 4294967296).toNat * 1000000) else none) ev with
  | .waiting => .running
  | .timeout t => .ret 0 t
  | .got .done t => .ret 1 t
  | .got .lost t => .ret (-1) t

/-- `nc_accept_ssh_session` from the key exchange on, src/session_server_ssh.c:1970-2005. -/
def acceptSsh (timeout : Int) (authTimeout : Nat) (start : Nat) (kexEv : List (Ev Ssh)) (authEv chanEv : List (Ev Msg)) :
    Done :=
  match keyExchange timeout start kexEv with
  | .running => .running
  | .ret rc t =>
    if rc ≠ 1 then .ret rc t
    else
      match authenticate authTimeout t authEv with
      | .running => .running
      | .ret rc t => if rc ≠ 1 then .ret rc t else acceptChannel timeout t chanEv

/-- `NC_TRANSPORT_TIMEOUT` in ms, src/session_p.h:617. -/
def transportTimeout : Int := 10000

end Verif.Establish
