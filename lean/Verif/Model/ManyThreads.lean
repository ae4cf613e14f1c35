import Verif.Model.Bytes
import Verif.Model.ServerRpc

/-!
# Many threads of a server working on one session

Threads call `nc_ps_poll` and `nc_server_notif_send` for the same session.  The steps of the threads between two uses of shared memory are
executed in any order: taking and releasing the two locks of the session, checking and setting its status, reading a message, starting and
ending a callback, every call of `nc_write`, and every part of the data accepted by the transport.

Simplifications: the lock of the RPCs and the lock of the input and output are taken and given back as their own models show
(`Verif.RpcLock`); the messages that arrive are given as what `nc_read_msg_io` and libyang make of them (as in `Verif.ServerRpc`); a message that
is sent is given as the list of the buffers with which `nc_write` is called for it (made by `Verif.Writer`); the poll structure itself is left out
(`Verif.PsQueue`, `Verif.Poll`), and nobody frees the session.
-/

namespace Verif.ManyThreads
open NcErr ServerRpc
open Verif.Poll (Status tNone tClosed tKilled tDropped tOther tTimeout)

/-- A message of the server: a reply or a notification (/repo/src/session_server.c:1641, 1684, 1751). -/
inductive Msg where
  | reply (x : Sent)
  | notif (n : Nat)
  deriving DecidableEq, Repr

/-- The server, and the buffers `nc_write` is called with for a message (/repo/src/io.c:665-825). -/
structure Conf where
  srv : Srv
  pieces : Msg → List (List Byte)

/-- Who called `nc_write_msg_io`: `nc_server_recv_rpc_io`, `nc_server_send_reply_io` or `nc_server_notif_send`
(/repo/src/session_server.c:1641, 1751, 1684). -/
inductive Caller where
  | recv | send | notif
  deriving DecidableEq, Repr

/-- Where a thread is, between two uses of the session (/repo/src/session_server.c:1589-1768, 1785-1943, 1957-2011, 2013-2152, /repo/src/io.c:845-1082). -/
inductive Pc where
  /-- outside of the library -/
  | idle
  /-- /repo/src/session_server.c:1965: RPC lock taken, before the check of the status -/
  | poll
  /-- /repo/src/session_server.c:1797-1805: before the lock of `nc_ps_poll_session_io` -/
  | pollLock
  /-- /repo/src/session_server.c:1813-1941: with both locks -/
  | polling
  /-- /repo/src/session_server.c:1598: data are available, before the check of the status -/
  | recv
  /-- /repo/src/io.c:283: in `nc_read_msg_io` before the check of the status -/
  | read
  /-- /repo/src/io.c:293: before the lock -/
  | readLock
  /-- /repo/src/io.c:301-383: with both locks -/
  | reading
  /-- /repo/src/session_server.c:1607-1636: a message was read -/
  | parse (r : Read)
  /-- /repo/src/session_server.c:1713-1746: an RPC is to be processed -/
  | call (e : Envp) (op : Op)
  /-- /repo/src/session_server.c:1741, 1745: in the callback -/
  | inCb (e : Envp) (op : Op) (c : Nat)
  /-- /repo/src/io.c:863: in `nc_write_msg_io` before the check of the status -/
  | write (a : Caller) (m : Msg)
  /-- /repo/src/io.c:872: before the lock -/
  | writeLock (a : Caller) (m : Msg)
  /-- /repo/src/io.c:879-1076: what is left of the buffer given to `nc_write`, the buffers still to come, and whether everything was written so far -/
  | writing (a : Caller) (m : Msg) (cur : List Byte) (rest : List (List Byte)) (ok : Bool)
  /-- /repo/src/session_server.c:1643, 1685, 1757: `nc_write_msg_io` returned, whether with the type of the message -/
  | wrote (a : Caller) (ok : Bool)
  /-- /repo/src/session_server.c:2069, 2148: before the RPC unlock -/
  | unlock
  /-- a NULL pointer was used (/repo/src/io.c:941) -/
  | ub
  deriving DecidableEq, Repr

/-- The session (/repo/src/session_p.h:683-767): holders of the RPC lock and of the IO lock, messages that have not been read, messages that have been
read (a log), messages that have been written as a whole (a log), what the client can read, and the threads. -/
structure St where
  rpc : Option Nat
  io : Option Nat
  inp : List Read
  got : List Read
  out : List Msg
  calls : List (Nat × Op)
  wire : List Byte
  status : Status
  reason : Nat
  v11 : Bool
  pc : Nat → Pc

/-- What a thread does next, with the outcome of calls outside of the library (/repo/src/session_server.c:2013-2152, /repo/src/io.c:576-654). -/
inductive Act where
  /-- `nc_ps_poll` comes to this session (/repo/src/session_server.c:2059) -/
  | poll
  /-- `nc_server_notif_send` (/repo/src/session_server.c:1669-1690) -/
  | notify (n : Nat)
  /-- the next step, if there is only one (/repo/src/session_server.c:2120-2149) -/
  | go
  /-- the IO lock is taken (/repo/src/session.c:425-452) -/
  | lock
  /-- the IO lock was not available in time for polling or reading (/repo/src/session_server.c:1809-1811, /repo/src/io.c:294-296) -/
  | late
  /-- the IO lock was not available in time for writing (/repo/src/io.c:873-877) -/
  | lateWrite
  /-- idle timeout (/repo/src/session_server.c:1797-1803) -/
  | expire
  /-- data are available, are not, or the connection is closed or broken (/repo/src/session_server.c:1813-1934); reasons other than a closed
  connection (1856, 1893, 1926) are not told apart -/
  | data | nodata | hup
  /-- the transport accepts this number of bytes (/repo/src/io.c:596-651) -/
  | accept (n : Nat)
  /-- `nc_write` fails, with the session made invalid or not (/repo/src/io.c:587-591, 608-611, 616-635), and the failure is ignored or not
  (/repo/src/io.c:1024-1027, 1032, 979, 1068) -/
  | fail (inval ignored : Bool)
  /-- `nc_write` finds the session invalid (/repo/src/io.c:582-584) -/
  | refuse (ignored : Bool)
  /-- `nc_session_set_status` (/repo/src/session_server.c:162-174) -/
  | setStatus (st : Status)
  /-- `nc_session_set_term_reason` (/repo/src/session_server.c:131-146) -/
  | setReason (re : Nat)
  deriving DecidableEq, Repr

/-- The place of one thread changes; the others go on where they are (/repo/src/session_server.c:2013-2152). -/
def St.at (s : St) (t : Nat) (p : Pc) : St := { s with pc := fun u => if u = t then p else s.pc u }

/-- The session can be written to (/repo/src/io.c:582, 863). -/
def St.open (s : St) : Bool := s.status == .running || s.status == .starting

/-- A reply is handed over to `nc_write_msg_io` (/repo/src/io.c:918-982); `ok` without an envelope uses NULL (941). -/
def answer (a : Caller) (envp : Option Envp) (r : Reply) : Pc :=
  match replyElem envp r with
  | none => .ub
  | some x => .write a (.reply x)

/-- An error reply of `nc_server_recv_rpc_io` (/repo/src/session_server.c:1609, 1629, 1634, 1639-1641). -/
def answerErr (envp : Option Envp) (e : Option Err) : Pc :=
  match replyErr e with
  | none => .unlock
  | some r => answer .recv envp r

/-- `nc_server_recv_rpc_io` after the message was read (/repo/src/session_server.c:1607-1641); with a valid RPC `nc_ps_poll` goes on (2121-2134). -/
def parsed (srv : Srv) (v11 : Bool) : Read → Pc
  | .failed _ _ => .unlock
  | .busy => .unlock
  | .frame => answerErr none (mkErr .malformedMsg .rpc none none)
  | .parsed e op => if hasMsgid e then .call e op else answerErr (some e) (mkErr .missingAttr .rpc (some c!"message-id") (some c!"rpc"))
  | .rejected envp e =>
    match prepareErr v11 envp.isSome srv.find e with
    | none => .ub
    | some err => answerErr envp err

/-- The reply, or an error if the callback gave none (/repo/src/session_server.c:1748-1750). -/
def replyOr (r : Option Reply) : Option Reply :=
  match r with
  | some r => some r
  | none => replyErr (mkErr .opFailed .app none none)

/-- The reply of the callback is handed over (/repo/src/session_server.c:1748-1751). -/
def answerCb (e : Envp) (r : Option Reply) : Pc :=
  match replyOr r with
  | none => .ub
  | some r => answer .send (some e) r

/-- `nc_server_send_reply_io` up to the call (/repo/src/session_server.c:1713-1746): the place and the callback called. -/
def calling (srv : Srv) (e : Envp) (op : Op) : Pc × Option Nat :=
  match rpcNode op with
  | none => (.unlock, none)
  | some n =>
    match n.priv, srv.glob with
    | none, none => (answerCb e (replyErr (mkErr .opNotSupported .prot none none)), none)
    | none, some c => (.inCb e op c, some c)
    | some c, _ => (.inCb e op c, some c)

/-- The end of `nc_read_msg_io` (/repo/src/io.c:301-383) for a message or a failure, which may end the session or leave it as it is. -/
def readEnd (s : St) (r : Read) (rest : List Read) : St :=
  match r with
  | .failed .invalid re => { s with io := none, inp := rest, got := s.got ++ [r], status := .invalid, reason := re }
  | _ => { s with io := none, inp := rest, got := s.got ++ [r] }

/-- One step of a thread; `none` if it cannot do this (now) (/repo/src/session_server.c:1589-1768, 1785-1943, 1957-2011, 2013-2152, /repo/src/io.c:845-1082). -/
def step (cf : Conf) (s : St) (t : Nat) (act : Act) : Option St :=
  match s.pc t, act with
  /- /repo/src/session_server.c:162-174 -/
  | _, .setStatus st => some { s with status := st }
  /- /repo/src/session_server.c:131-146 -/
  | _, .setReason re => some { s with reason := re }
  /- /repo/src/session_server.c:2059-2075: skipped if somebody else works with the session -/
  | .idle, .poll => if s.rpc = none then some ({ s with rpc := some t }.at t .poll) else some s
  /- /repo/src/session_server.c:1669-1684 -/
  | .idle, .notify n => some (s.at t (.write .notif (.notif n)))
  /- /repo/src/session_server.c:1963-1998 -/
  | .poll, .go => some (s.at t (if s.status = .running then .pollLock else .unlock))
  /- /repo/src/session_server.c:1797-1803 -/
  | .pollLock, .expire => some ({ s with status := .invalid, reason := tTimeout }.at t .unlock)
  /- /repo/src/session_server.c:1805-1811 -/
  | .pollLock, .lock => if s.io = none then some ({ s with io := some t }.at t .polling) else none
  | .pollLock, .late => some (s.at t .unlock)
  /- /repo/src/session_server.c:1861-1863, 1896, 1902, 1929, 1941 -/
  | .polling, .data => if s.inp = [] then none else some ({ s with io := none }.at t .recv)
  /- /repo/src/session_server.c:1860, 1899, 1932, 1941 -/
  | .polling, .nodata => some ({ s with io := none }.at t .unlock)
  /- /repo/src/session_server.c:1847-1857, 1880-1894, 1913-1927, 1941 -/
  | .polling, .hup => some ({ s with io := none, status := .invalid, reason := tDropped }.at t .unlock)
  /- /repo/src/session_server.c:1598-1601 -/
  | .recv, .go => some (s.at t (if s.status = .running then .read else .unlock))
  /- /repo/src/io.c:283-287 -/
  | .read, .go => some (s.at t (if s.open then .readLock else .unlock))
  /- /repo/src/io.c:293-297, /repo/src/session_server.c:1614-1616, 1713-1716 -/
  | .readLock, .lock => if s.io = none then some ({ s with io := some t }.at t .reading) else none
  | .readLock, .late => some (s.at t .unlock)
  /- /repo/src/io.c:301-383 -/
  | .reading, .go =>
    match s.inp with
    | [] => none
    | r :: rest => some ((readEnd s r rest).at t (.parse r))
  /- /repo/src/session_server.c:1607-1641 -/
  | .parse r, .go => some (s.at t (parsed cf.srv s.v11 r))
  /- /repo/src/session_server.c:1713-1746 -/
  | .call e op, .go =>
    match calling cf.srv e op with
    | (p, none) => some (s.at t p)
    | (p, some c) => some ({ s with calls := s.calls ++ [(c, op)] }.at t p)
  /- /repo/src/session_server.c:1741-1751 -/
  | .inCb e op c, .go =>
    some ({ s with status := (cf.srv.run c op s.status s.reason).status, reason := (cf.srv.run c op s.status s.reason).reason }.at t
      (answerCb e (cf.srv.run c op s.status s.reason).reply))
  /- /repo/src/io.c:863-866 -/
  | .write a m, .go => some (s.at t (if s.open then .writeLock a m else .wrote a false))
  /- /repo/src/io.c:872-877 -/
  | .writeLock a m, .lock => if s.io = none then some ({ s with io := some t }.at t (.writing a m [] (cf.pieces m) true)) else none
  | .writeLock a _, .lateWrite => some (s.at t (.wrote a false))
  /- the last buffer was written: /repo/src/io.c:1070-1081 -/
  | .writing a m [] [] ok, .go =>
    some ({ s with io := none, out := if ok then s.out ++ [m] else s.out }.at t (.wrote a s.open))
  /- the next call of `nc_write`: /repo/src/io.c:582-594 -/
  | .writing a m [] (p :: rest) ok, .go => if s.open then some (s.at t (.writing a m p rest ok)) else none
  /- /repo/src/io.c:596-651 -/
  | .writing a m (b :: cur) rest ok, .accept n =>
    some ({ s with wire := s.wire ++ (b :: cur).take n }.at t (.writing a m ((b :: cur).drop n) rest ok))
  /- /repo/src/io.c:587-591, 608-611, 616-635 -/
  | .writing a m (_ :: _) rest _, .fail inval ignored =>
    some ({ s with status := if inval then .invalid else s.status, reason := if inval then tDropped else s.reason,
                   io := if ignored then s.io else none }.at t (if ignored then .writing a m [] rest false else .wrote a false))
  /- /repo/src/io.c:582-584 -/
  | .writing a m [] (_ :: rest) _, .refuse ignored =>
    if s.open then none
    else some ({ s with io := if ignored then s.io else none }.at t (if ignored then .writing a m [] rest false else .wrote a false))
  /- /repo/src/session_server.c:1685-1689 -/
  | .wrote .notif _, .go => some (s.at t .idle)
  /- /repo/src/session_server.c:1643-1649 -/
  | .wrote .recv ok, .go =>
    some ((if ok = false ∧ s.status ≠ .invalid then { s with status := .invalid, reason := tOther } else s).at t .unlock)
  /- /repo/src/session_server.c:1757-1765 -/
  | .wrote .send _, .go =>
    some ((if s.status = .running ∧ s.reason ≠ tNone then { s with status := .invalid } else s).at t .unlock)
  /- /repo/src/session_server.c:2069, 2148 -/
  | .unlock, .go => some ({ s with rpc := none }.at t .idle)
  | _, _ => none

/-- Steps of threads one after the other; `none` if one of them is impossible (/repo/src/session_server.c:2013-2152). -/
def run (cf : Conf) (s : St) : List (Nat × Act) → Option St
  | [] => some s
  | (t, a) :: l =>
    match step cf s t a with
    | none => none
    | some s => run cf s l

/-- A session that was just established, with the messages its client will send (/repo/src/session_server.c:2726-2776). -/
def start (v11 : Bool) (inp : List Read) : St := ⟨none, none, inp, [], [], [], [], .running, tNone, v11, fun _ => .idle⟩

end Verif.ManyThreads
