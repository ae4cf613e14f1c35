/-!
# Poll structures (src/session_server.c:1225-1331, 1770-2195) and small session state (src/session_server.c:131-160, 3239-3294)
-/

namespace Verif.Poll

/-! ## Return values (src/session_server.h:336-347) -/

/-- NC_PSPOLL_TIMEOUT (src/session_server.h:337) -/
def rTimeout : Nat := 0x2
/-- NC_PSPOLL_RPC (src/session_server.h:338) -/
def rRpc : Nat := 0x4
/-- NC_PSPOLL_BAD_RPC (src/session_server.h:339) -/
def rBadRpc : Nat := 0x8
/-- NC_PSPOLL_REPLY_ERROR (src/session_server.h:340) -/
def rReplyError : Nat := 0x10
/-- NC_PSPOLL_SESSION_TERM (src/session_server.h:341) -/
def rTerm : Nat := 0x20
/-- NC_PSPOLL_SESSION_ERROR (src/session_server.h:342) -/
def rSessError : Nat := 0x40
/-- NC_PSPOLL_ERROR (src/session_server.h:343) -/
def rError : Nat := 0x80
/-- NC_PSPOLL_SSH_MSG (src/session_server.h:346) -/
def rSshMsg : Nat := 0x100
/-- NC_PSPOLL_SSH_CHANNEL (src/session_server.h:347) -/
def rSshChannel : Nat := 0x200

/-! ## The session array -/

/-- `struct nc_ps_session` state (src/session_p.h:784-792). -/
inductive PsState where
  | none
  | busy
  | invalid
  deriving DecidableEq, Repr

/-- One element of the array: the session pointer and the state. (src/session_p.h:789-792) -/
structure PsSess where
  sess : Nat
  state : PsState
  deriving DecidableEq, Repr

/-- `struct nc_pollsession` (src/session_p.h:794-805) without lock; `session_count` is the length of the list. -/
structure Ps where
  sessions : List PsSess
  last : Nat
  deriving DecidableEq, Repr

/-- A new poll structure (src/session_server.c:1188-1199). -/
def Ps.new : Ps := ⟨[], 0⟩

/-- `nc_ps_add_session` (src/session_server.c:1237-1254).  `none`: `session_count` (16 bits) overflows and the array
access is undefined. -/
def add (ps : Ps) (s : Nat) : Option Ps :=
  if ps.sessions.length + 1 = 65536 then none else some { ps with sessions := ps.sessions ++ [⟨s, .none⟩] }

/-- The removal at an index (src/session_server.c:1272-1281): the last element replaces the removed one. -/
def delAt (ps : Ps) (i : Nat) : Ps :=
  match ps.sessions.getLast? with
  | none => ps
  | some l => ⟨(ps.sessions.set i l).dropLast, 0⟩

/-- `_nc_ps_del_session` by pointer (src/session_server.c:1269-1286): `none` is the return value -1. -/
def del (ps : Ps) (s : Nat) : Option Ps :=
  match ps.sessions.findIdx? (fun x => x.sess == s) with
  | none => none
  | some i => some (delAt ps i)

/-- `nc_ps_session_count` (src/session_server.c:1373). -/
def count (ps : Ps) : Nat := ps.sessions.length

/-- `nc_ps_get_session` (src/session_server.c:1323-1325). -/
def get (ps : Ps) (i : Nat) : Option Nat := (ps.sessions[i]?).map (·.sess)

/-- The loop of `nc_ps_clear` with `all` unset (src/session_server.c:2181-2190); `running` tells the status of the
sessions. The result has the freed sessions too. `fuel` bounds the number of iterations. -/
def clearLoop (running : Nat → Bool) : (fuel i : Nat) → Ps → List Nat → Ps × List Nat
  | 0, _, ps, freed => (ps, freed)
  | fuel + 1, i, ps, freed =>
    match ps.sessions[i]? with
    | none => (ps, freed)
    | some x =>
      if running x.sess then clearLoop running fuel (i + 1) ps freed
      else clearLoop running fuel i (delAt ps i) (freed ++ [x.sess])

/-- `nc_ps_clear` (src/session_server.c:2154-2195): each iteration either advances or shortens the array. -/
def clear (running : Nat → Bool) (all : Bool) (ps : Ps) : Ps × List Nat :=
  if all then (⟨[], 0⟩, ps.sessions.map (·.sess))
  else clearLoop running (ps.sessions.length + 1) 0 ps []

/-! ## The scan of `nc_ps_poll` -/

/-- The inner do-while (src/session_server.c:2054-2086): `res i` is the result of polling the session at index `i` (RPC lock busy
counts as timeout); `j` is the start index, `n` the number of sessions. -/
def scanLoop (n : Nat) (res : Nat → Nat) (j : Nat) : (fuel i : Nat) → Option (Nat × Nat)
  | 0, _ => none
  | fuel + 1, i =>
    if res i ≠ rTimeout then some (i, res i)
    else
      let i' := if i = n - 1 then 0 else i + 1
      if i' = j then none else scanLoop n res j fuel i'

/-- One pass over all the sessions (src/session_server.c:2048-2086), for at least one session. -/
def scan (n last : Nat) (res : Nat → Nat) : Option (Nat × Nat) :=
  let j := if last = n - 1 then 0 else last + 1
  scanLoop n res j n j

/-- Whether the result makes `nc_ps_poll` return the session and remember its index (src/session_server.c:2100-2115). -/
def remembered (ret : Nat) : Bool :=
  ret = rRpc || ret = rTerm || ret = (rTerm ||| rSessError) || ret = rSshChannel || ret = rSshMsg

/-- `last_event_session` after a pass (src/session_server.c:2111). -/
def newLast (last : Nat) : Option (Nat × Nat) → Nat
  | none => last
  | some (i, ret) => if remembered ret then i else last

/-! ## Polling one session -/

/-- Session status NC_STATUS. (src/session.h:78-81) -/
inductive Status where
  | starting
  | closing
  | invalid
  | running
  deriving DecidableEq, Repr

/-- Termination reasons without the error value -1. (src/netconf.h:56) -/
def tNone : Nat := 0
/-- NC_SESSION_TERM_CLOSED (src/session.h) (src/netconf.h:57) -/
def tClosed : Nat := 1
/-- NC_SESSION_TERM_KILLED (src/session.h) (src/netconf.h:58) -/
def tKilled : Nat := 2
/-- NC_SESSION_TERM_DROPPED (src/session.h) (src/netconf.h:59) -/
def tDropped : Nat := 3
/-- NC_SESSION_TERM_TIMEOUT (src/session.h) (src/netconf.h:60) -/
def tTimeout : Nat := 4
/-- NC_SESSION_TERM_BADHELLO (src/session.h) (src/netconf.h:61) -/
def tBadHello : Nat := 5
/-- NC_SESSION_TERM_OTHER (src/session.h) (src/netconf.h:62) -/
def tOther : Nat := 6

/-- The fields of a server session used while polling. (src/session_p.h:683-767) -/
structure Sess where
  status : Status
  reason : Nat
  lastRpc : Nat
  callHome : Bool
  notif : Nat
  deriving DecidableEq, Repr

/-- What the transport says (the switch at src/session_server.c:1805-1939). -/
inductive Io where
  | lockError
  | lockTimeout
  | sshMsg
  | sshChannel
  | quiet
  | data
  | dropped
  | failed
  | pollError
  | noTransport
  deriving DecidableEq, Repr

/-- The idle test (src/session_server.c:1797-1798). -/
def idleExpired (s : Sess) (nowMono idle : Nat) : Bool :=
  !s.callHome && s.notif == 0 && idle != 0 && decide (nowMono ≥ s.lastRpc + idle)

/-- `nc_ps_poll_session_io` (src/session_server.c:1785-1943). -/
def pollIo (s : Sess) (nowMono idle : Nat) (io : Io) : Nat × Sess :=
  if idleExpired s nowMono idle then (rTerm ||| rSessError, { s with status := .invalid, reason := tTimeout })
  else
    match io with
    | .lockError => (rError, s)
    | .lockTimeout => (rTimeout, s)
    | .sshMsg => (rSshMsg, s)
    | .sshChannel => (rSshChannel, s)
    | .quiet => (rTimeout, s)
    | .data => (rRpc, s)
    | .dropped => (rTerm ||| rSessError, { s with status := .invalid, reason := tDropped })
    | .failed => (rTerm ||| rSessError, { s with status := .invalid, reason := tOther })
    | .pollError => (rError, { s with status := .invalid })
    | .noTransport => (rError, s)

/-- `nc_ps_poll_sess` (src/session_server.c:1957-2011). -/
def pollSess (st : PsState) (s : Sess) (nowMono idle : Nat) (io : Io) : Nat × PsState × Sess :=
  match st with
  | .none =>
    if s.status = .running then
      let (ret, s') := pollIo s nowMono idle io
      (ret, (if ret = rTerm ||| rSessError then .invalid else if ret = rRpc then .busy else .none), s')
    else
      ((if s.reason ≠ tClosed then rTerm ||| rSessError else rTerm), .invalid, s)
  | .busy => (rError, .busy, s)
  | .invalid => (rTimeout, .invalid, s)

/-- What `nc_server_recv_rpc_io` returned (src/session_server.c:1580-1661). -/
inductive Recv where
  | error
  | timeout
  | malformed
  | badRpc
  | rpc
  deriving DecidableEq, Repr

/-- Its return value. (src/session_server.c:1590-1661) -/
def Recv.ret : Recv → Nat
  | .error => rError
  | .timeout => rTimeout
  | .malformed => rReplyError
  | .badRpc => rBadRpc ||| rReplyError
  | .rpc => rRpc

/-- Everything that happens from outside in the second half of `nc_ps_poll`: what was received and the status and reason
afterwards; the bits returned by `nc_server_send_reply_io`, and the status and reason the RPC callback (or a write error) left. (src/session_server.c:2120-2149) -/
structure RpcIn where
  recv : Recv
  recvStatus : Status
  recvReason : Nat
  replyErr : Bool
  sendErr : Bool
  cbStatus : Status
  cbReason : Nat
  deriving DecidableEq, Repr

/-- `nc_server_send_reply_io` (src/session_server.c:1703-1768): no RPC is an error; a termination reason set by the callback
ends a running session. -/
def sendReply (s : Sess) (i : RpcIn) : Nat × Sess :=
  if i.recv ≠ .rpc then (rError, s)
  else
    let ret := (if i.replyErr then rReplyError else 0) ||| (if i.sendErr then rError else 0)
    let s' := { s with status := i.cbStatus, reason := i.cbReason }
    (ret, if s'.status = .running ∧ s'.reason ≠ tNone then { s' with status := .invalid } else s')

/-- The second half of `nc_ps_poll` (src/session_server.c:2120-2149); `startSec` is the time of the poll call. -/
def handleRpc (s : Sess) (startSec : Nat) (i : RpcIn) : Nat × PsState × Sess :=
  let s := { s with status := i.recvStatus, reason := i.recvReason }
  let ret := i.recv.ret
  if ret &&& (rError ||| rBadRpc) ≠ 0 then
    if s.status ≠ .running then (ret ||| rTerm ||| rSessError, .invalid, s) else (ret, .none, s)
  else
    let s := { s with lastRpc := startSec }
    let (r, s) := sendReply s i
    let ret := ret ||| r
    if s.status ≠ .running then
      ((if s.reason &&& (tClosed ||| tKilled) = 0 then ret ||| rTerm ||| rSessError else ret ||| rTerm), .invalid, s)
    else (ret, .none, s)

/-- The value passed as current time (src/session_server.c:2041-2044, 2064): the deadline of the call in seconds, or whatever
the uninitialised variable contains (`junk`) if the timeout is -1 (`none`). `nowNs` is the time of the call in ns. -/
def passedNow (nowNs : Nat) (timeoutMs : Option Nat) (junk : Nat) : Nat :=
  match timeoutMs with
  | none => junk
  | some t => (nowNs + t * 1000000) / 1000000000

/-- `nc_ps_poll` as seen by one session that is selected by the scan (src/session_server.c:2058-2149). -/
def pollOne (st : PsState) (s : Sess) (nowNs : Nat) (timeoutMs : Option Nat) (junk idle : Nat) (io : Io) (i : RpcIn) :
    Nat × PsState × Sess :=
  let (ret, st', s') := pollSess st s (passedNow nowNs timeoutMs junk) idle io
  if ret = rRpc then handleRpc s' (nowNs / 1000000000) i else (ret, st', s')

/-! ## Session ids, termination reason, notification status -/

/-- The `n`-th session id handed out (src/session_server.c:804, 1012, 2585, 2764; src/session_server_ssh.c:2046, 2111): the counter
starts at 1 and is truncated to 32 bits. -/
def sessionId (n : Nat) : Nat := (1 + n) % 4294967296

/-- `nc_session_set_term_reason` (src/session_server.c:131-146) on (reason, killed_by). -/
def setReason (st : Nat × Nat) (reason : Nat) : Nat × Nat :=
  if reason = tNone then st
  else (reason, if reason ≠ tKilled ∧ st.1 = tKilled then 0 else st.2)

/-- `nc_session_set_killed_by` (src/session_server.c:148-160). -/
def setKilledBy (st : Nat × Nat) (sid : Nat) : Nat × Nat :=
  if st.1 ≠ tKilled then st else if sid = 0 then st else (st.1, sid)

/-- A setter call. (src/session_server.c:131-160) -/
inductive SetOp where
  | reason (r : Nat)
  | killedBy (sid : Nat)
  deriving DecidableEq, Repr

/-- A sequence of setter calls on a new session (reason and killer 0). (src/session_server.c:131-160) -/
def runSet : List SetOp → Nat × Nat → Nat × Nat
  | [], st => st
  | .reason r :: ops, st => runSet ops (setReason st r)
  | .killedBy k :: ops, st => runSet ops (setKilledBy st k)

/-- `nc_session_inc_notif_status` (src/session_server.c:3250), 32 bits. -/
def incNotif (n : Nat) : Nat := (n + 1) % 4294967296

/-- `nc_session_dec_notif_status` (src/session_server.c:3267-3269). -/
def decNotif (n : Nat) : Nat := if n ≠ 0 then n - 1 else n

/-- A sequence of calls, `true` for increments. (src/session_server.c:3239-3294) -/
def runNotif : List Bool → Nat → Nat
  | [], n => n
  | true :: l, n => runNotif l (incNotif n)
  | false :: l, n => runNotif l (decNotif n)

end Verif.Poll
