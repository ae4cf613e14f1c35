/-!
# Waiting for data on a session and looking whether it is connected (src/io.c:388-558), looking for a capability (src/session_client.c:1949-1964)

What `poll`, libssh and OpenSSL report is an argument. Times are in Timeout and Poll (C43, C44, C60); locks in Locks (C182).
-/

namespace Verif.PollIo

/-- `NC_STATUS` (src/session.h:76-82). -/
inductive Status where
  | starting
  | closing
  | invalid
  | running
  deriving DecidableEq, Repr

/-- `NC_SESSION_TERM_REASON` (src/netconf.h:54-63). -/
inductive Reason where
  | none
  | closed
  | killed
  | dropped
  | timeout
  | badHello
  | other
  deriving DecidableEq, Repr

/-- `session->ti_type` (src/session_p.h:697), `NC_TRANSPORT_IMPL` (src/session.h:87-96); `none` is any other value. -/
inductive Ti where
  | none
  | fd
  | unix
  | ssh
  | tls
  deriving DecidableEq, Repr

/-- The members of a session used here (src/session_p.h:684-689). -/
structure Sess where
  status : Status
  reason : Reason := .none
  ti : Ti
  deriving DecidableEq, Repr

/-- `revents` of a descriptor: `POLLIN`, `POLLHUP`, `POLLERR`, `POLLNVAL` (src/io.c:426-430, 548-555). -/
structure Events where
  inp : Bool := false
  hup : Bool := false
  err : Bool := false
  nval : Bool := false
  deriving DecidableEq, Repr

/-- What `nc_poll` returns: -1, 0, or 1 with events (src/session.c:106-137). -/
inductive Polled where
  | fail
  | timeout
  | ready (e : Events)
  deriving DecidableEq, Repr

/-- What `ssh_channel_poll_timeout` returns (src/io.c:407-427); `again` is `SSH_AGAIN`. -/
inductive SshPolled where
  | error
  | eof
  | again
  | bytes (n : Nat)
  deriving DecidableEq, Repr

/-- What the system and the libraries report: `poll`, libssh, the number of bytes OpenSSL has decrypted already (src/io.c:400-445), whether libssh is connected (src/io.c:534), whether there is a descriptor (src/io.c:543). -/
structure Env where
  poll : Polled
  ssh : SshPolled := .bytes 0
  pending : Nat := 0
  sshConnected : Bool := true
  hasFd : Bool := true
  deriving DecidableEq, Repr

/-- The session is over (src/io.c:413-415, 418-420, 464-466). -/
def Sess.fail (s : Sess) (r : Reason) : Sess := { s with status := .invalid, reason := r }

/-- What is done with the result of polling a descriptor (src/io.c:457-483). -/
def finish (s : Sess) : Polled → Int × Sess
  | .fail => (-1, s.fail .other)
  | .timeout => (0, s)
  | .ready e =>
    if e.err = true then (-1, s.fail .other)
    else if e.hup = true ∧ e.inp = false then (-1, s.fail .dropped)
    else (1, s)

/-- `nc_read_poll` (src/io.c:388-484). `SSH_AGAIN` is -2 and taken for a failure. -/
def readPoll (s : Sess) (v : Env) : Int × Sess :=
  if s.status ≠ .running ∧ s.status ≠ .starting then (-1, s)
  else
    match s.ti with
    | .ssh =>
      match v.ssh with
      | .error => (-1, s.fail .other)
      | .eof => (-1, s.fail .dropped)
      | .again => finish s .fail
      | .bytes 0 => finish s .timeout
      | .bytes (_ + 1) => finish s (.ready { inp := true })
    | .tls => if v.pending ≠ 0 then finish s (.ready { inp := true }) else finish s v.poll
    | .fd => finish s v.poll
    | .unix => finish s v.poll
    | .none => (-1, s)

/-- `nc_session_is_connected` (src/io.c:519-558). -/
def isConnected (s : Sess) (v : Env) : Bool :=
  match s.ti with
  | .ssh => v.sshConnected
  | .none => false
  | _ =>
    if v.hasFd = false then false
    else
      match v.poll with
      | .fail => false
      | .timeout => true
      | .ready e => !(e.hup || e.err)

/-- Waiting again and again (src/session_server.c:2048-2098, src/session_client.c:2114-2198). -/
def readPolls (s : Sess) : List Env → List Int × Sess
  | [] => ([], s)
  | v :: vs => let r := readPoll s v; let rs := readPolls r.2 vs; (r.1 :: rs.1, rs.2)

/-- `strncmp(c, capab, strlen(capab)) == 0` (src/session_client.c:1958). -/
def startsWith : List Char → List Char → Bool
  | _, [] => true
  | [], _ :: _ => false
  | c :: cs, d :: ds => c == d && startsWith cs ds

/-- `nc_session_cpblt` (src/session_client.c:1949-1964). -/
def cpblt : List (List Char) → List Char → Option (List Char)
  | [], _ => none
  | c :: cs, k => if startsWith c k = true then some c else cpblt cs k

end Verif.PollIo
