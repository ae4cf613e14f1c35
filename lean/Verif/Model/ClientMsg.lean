import Verif.Model.Bytes
import Verif.Model.Hello

/-!
# Messages received by the client (src/session_client.c:2012-2240), message ids of its RPCs (src/io.c:881-911, src/session_client.c:3194-3207)
and the exchange closing its session (src/session.c:662-712, 889-930)
-/

namespace Verif.ClientMsg
open Verif.Hello (Text)

/-- The two types of messages told apart by `get_msg_type` (src/session_client.c:2078-2081). -/
inductive Kind | reply | notif
  deriving DecidableEq, Repr

/-- `strstr(str, end)` followed by `str += strlen(end)` (src/session_client.c:2073, 2077, 2091); `none` is NULL. -/
def afterFirst (pat : Text) : Text → Option Text
  | [] => none
  | c :: cs => if pat.isPrefixOf (c :: cs) then some ((c :: cs).drop pat.length) else afterFirst pat cs

theorem afterFirst_length (pat : Text) : ∀ (t r : Text), afterFirst pat t = some r → r.length ≤ t.length
  | [], r, h => by cases h
  | c :: cs, r, h => by
    simp only [afterFirst] at h
    split at h
    · cases h; simp
    · have := afterFirst_length pat cs r h
      simp; omega

theorem dropWhile_length_le (p : Char → Bool) : ∀ t : Text, (t.dropWhile p).length ≤ t.length
  | [] => by simp
  | c :: cs => by
    rw [List.dropWhile_cons]
    split
    · have := dropWhile_length_le p cs
      simp; omega
    · simp

/-- `get_msg_type` (src/session_client.c:2052-2101); `none` is NC_MSG_ERROR. -/
def getMsgType (t : Text) : Option Kind :=
  match h : t.dropWhile Hello.isSpace with
  | '<' :: s =>
    if "!--".toList.isPrefixOf s then
      match h2 : afterFirst "-->".toList s with
      | none => none
      | some r => getMsgType r
    else if "?xml".toList.isPrefixOf s then
      match h2 : afterFirst "?>".toList s with
      | none => none
      | some r => getMsgType r
    else if "rpc-reply".toList.isPrefixOf s then some .reply
    else if "notification".toList.isPrefixOf s then some .notif
    else none
  | _ => none
termination_by t.length
decreasing_by
  all_goals
    have h1 := dropWhile_length_le Hello.isSpace t
    rw [h] at h1
    have h3 := afterFirst_length _ _ _ h2
    simp at h1
    omega

/-- What the next call of `nc_read_msg_poll_io` meets: nothing in time, a failure (-1), a frame that is not valid (-2, src/io.c:331-342),
or a message (src/io.c:487-516).  Messages are C strings. -/
inductive Input | idle | failure | malformed | msg (t : Text)
  deriving DecidableEq, Repr

/-- Result of `nc_session_client_msgs_lock` (src/session.c:470-508). -/
inductive Lock | got | timeout | failed
  deriving DecidableEq, Repr

/-- Return value of `recv_msg` with the message handed out (src/session_client.c:2109-2111, 2191-2196); `crash`: `get_msg_type` is called
with no message, `ly_in_memory` of NULL gives NULL, which is read (src/session_client.c:2057-2059). -/
inductive Out | got (k : Kind) (m : Option Text) | wouldblock | error | crash
  deriving DecidableEq, Repr

/-- The message buffer of the session (src/session_p.h:744) and what is still to come from the server. -/
structure Cl where
  msgs : List (Kind × Text)
  wire : List Input
  deriving DecidableEq, Repr

/-- Removing the first buffered message of a type (src/session_client.c:2139-2157). -/
def takeBuffered (k : Kind) : List (Kind × Text) → Option (Text × List (Kind × Text))
  | [] => none
  | (k', t) :: q => if k' = k then some (t, q) else (takeBuffered k q).map fun (r, q') => (r, (k', t) :: q')

/-- `recv_msg` (src/session_client.c:2113-2197).  Simplification: memory is never exhausted. -/
def recvMsg (expected : Kind) (lock : Lock) (c : Cl) : Out × Cl :=
  match lock with
  | .timeout => (.wouldblock, c)
  | .failed => (.error, c)
  | .got =>
    match takeBuffered expected c.msgs with
    | some (t, q) => (.got expected (some t), { c with msgs := q })
    | none =>
      match c.wire with
      | [] => (.wouldblock, c)
      | .idle :: w => (.wouldblock, { c with wire := w })
      | .failure :: w => (.error, { c with wire := w })
      | .malformed :: w => (.crash, { c with wire := w })
      | .msg t :: w =>
        match getMsgType t with
        | none => (.error, { c with wire := w })
        | some k => if k = expected then (.got k (some t), { c with wire := w })
          else (.got k none, { msgs := c.msgs ++ [(k, t)], wire := w })

/-- Any sequence of calls for replies and notifications (`nc_recv_reply`, `nc_recv_notif`; src/session_client.c:2211, 2442); a crash ends it. -/
def recvRun : List (Kind × Lock) → Cl → List Out × Cl
  | [], c => ([], c)
  | (k, l) :: rs, c =>
    match recvMsg k l c with
    | (.crash, c') => ([.crash], c')
    | (o, c') => let (os, c2) := recvRun rs c'; (o :: os, c2)

/-! ## Matching replies -/

/-- Result of `recv_reply` (src/session_client.c:2198-2239). -/
inductive ReplyRes | reply | badMsgid | error
  deriving DecidableEq, Repr

/-- `recv_reply_check_msgid` (src/session_client.c:2012-2040) for the attributes (names without prefixes and values) of the envelope. -/
def checkMsgid (attrs : List (Text × Text)) (msgid : Nat) : ReplyRes :=
  match attrs.find? (fun a => a.1 == "message-id".toList) with
  | none => .badMsgid
  | some a => if strtoul (a.2.map Char.toNat) ≠ msgid then .badMsgid else .reply

/-- The outcome of `lyd_parse_op` (src/session_client.c:2218): its return value is success, and the attributes of the envelope if one was parsed. -/
structure Parsed where
  ok : Bool
  envp : Option (List (Text × Text))
  deriving DecidableEq, Repr

/-- `recv_reply` once a message was received (src/session_client.c:2216-2235). -/
def recvReply (p : Parsed) (msgid : Nat) : ReplyRes :=
  match p.envp with
  | some attrs => checkMsgid attrs msgid
  | none => if !p.ok then .error else .reply

/-! ## Message ids -/

/-- Client session and its senders: the counter (`opts.client.msgid`), the RPCs on the wire with their senders (latest last), senders
between writing the RPC and reading the counter, and what `nc_send_rpc` told them (src/io.c:881-911, src/session_client.c:3194-3206). -/
structure Send where
  msgid : Nat
  wire : List (Nat × Nat)
  waiting : List Nat
  told : List (Nat × Nat)
  deriving DecidableEq, Repr

/-- Steps of sending threads. (src/session_client.c:3195-3196) -/
inductive SendAct | write (thread : Nat) | fetch (thread : Nat)
  deriving DecidableEq, Repr

/-- One step: `write` is `nc_write_msg_io` under the IO lock with a complete RPC (src/io.c:881-911), `fetch` reads the counter after the
lock was released (src/session_client.c:3196, 3203). -/
def sendStep (s : Send) : SendAct → Option Send
  | .write t => if t ∈ s.waiting then none
    else some { s with msgid := (s.msgid + 1) % 2 ^ 64, wire := s.wire ++ [(t, (s.msgid + 1) % 2 ^ 64)], waiting := t :: s.waiting }
  | .fetch t => if t ∈ s.waiting then some { s with waiting := s.waiting.filter (· ≠ t), told := s.told ++ [(t, s.msgid)] } else none

/-- All steps in order; `none` if the sequence is not one of the threads' programs. (src/session_client.c:3194-3206) -/
def sendRun : List SendAct → Send → Option Send
  | [], s => some s
  | a :: as, s => match sendStep s a with
    | none => none
    | some s' => sendRun as s'

/-- A new session (src/session.c:257). -/
def sendInit : Send := ⟨0, [], [], []⟩

/-! ## Closing a session -/

/-- Reading of the reply to close-session (src/session.c:684-711): the number of messages read before the loop ends within the fuel. -/
def closeLoop (wire : Nat → Input) : Nat → Nat → Option Nat
  | 0, _ => none
  | fuel + 1, i =>
    match wire i with
    | .msg t => if "<notification".toList.isPrefixOf t then closeLoop wire fuel (i + 1) else some (i + 1)
    | _ => some i

/-- Leftover messages are read first (src/session.c:918-920). -/
def leftoverLoop (wire : Nat → Input) : Nat → Nat → Option Nat
  | 0, _ => none
  | fuel + 1, i =>
    match wire i with
    | .msg _ => leftoverLoop wire fuel (i + 1)
    | _ => some i

/-- The reading done by `nc_session_free` of a running client session (src/session.c:917-925): what the server sends is an infinite sequence of
outcomes of `nc_read_msg_poll_io`, `none` means that the fuel did not suffice. -/
def freeReads (wire : Nat → Input) (fuel : Nat) : Option Nat :=
  match leftoverLoop wire fuel 0 with
  | none => none
  | some i => closeLoop wire fuel (i + 1)

/-! ## Notification threads -/

/-- `ntf_thread_count` and `ntf_thread_running` (src/session_p.h:745-746). -/
structure Ntf where
  count : Nat
  running : Bool
  deriving DecidableEq, Repr

/-- What happens to notification threads: a dispatch starts one or fails to; one ends itself after notificationComplete or with a broken session
(src/session_client.c:2499-2520, 2536-2575). -/
inductive NtfAct | start | startFailed | ends
  deriving DecidableEq, Repr

/-- `nc_recv_notif_dispatch_data` (src/session_client.c:2536-2575) and the end of `nc_recv_notif_thread` (src/session_client.c:2521). -/
def ntfStep (n : Ntf) : NtfAct → Ntf
  | .start => ⟨n.count + 1, true⟩
  | .startFailed => if n.count + 1 = 1 then ⟨n.count, false⟩ else ⟨n.count, true⟩
  | .ends => ⟨n.count - 1, n.running⟩

/-- `nc_session_ntf_thread_running` (src/session_client.c:1967-1978). -/
def ntfReported (n : Ntf) : Bool := n.running

end Verif.ClientMsg
