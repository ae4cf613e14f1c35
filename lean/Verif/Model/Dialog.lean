import Verif.Model.Writer
import Verif.Model.Reader
import Verif.Model.ServerRpc
import Verif.Model.ClientMsg

/-!
# A client and a server talking to each other

The functions of the client (`nc_send_rpc`, `nc_recv_reply`, `nc_recv_notif`) and of the server (`nc_ps_poll` for a session with data,
`nc_server_notif_send`) put together: messages are written with the model of `nc_write_msg_io`, carried as bytes, and read with the model of
`nc_read_msg_io`.  Printing and parsing of data trees belong to libyang and are parameters.

Simplifications: a message is written in one step, as it is under the lock of the session, and read in one step by a reader that waits for its
bytes; one thread of the client sends RPCs (several: `Verif.ClientMsg.sendStep`); locks of the server are free.
-/

namespace Verif.Dialog
open Verif.Reader Verif.Writer
open Verif.ServerRpc (Srv Sent Body Text)
open Verif.ClientMsg (Kind Out ReplyRes Parsed)

/-- Bytes of a text (src/io.c:887, 1024); the texts used here are ASCII. -/
def bytes (t : Text) : List Byte := t.map Char.toNat

/-- The text made of bytes (src/session_client.c:2057-2059). -/
def chars (b : List Byte) : Text := b.map Char.ofNat

/-- A notification given to `nc_server_notif_send`: the time and the number of its data tree (src/messages_p.h:52-56). -/
structure Notif where
  time : Text
  ntf : Nat
  deriving DecidableEq, Repr

/-- libyang: the writes made for an operation with its action element (src/io.c:893-909), a reply (src/io.c:990) and the tree of a notification
(src/io.c:1028), and parsing of requests (src/session_server.c:1622) and replies (src/session_client.c:2218) with the contents found. -/
structure Xml where
  opWrites : ServerRpc.Op → List Op
  replyWrites : Sent → List Op
  ntfWrites : Nat → List Op
  parseRpc : List Byte → ServerRpc.Read
  parseReply : List Byte → Parsed × Option Body

/-- A write whose result is not looked at (src/io.c:890, 896, 908, 913, 1024-1027, 1032). -/
def plain (t : Text) : Op := ⟨bytes t, false, false⟩

/-- The writes of an RPC (src/io.c:886-913) without further attributes. -/
def rpcWrites (x : Xml) (id : Nat) (op : ServerRpc.Op) : List Op :=
  ⟨bytes c!"<rpc xmlns=\"urn:ietf:params:xml:ns:netconf:base:1.0\" message-id=\"" ++ dec id ++ bytes c!"\">", false, false⟩ ::
    x.opWrites op ++ [plain c!"</rpc>"]

/-- The writes of a notification (src/io.c:1024-1032). -/
def notifWrites (x : Xml) (n : Notif) : List Op :=
  plain c!"<notification xmlns=\"urn:ietf:params:xml:ns:netconf:notification:1.0\">" :: plain c!"<eventTime>" :: plain n.time ::
    plain c!"</eventTime>" :: x.ntfWrites n.ntf ++ [plain c!"</notification>"]

/-- How a message is read: results of the primitive reads, of the allocations, and a bound for the loops (src/io.c:270-383). -/
structure Reading where
  script : List ReadEv
  mem : Nat → Bool
  fuel : Nat

/-- `nc_read_msg_io` (src/io.c:270-383) for the version of the session. -/
def receive (v : Version) (r : Reading) (wire : List Byte) : Res Chan :=
  match v with
  | .v11 => readMsg11 ncRead r.mem r.fuel r.fuel none ⟨wire, r.script⟩
  | .v10 => readMsg10 ncRead r.fuel ⟨wire, r.script⟩

/-- Both sessions and the connection: the counter of the client (src/session_p.h:741), bytes on the way to the server, the session of the server,
bytes on the way to the client, messages kept by the client (src/session_p.h:744); and what the applications saw: operations sent with the ids
told to the client, notifications sent, results of receiving replies (with the id asked for) and notifications. -/
structure St where
  msgid : Nat
  up : List Byte
  srv : ServerRpc.Sess
  down : List Byte
  kept : List (Kind × Text)
  asked : List (Nat × ServerRpc.Op)
  notified : List Notif
  replies : List (Nat × ReplyRes × Option Body)
  notifs : List Text
  deriving DecidableEq, Repr

/-- What the applications do (src/session_client.c:2404, 2466, 3197, src/session_server.c:1670, 2119). -/
inductive Act where
  | rpc (op : ServerRpc.Op) (w : List WriteEv)
  | poll (r : Reading) (w : List WriteEv)
  | notify (n : Notif) (w : List WriteEv)
  | recvReply (msgid : Nat) (lock : ClientMsg.Lock) (r : Reading)
  | recvNotif (lock : ClientMsg.Lock) (r : Reading)

/-- The result of an act: a new state, a failure of a transport (the session ends), or a message that is malformed or not understood, a NULL pointer or
an access outside of memory. (src/io.c:270-383) -/
inductive Step where
  | ok (s : St)
  | lost
  | broken
  deriving DecidableEq, Repr

/-- Writing a message behind the bytes on the way (src/io.c:845-1082). -/
def put (v : Version) (wire : List Byte) (w : List WriteEv) (ops : List Op) : Option (List Byte) :=
  match sendMsg v ⟨wire, w, true⟩ ops with
  | (true, k) => some k.wire
  | (false, _) => none

/-- Writing the replies made by one poll (src/session_server.c:1641, 1751). -/
def putAll (v : Version) (x : Xml) (wire : List Byte) (w : List WriteEv) : List Sent → Option (List Byte)
  | [] => some wire
  | s :: l =>
    match put v wire w (x.replyWrites s) with
    | none => none
    | some wire => putAll v x wire w l

/-- `nc_send_rpc` with the operation as data (src/session_client.c:3196-3207, src/io.c:881-916). -/
def sendRpc (v : Version) (x : Xml) (s : St) (op : ServerRpc.Op) (w : List WriteEv) : Step :=
  match put v s.up w (rpcWrites x ((s.msgid + 1) % 2 ^ 64) op) with
  | none => .lost
  | some up => .ok { s with up := up, msgid := (s.msgid + 1) % 2 ^ 64, asked := s.asked ++ [((s.msgid + 1) % 2 ^ 64, op)] }

/-- `nc_ps_poll` on the session (src/session_server.c:1590-1661, 2119-2149): nothing happens without data or in a session that does not run. -/
def poll (v : Version) (x : Xml) (srv : Srv) (s : St) (r : Reading) (w : List WriteEv) : Step :=
  if s.srv.status ≠ .running ∨ s.up = [] then .ok s
  else
    match receive v r s.up with
    | .fail => .lost
    | .bad => .broken
    | .ub => .broken
    | .msg t rest =>
      match ServerRpc.serve srv s.srv ⟨x.parseRpc t, .got, .takes⟩ with
      | none => .broken
      | some (_, sess) =>
        match putAll v x s.down w (sess.sent.drop s.srv.sent.length) with
        | none => .lost
        | some down => .ok { s with up := rest.bytes, srv := sess, down := down }

/-- `nc_server_notif_send` (src/session_server.c:1669-1690, src/io.c:863, 1021-1033). -/
def notify (v : Version) (x : Xml) (s : St) (n : Notif) (w : List WriteEv) : Step :=
  if s.srv.status ≠ .running then .ok s
  else
    match put v s.down w (notifWrites x n) with
    | none => .lost
    | some down => .ok { s with down := down, notified := s.notified ++ [n] }

/-- What the next call of `nc_read_msg_poll_io` meets (src/io.c:487-516), and the bytes left behind it. -/
def next (v : Version) (r : Reading) (down : List Byte) : ClientMsg.Input × List Byte :=
  if down = [] then (.idle, down)
  else
    match receive v r down with
    | .fail => (.failure, down)
    | .bad => (.malformed, down)
    | .ub => (.malformed, down)
    | .msg t rest => (.msg (chars t), rest.bytes)

/-- `recv_msg` over the connection (src/session_client.c:2113-2197): the bytes are taken only if the message was read. -/
def recv (v : Version) (s : St) (k : Kind) (lock : ClientMsg.Lock) (r : Reading) : Out × St :=
  match ClientMsg.recvMsg k lock ⟨s.kept, [(next v r s.down).1]⟩ with
  | (o, c) => (o, { s with kept := c.msgs, down := if c.wire = [] then (next v r s.down).2 else s.down })

/-- `nc_recv_reply` (src/session_client.c:2403-2430, 2198-2239). -/
def recvReply (v : Version) (x : Xml) (s : St) (msgid : Nat) (lock : ClientMsg.Lock) (r : Reading) : Step :=
  match recv v s .reply lock r with
  | (.got .reply (some t), s) =>
    .ok { s with replies := s.replies ++ [(msgid, ClientMsg.recvReply (x.parseReply (bytes t)).1 msgid, (x.parseReply (bytes t)).2)] }
  | (.got _ _, s) => .ok s
  | (.wouldblock, s) => .ok s
  | (.error, s) => if (next v r s.down).1 = .failure ∨ lock = .failed then .lost else .broken
  | (.crash, _) => .broken

/-- `nc_recv_notif` (src/session_client.c:2465-2478, 2432-2463). -/
def recvNotif (v : Version) (s : St) (lock : ClientMsg.Lock) (r : Reading) : Step :=
  match recv v s .notif lock r with
  | (.got .notif (some t), s) => .ok { s with notifs := s.notifs ++ [t] }
  | (.got _ _, s) => .ok s
  | (.wouldblock, s) => .ok s
  | (.error, s) => if (next v r s.down).1 = .failure ∨ lock = .failed then .lost else .broken
  | (.crash, _) => .broken

/-- One act (src/session_client.c:2404, 2466, 3197, src/session_server.c:1670, 2119). -/
def step (v : Version) (x : Xml) (srv : Srv) (s : St) : Act → Step
  | .rpc op w => sendRpc v x s op w
  | .poll r w => poll v x srv s r w
  | .notify n w => notify v x s n w
  | .recvReply id lock r => recvReply v x s id lock r
  | .recvNotif lock r => recvNotif v s lock r

/-- Acts one after the other, in any order; a lost connection ends them. (src/session_client.c:2404, 2466, 3197, src/session_server.c:1670, 2119) -/
def run (v : Version) (x : Xml) (srv : Srv) : St → List Act → Step
  | s, [] => .ok s
  | s, a :: as =>
    match step v x srv s a with
    | .ok s => run v x srv s as
    | .lost => .lost
    | .broken => .broken

/-- New sessions (src/session.c:257). -/
def start (v11 : Bool) : St := ⟨0, [], ⟨v11, .running, Poll.tNone, [], []⟩, [], [], [], [], [], []⟩

end Verif.Dialog
