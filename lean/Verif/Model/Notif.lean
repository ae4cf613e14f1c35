import Verif.Model.KeyUtil
import Verif.Model.ClientMsg

/-!
# Notifications: objects of the server, sending, and threads of the client receiving them

`nc_server_notif_new`, `nc_server_notif_free` (src/messages_server.c:768-829), `nc_server_notif_send` (src/session_server.c:1669-1690) with its
part of `nc_write_msg_io` (src/io.c:1021-1033), `nc_recv_notif_dispatch_data` and `nc_recv_notif_thread` (src/session_client.c:2432-2573), and the
part of `nc_session_free` that waits for these threads (src/session.c:860-874).
-/

namespace Verif.Notif
open Verif.Hello (Text)
open Verif.ClientMsg (Cl Out recvMsg)

/-! ## Objects -/

/-- A node by its schema (src/messages_server.c:780): none, a notification, another one. -/
inductive Node where
  | opaq
  | notif
  | other
  deriving DecidableEq, Repr

/-- A data tree (src/messages_server.c:769): its nodes depth-first and its text as printed (src/io.c:1028). -/
structure Tree where
  nodes : List Node
  text : Text
  deriving DecidableEq, Repr

/-- What memory holds: a string or a data tree (src/messages_p.h:53-54). -/
inductive Block where
  | str (t : Text)
  | tree (t : Tree)
  deriving DecidableEq, Repr

/-- Allocated memory and the next fresh address (src/messages_server.c:795-796). -/
structure Heap where
  mem : Nat → Option Block
  next : Nat

/-- An allocation (src/messages_server.c:795-796). -/
def Heap.alloc (h : Heap) (b : Block) : Heap := ⟨fun a => if a = h.next then some b else h.mem a, h.next + 1⟩

/-- `free`, `lyd_free_tree` (src/messages_server.c:817-818); `none`: the memory is not allocated. -/
def Heap.free (h : Heap) (a : Nat) : Option Heap :=
  match h.mem a with
  | none => none
  | some _ => some ⟨fun b => if b = a then none else h.mem b, h.next⟩

/-- NC_PARAMTYPE (src/netconf.h:121-125). -/
inductive Param where
  | const
  | free
  | dupAndFree
  deriving DecidableEq, Repr

/-- `struct nc_server_notif` (src/messages_p.h:52-56); a time of `none` is NULL. -/
structure Obj where
  time : Option Nat
  ntf : Nat
  free : Bool
  deriving DecidableEq, Repr

/-- The search for a notification (src/messages_server.c:778-785); `none`: the schema of an opaque node, NULL, is read. -/
def findNotif : List Node → Option Bool
  | [] => some false
  | .opaq :: _ => none
  | .notif :: _ => some true
  | .other :: r => findNotif r

/-- Whether there is memory for the object, the copied time, the copied tree (src/messages_server.c:791-796). -/
structure Mem where
  obj : Bool
  time : Bool
  tree : Bool
  deriving DecidableEq, Repr

/-- The copies of `nc_server_notif_new` (src/messages_server.c:795-799, 804). -/
def copies (m : Mem) (h : Heap) (t : Text) (e : Tree) : Option Obj × Heap :=
  let time := if m.time then some h.next else none
  let h1 := if m.time then h.alloc (.str t) else h
  if m.tree then (some ⟨time, h1.next, true⟩, h1.alloc (.tree e)) else (none, h1)

/-- `nc_server_notif_new` (src/messages_server.c:768-807): the object, if one is returned, and memory; `none` is undefined behaviour. -/
def new (m : Mem) (h : Heap) (event time : Option Nat) (p : Param) : Option (Option Obj × Heap) :=
  match event, time with
  | some ev, some tm =>
    match h.mem ev with
    | some (.tree e) =>
      match findNotif e.nodes with
      | none => none
      | some false => some (none, h)
      | some true =>
        if m.obj = false then some (none, h)
        else if p = .dupAndFree then
          match h.mem tm with
          | some (.str t) => some (copies m h t e)
          | _ => none
        else some (some ⟨some tm, ev, p != .const⟩, h)
    | _ => none
  | _, _ => some (none, h)

/-- `nc_server_notif_free` (src/messages_server.c:809-821). -/
def free (h : Heap) (o : Obj) : Option Heap :=
  if o.free then
    match h.free o.ntf with
    | none => none
    | some h1 =>
      match o.time with
      | none => some h1
      | some t => h1.free t
  else some h

/-! ## Sending -/

/-- A session (src/session_p.h:683-767): its side, its subscriptions (src/session_server.c:3240-3290). -/
structure Sess where
  server : Bool
  subs : Nat
  deriving DecidableEq, Repr

/-- `nc_write_clb` of the first `n` characters of a string (src/io.c:1024-1032); `none`: it is shorter. -/
def part (t : Text) (n : Nat) : Option Text := if n ≤ t.length then some (t.take n) else none

/-- The text written for a notification (src/io.c:1021-1033). -/
def notifText (time tree : Text) : Option Text :=
  match part c!"<notification xmlns=\"urn:ietf:params:xml:ns:netconf:notification:1.0\">" (21 + 47 + 2),
    part c!"<eventTime>" 11, part c!"</eventTime>" 12, part c!"</notification>" 15 with
  | some a, some b, some c, some d => some (a ++ b ++ time ++ c ++ tree ++ d)
  | _, _, _, _ => none

/-- `nc_server_notif_send` (src/session_server.c:1669-1690) up to the text written, `some none`: NC_MSG_ERROR without writing. Locks and the
transport are in `Verif.Dialog`, `Verif.Writer`. -/
def send (h : Heap) (s : Sess) (o : Option Obj) : Option (Option Text) :=
  if s.server = false ∨ s.subs = 0 then some none
  else
    match o with
    | none => some none
    | some o =>
      match o.time with
      | none => some none
      | some tm =>
        match h.mem tm, h.mem o.ntf with
        | some (.str t), some (.tree e) => (notifText t e.text).map some
        | _, _ => none

/-! ## What a receiving thread does -/

/-- A notification as parsed (src/session_client.c:2449, 2505): names of its node and of the module, and its text. -/
structure Got where
  name : Text
  modName : Text
  text : Text
  deriving DecidableEq, Repr

/-- The notification that ends a subscription (src/session_client.c:2505). -/
def Got.complete (g : Got) : Bool := g.name == c!"notificationComplete" && g.modName == c!"nc-notifications"

/-- What an iteration of the thread gives: a call of the callback, if there was one, and whether the thread goes on (src/session_client.c:2501-2518). -/
structure Iter where
  call : Option Got
  on : Bool
  deriving DecidableEq, Repr

/-- The body of the loop of `nc_recv_notif_thread` with `recv_notif` (src/session_client.c:2432-2463, 2502-2515); `parse` is `lyd_parse_op`. A failure
of the transport breaks the session, a message that cannot be parsed does not. A crash (`ClientMsg.Out.crash`) is `none`. -/
def iter (parse : Text → Option Got) (c : Cl) : Option (Iter × Cl) :=
  match recvMsg .notif .got c with
  | (.crash, _) => none
  | (.got .notif (some t), c') =>
    match parse t with
    | some g => some (⟨some g, !g.complete⟩, c')
    | none => some (⟨none, true⟩, c')
  | (.error, c') => some (⟨none, !(c.wire.head? == some .failure)⟩, c')
  | (_, c') => some (⟨none, true⟩, c')

/-- What happens in a client with one such thread: an iteration of it, or another thread receives a reply (src/session_client.c:2211, 2501). -/
inductive Turn where
  | notif
  | reply
  deriving DecidableEq, Repr

/-- The turns in any order: the calls of the callback, whether the thread goes on, and the messages (src/session_client.c:2211, 2501-2518). -/
def turns (parse : Text → Option Got) : List Turn → Cl → Option (List Got × Bool × Cl)
  | [], c => some ([], true, c)
  | .reply :: ts, c =>
    match recvMsg .reply .got c with
    | (.crash, _) => none
    | (_, c') => turns parse ts c'
  | .notif :: ts, c =>
    match iter parse c with
    | none => none
    | some (i, c') =>
      if i.on then (turns parse ts c').map (fun r => (i.call.toList ++ r.1, r.2.1, r.2.2))
      else some (i.call.toList, false, c')

/-! ## Threads and the end of the session -/

/-- Where a dispatch call and the thread it made are: `called`: counted (src/session_client.c:2557), `flagged`: flag set (2560), `refused`: no thread could be
made (2563), `resetting`: it was the last one (2566), `failed`: -1 was returned; the thread: `loop` (2501), `receiving` (2502), `calling` (2504),
`leaving` (2520), `left`: not counted any more (2521), `ended` (2526). -/
inductive Pc where
  | called
  | flagged
  | refused
  | resetting
  | failed
  | loop
  | receiving
  | calling
  | leaving
  | left
  | ended
  deriving DecidableEq, Repr

/-- Where `nc_session_free` is (src/session.c:847-874): not called, waiting for the threads (867), past that: the session is freed. -/
inductive Free where
  | no
  | waiting
  | done
  deriving DecidableEq, Repr

/-- What the application sees: its callback is called, its data are freed (src/session_client.c:2504, 2523). -/
inductive Ev where
  | call (i : Nat)
  | freed (i : Nat)
  deriving DecidableEq, Repr

/-- `ntf_thread_running`, `ntf_thread_count` (src/session_p.h:745-746), the dispatch calls so far, `nc_session_free`, and what was seen. -/
structure Sys where
  running : Bool
  count : Nat
  pcs : List Pc
  free : Free
  log : List Ev
  deriving DecidableEq, Repr

/-- A session before any dispatch (src/session.c:257). -/
def Sys.init : Sys := ⟨false, 0, [], .no, []⟩

/-- What the receiving of a thread gave: a notification, nothing of interest, a broken session (src/session_client.c:2503-2515). -/
inductive Recv where
  | notif
  | nothing
  | broken
  deriving DecidableEq, Repr

/-- Steps of the threads (src/session_client.c:2501-2526, 2557-2569, src/session.c:860-874); `i` is the number of the dispatch. -/
inductive Act where
  | dispatch
  | flag (i : Nat)
  | create (i : Nat) (ok : Bool)
  | uncount (i : Nat)
  | reset (i : Nat)
  | check (i : Nat)
  | receive (i : Nat) (r : Recv)
  | call (i : Nat) (complete : Bool)
  | leave (i : Nat)
  | freeData (i : Nat)
  | free
  | allLeft
  | timeout
  deriving DecidableEq, Repr

/-- A step is not possible now, it uses a freed session, or a new state (src/session.c:846-874). -/
inductive Res where
  | no
  | ub
  | ok (s : Sys)
  deriving DecidableEq, Repr

/-- The dispatch or its thread goes on (src/session_client.c:2501-2569). -/
def Sys.go (s : Sys) (i : Nat) (p : Pc) : Sys := { s with pcs := s.pcs.set i p }

/-- A step of a thread that uses the session (src/session_client.c:2501-2521). -/
def Sys.use (s : Sys) (i : Nat) (p : Pc) (s' : Sys) : Res :=
  if s.pcs[i]? ≠ some p then .no else if s.free = .done then .ub else .ok s'

/-- A dispatch call is under way (src/session_client.c:2557-2569). -/
def Pc.inCall : Pc → Bool
  | .called | .flagged | .refused | .resetting => true
  | _ => false

/-- One step. The application does not use a session it has begun to free, and frees it only when none of its other calls is under way.
(src/session_client.c:2501-2526, 2557-2569, src/session.c:860-874) -/
def step (s : Sys) : Act → Res
  | .dispatch => if s.free = .no then .ok { s with count := s.count + 1, pcs := s.pcs ++ [.called] } else .no
  | .flag i => if s.pcs[i]? = some .called then .ok { s.go i .flagged with running := true } else .no
  | .create i ok => if s.pcs[i]? = some .flagged then .ok (s.go i (if ok then .loop else .refused)) else .no
  | .uncount i =>
    if s.pcs[i]? = some .refused then .ok { s.go i (if s.count = 1 then .resetting else .failed) with count := s.count - 1 } else .no
  | .reset i => if s.pcs[i]? = some .resetting then .ok { s.go i .failed with running := false } else .no
  | .check i => s.use i .loop (s.go i (if s.running then .receiving else .leaving))
  | .receive i r => s.use i .receiving (s.go i (match r with | .notif => .calling | .nothing => .loop | .broken => .leaving))
  | .call i complete => s.use i .calling { s.go i (if complete then .leaving else .loop) with log := s.log ++ [.call i] }
  | .leave i => s.use i .leaving { s.go i .left with count := s.count - 1 }
  | .freeData i => if s.pcs[i]? = some .left then .ok { s.go i .ended with log := s.log ++ [.freed i] } else .no
  | .free =>
    if s.free = .no ∧ s.pcs.any Pc.inCall = false then
      .ok (if s.running then { s with running := false, free := .waiting } else { s with free := .done })
    else .no
  | .allLeft => if s.free = .waiting ∧ s.count = 0 then .ok { s with free := .done } else .no
  | .timeout => if s.free = .waiting then .ok { s with free := .done } else .no

/-- Steps one after another (src/session_client.c:2501-2526, 2557-2569, src/session.c:860-874). -/
def run : List Act → Sys → Res
  | [], s => .ok s
  | a :: as, s =>
    match step s a with
    | .no => .no
    | .ub => .ub
    | .ok s' => run as s'

end Verif.Notif
