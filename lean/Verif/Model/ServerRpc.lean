import Verif.Model.NcErr
import Verif.Model.Poll
import Verif.Model.KeyUtil

/-!
# Requests received by the server and their replies

/repo/src/session_server.c:1382-1768 (receiving an RPC, error replies for bad messages, running the callback, sending the
reply), the end of `nc_ps_poll` (2120-2149), the reply part of `nc_write_msg_io` (/repo/src/io.c:914-1017), reply objects
(/repo/src/messages_server.c:33-129, 738-766) and the default callbacks (/repo/src/session_server.c:663-760).

Reading and parsing are inputs: a message was read or not, libyang parsed it or left an error item.
Memory allocation does not fail.
-/

namespace Verif.ServerRpc
open NcErr
open Poll (Status rError rBadRpc rReplyError rTerm rSessError rRpc rTimeout tNone tClosed tKilled tDropped tOther)

/-- C strings (/repo/src/session_server.c:1447). -/
abbrev Text := List Char

/-! ## Error replies for messages that are not valid RPCs -/

/-- The loop of `nc_rpc_err_get_quoted_string` (/repo/src/session_server.c:1456-1469): positions of `start` and `end`; `i` is
the position of `iter`, `cnt` is `quote_cnt` (messages with 2^32 quotes are not considered). -/
def quoteLoop (last : Nat) : Text → Nat → Nat → Option Nat → Option Nat → Option Nat × Option Nat
  | [], _, _, s, e => (s, e)
  | c :: t, i, cnt, s, e =>
    if c ≠ '"' then quoteLoop last t (i + 1) cnt s e
    else if cnt + 1 = last then (e, some i)
    else quoteLoop last t (i + 1) (cnt + 1) e (some i)

/-- `nc_rpc_err_get_quoted_string` (/repo/src/session_server.c:1446-1481). -/
def quoted (msg : Text) (index : Nat) : Option Text :=
  match quoteLoop ((index + 1) * 2 % 4294967296) msg 0 0 none none with
  | (some s, some e) => some ((msg.drop (s + 1)).take (e - (s + 1)))
  | _ => none

/-- `nc_strstarts` (/repo/src/session_server.c:1490-1494). -/
def strstarts (pre str : Text) : Bool := pre.isPrefixOf str

/-- The last error item of libyang: `msg`, `schema_path`, and whether `err` is LY_EMEM (/repo/src/session_server.c:1516, 1531-1543). -/
structure LyErr where
  msg : Text
  path : Option Text
  mem : Bool
  deriving DecidableEq, Repr

/-- A schema node found by its path: name and whether it is an RPC or an input (/repo/src/session_server.c:1546-1547). -/
structure Node where
  name : Text
  isRpc : Bool
  deriving DecidableEq, Repr

/-- The text behind the last occurrence of a character, `strrchr(str, c) + 1`; `none` if there is none (NULL).
(/repo/src/session_server.c:1423, 1560) -/
def afterLast (c : Char) (p : Text) : Option Text :=
  if c ∈ p then some (p.reverse.takeWhile (· ≠ c)).reverse else none

/-- `nc_rpc_err_find_lysc_node` (/repo/src/session_server.c:1410-1432); `find` is `lys_find_path`. The outer `none` is the use of
a NULL pointer (a path without a slash). -/
def findNode (find : Text → Option Node) : Option Text → Option (Option Node)
  | none => some none
  | some p =>
    match afterLast '/' p with
    | none => none
    | some last => some (if '@' ∈ last then find (p.take (p.length - last.length - 1)) else find p)

/-- An error object with string arguments (/repo/src/messages_server.c:261-474). -/
def mkErr (tag : Tag) (ty : Ty) (a1 a2 : Option Text) : Option Err :=
  ncErr tag ty (a1.map String.ofList) (a2.map String.ofList) 0

/-- The decision about the error for a message whose envelope was parsed (/repo/src/session_server.c:1545-1570). The outer `none` is
the use of a NULL pointer. -/
def chooseErr (cn : Option Node) (e : LyErr) : Option (Option Err) :=
  let ty := match cn with
    | some n => if n.isRpc then Ty.prot else .app
    | none => .app
  match cn with
  | some n =>
    if strstarts c!"Missing mandatory prefix" e.msg || strstarts c!"Unknown XML prefix" e.msg then
      match quoted e.msg 1 with
      | some str => some (mkErr .unknownAttr ty (some str) (some n.name))
      | none => some (mkErr .opFailed .app none none)
    else if strstarts c!"Annotation definition for attribute" e.msg then
      match e.path with
      | none => none
      | some p =>
        match afterLast ':' p with
        | none => none
        | some attr => some (mkErr .unknownAttr ty (some attr) (some n.name))
    else if strstarts c!"Invalid character sequence" e.msg then some (mkErr .malformedMsg .rpc none none)
    else if e.mem then some (mkErr .resDenied ty none none)
    else some (mkErr .opFailed .app none none)
  | none =>
    if strstarts c!"Invalid character sequence" e.msg then some (mkErr .malformedMsg .rpc none none)
    else if e.mem then some (mkErr .resDenied ty none none)
    else some (mkErr .opFailed .app none none)

/-- `nc_server_prepare_rpc_err` (/repo/src/session_server.c:1503-1584) up to the error object: `v11` is the session version, `envp`
whether the envelope was parsed, `e` is `ly_err_last` (NULL is `none`). The outer `none` is the use of a NULL pointer. -/
def prepareErr (v11 envp : Bool) (find : Text → Option Node) (e : Option LyErr) : Option (Option Err) :=
  if !envp && !v11 then some none
  else
    match e with
    | none => none
    | some e =>
      if !envp then
        if e.msg = c!"Missing XML namespace." then some (mkErr .missingAttr .rpc (some c!"xmlns") (some c!"rpc"))
        else some (mkErr .malformedMsg .rpc none none)
      else
        match findNode find e.path with
        | none => none
        | some cn =>
          match chooseErr cn e with
          | none => none
          | some r => some (r.map (fun x => setMsg x (String.ofList e.msg) (some "en")))

/-! ## Replies -/

/-- An XML attribute of the envelope (/repo/src/session_server.c:1389). -/
structure Attr where
  name : Text
  value : Text
  deriving DecidableEq, Repr

/-- The parsed `rpc` element (/repo/src/session_server.c:1621): prefix, namespace, attributes. -/
structure Envp where
  pref : Option Text
  ns : Text
  attrs : List Attr
  deriving DecidableEq, Repr

/-- NC_WD_MODE (/repo/src/netconf.h:100-106). -/
inductive Wd where
  | unknown | all | allTag | trim | explicit
  deriving DecidableEq, Repr

/-- The printer flags of libyang for default values (/repo/src/io.c:945-958). -/
inductive WdPrint where
  | explicit | trim | all | allTag
  deriving DecidableEq, Repr

/-- The flag for a mode (/repo/src/io.c:944-959). -/
def wdPrint : Wd → WdPrint
  | .unknown => .explicit
  | .explicit => .explicit
  | .trim => .trim
  | .all => .all
  | .allTag => .allTag

/-- `struct nc_server_reply` (/repo/src/messages_p.h:31-45): no data, the children of the operation node, or errors. -/
inductive Reply where
  | ok
  | data (children : List Text) (wd : Wd)
  | errors (l : List Err)
  deriving DecidableEq, Repr

/-- The content of an rpc-reply as given to the printer (/repo/src/io.c:931-972). -/
inductive Body where
  | ok
  | data (children : List Text) (wd : WdPrint)
  | errors (l : List Err)
  deriving DecidableEq, Repr

/-- An rpc-reply that was sent (/repo/src/io.c:918-985). -/
structure Sent where
  pref : Option Text
  ns : Text
  attrs : List Attr
  body : Body
  deriving DecidableEq, Repr

/-- A schema node of the operation: RPC, action or other, and its callback (`priv`) (/repo/src/session_server.c:1718-1744). -/
structure SNode where
  isRpc : Bool
  isAction : Bool
  priv : Option Nat
  deriving DecidableEq, Repr

/-- The parsed operation: its nodes in depth-first order, the first is the root, and its text (/repo/src/session_server.c:1718-1734). -/
structure Op where
  root : SNode
  rest : List SNode
  text : Text
  deriving DecidableEq, Repr

/-- What nc_session_io_lock returned: 1, 0 or -1 (/repo/src/io.c:872-877). -/
inductive Lock where
  | got | busy | broken
  deriving DecidableEq, Repr

/-- How writing goes (/repo/src/io.c:571-653, 981, 1009, 1073): everything is written; the connection is found closed and the
session becomes invalid; a write error reported by the printer; a write error of the last flush, which nobody looks at. -/
inductive Peer where
  | takes | dropped | fails | silent
  deriving DecidableEq, Repr

/-- The session (/repo/src/session_p.h:683-767): version, status, reason, and a log of the replies sent and callbacks called. -/
structure Sess where
  v11 : Bool
  status : Status
  reason : Nat
  sent : List Sent
  calls : List (Nat × Op)
  deriving DecidableEq, Repr

/-- The element printed for a reply (/repo/src/io.c:918-985); `none` is the use of NULL (`ok` without an envelope, 933). -/
def replyElem (envp : Option Envp) (r : Reply) : Option Sent :=
  match r, envp with
  | .ok, none => none
  | .ok, some e => some ⟨e.pref, e.ns, e.attrs, .ok⟩
  | .data cs wd, some e => some ⟨e.pref, e.ns, e.attrs, .data cs (wdPrint wd)⟩
  | .data cs wd, none => some ⟨none, c!"urn:ietf:params:xml:ns:netconf:base:1.0", [], .data cs (wdPrint wd)⟩
  | .errors l, some e => some ⟨e.pref, e.ns, e.attrs, .errors l⟩
  | .errors l, none => some ⟨none, c!"urn:ietf:params:xml:ns:netconf:base:1.0", [], .errors l⟩

/-- `nc_write_msg_io` for a reply (/repo/src/io.c:845-1082): whether NC_MSG_REPLY was returned, and the session. -/
def writeReply (s : Sess) (lock : Lock) (peer : Peer) (envp : Option Envp) (r : Reply) : Option (Bool × Sess) :=
  if s.status ≠ .running ∧ s.status ≠ .starting then some (false, s)
  else
    match lock with
    | .broken => some (false, s)
    | .busy => some (false, s)
    | .got =>
      match replyElem envp r with
      | none => none
      | some x =>
        match peer with
        | .takes => some (true, { s with sent := s.sent ++ [x] })
        | .dropped => some (false, { s with status := .invalid, reason := tDropped })
        | .fails => some (false, s)
        | .silent => some (true, s)

/-- What happened when the message was read and parsed (/repo/src/session_server.c:1606-1639): reading failed (with the status and reason
left), the lock was not available in time, the frame is invalid, libyang parsed the message, or libyang failed, perhaps after the envelope. -/
inductive Read where
  | failed (status : Status) (reason : Nat)
  | busy
  | frame
  | parsed (envp : Envp) (op : Op)
  | rejected (envp : Option Envp) (e : Option LyErr)
  deriving DecidableEq, Repr

/-- What a callback gave: the reply, and the status and reason of the session afterwards (/repo/src/session_server.c:1736-1746). -/
structure CbRes where
  reply : Option Reply
  status : Status
  reason : Nat
  deriving DecidableEq, Repr

/-- The server: schema lookup, the global callback, and the callbacks (/repo/src/session_server.c:1429, 1736-1746). A callback is a function of
its number, the operation, and the status and reason of the session. -/
structure Srv where
  find : Text → Option Node
  glob : Option Nat
  run : Nat → Op → Status → Nat → CbRes

/-- One call of `nc_ps_poll` that found data (/repo/src/session_server.c:2119-2149): the message, and the lock and the connection when a reply is written. -/
structure Ev where
  read : Read
  lock : Lock
  peer : Peer
  deriving DecidableEq, Repr

/-- `recv_rpc_check_msgid` (/repo/src/session_server.c:1381-1402). -/
def hasMsgid (e : Envp) : Bool := e.attrs.any (fun a => a.name == c!"message-id")

/-- `nc_server_reply_err` (/repo/src/messages_server.c:78-91): no error gives no reply. -/
def replyErr (e : Option Err) : Option Reply := e.map (fun x => .errors [x])

/-- The end of `nc_server_recv_rpc_io` (/repo/src/session_server.c:1638-1661): sending the error reply. -/
def finishRecv (s : Sess) (lock : Lock) (peer : Peer) (envp : Option Envp) (reply : Option Reply) (ret : Nat) : Option (Nat × Sess) :=
  match reply with
  | none => some (ret, s)
  | some r =>
    match writeReply s lock peer envp r with
    | none => none
    | some (ok, s') =>
      let s' := if ok = false ∧ s'.status ≠ .invalid then { s' with status := .invalid, reason := tOther } else s'
      some (ret ||| rReplyError, s')

/-- `nc_server_recv_rpc_io` (/repo/src/session_server.c:1590-1661): return value, the RPC, the session. -/
def recvRpc (srv : Srv) (s : Sess) (ev : Ev) : Option (Nat × Option (Envp × Op) × Sess) :=
  if s.status ≠ .running then some (rError, none, s)
  else
    match ev.read with
    | .frame =>
      match finishRecv s ev.lock ev.peer none (replyErr (mkErr .malformedMsg .rpc none none)) 0 with
      | none => none
      | some (ret, s') => some (ret, none, s')
    | .failed st re => some (rError, none, { s with status := st, reason := re })
    | .busy => some (rTimeout, none, s)
    | .parsed envp op =>
      if hasMsgid envp then some (rRpc, some (envp, op), s)
      else
        match finishRecv s ev.lock ev.peer (some envp) (replyErr (mkErr .missingAttr .rpc (some c!"message-id") (some c!"rpc"))) rBadRpc with
        | none => none
        | some (ret, s') => some (ret, none, s')
    | .rejected envp e =>
      match prepareErr s.v11 envp.isSome srv.find e with
      | none => none
      | some err =>
        match finishRecv s ev.lock ev.peer envp (replyErr err) rBadRpc with
        | none => none
        | some (ret, s') => some (ret, none, s')

/-- The schema node of the RPC or action (/repo/src/session_server.c:1718-1734). -/
def rpcNode (op : Op) : Option SNode :=
  if op.root.isRpc then some op.root else (op.root :: op.rest).find? (·.isAction)

/-- Calling the callback of the operation (/repo/src/session_server.c:1736-1746): the reply (NULL is `none`) and the session. -/
def callOp (srv : Srv) (s : Sess) (op : Op) (n : SNode) : Option Reply × Sess :=
  match n.priv, srv.glob with
  | none, none => (replyErr (mkErr .opNotSupported .prot none none), s)
  | none, some c =>
    ((srv.run c op s.status s.reason).reply,
      { s with status := (srv.run c op s.status s.reason).status, reason := (srv.run c op s.status s.reason).reason, calls := s.calls ++ [(c, op)] })
  | some c, _ =>
    ((srv.run c op s.status s.reason).reply,
      { s with status := (srv.run c op s.status s.reason).status, reason := (srv.run c op s.status s.reason).reason, calls := s.calls ++ [(c, op)] })

/-- A reply of type error (/repo/src/session_server.c:1752). -/
def isErr : Reply → Bool
  | .errors _ => true
  | _ => false

/-- A termination reason set by the callback ends the session (/repo/src/session_server.c:1763-1765). -/
def closeIf (s : Sess) : Sess := if s.status = .running ∧ s.reason ≠ tNone then { s with status := .invalid } else s

/-- Sending the reply of the callback (/repo/src/session_server.c:1748-1768). -/
def finishSend (s : Sess) (lock : Lock) (peer : Peer) (envp : Envp) (reply : Option Reply) : Option (Nat × Sess) :=
  match (match reply with
    | some r => some r
    | none => replyErr (mkErr .opFailed .app none none)) with
  | none => none
  | some r =>
    match writeReply s lock peer (some envp) r with
    | none => none
    | some (ok, s') => some ((if isErr r then rReplyError else 0) ||| (if ok then 0 else rError), closeIf s')

/-- `nc_server_send_reply_io` (/repo/src/session_server.c:1703-1768). -/
def sendReply (srv : Srv) (s : Sess) (ev : Ev) (rpc : Option (Envp × Op)) : Option (Nat × Sess) :=
  match rpc with
  | none => some (rError, s)
  | some (envp, op) =>
    match rpcNode op with
    | none => some (rError, s)
    | some n => finishSend (callOp srv s op n).2 ev.lock ev.peer envp (callOp srv s op n).1

/-- The end of `nc_ps_poll` (/repo/src/session_server.c:2119-2149) without the time of the last RPC: return value and session. -/
def serve (srv : Srv) (s : Sess) (ev : Ev) : Option (Nat × Sess) :=
  match recvRpc srv s ev with
  | none => none
  | some (ret, rpc, s) =>
    if ret &&& (rError ||| rBadRpc) ≠ 0 then
      some ((if s.status ≠ .running then ret ||| rTerm ||| rSessError else ret), s)
    else
      match sendReply srv s ev rpc with
      | none => none
      | some (r, s) =>
        let ret := ret ||| r
        some ((if s.status ≠ .running then
            (if s.reason &&& (tClosed ||| tKilled) = 0 then ret ||| rTerm ||| rSessError else ret ||| rTerm)
          else ret), s)

/-- Messages served one after the other; a session that is not running is not served any more (/repo/src/session_server.c:1950-1996). -/
def run (srv : Srv) : Sess → List Ev → Option Sess
  | s, [] => some s
  | s, ev :: evs =>
    if s.status ≠ .running then some s
    else
      match serve srv s ev with
      | none => none
      | some (_, s') => run srv s' evs

/-! ## Default callbacks -/

/-- `nc_clb_default_close_session` (/repo/src/session_server.c:755-760) as a callback. -/
def closeSession (status : Status) (_reason : Nat) : CbRes := ⟨some .ok, status, tClosed⟩

/-- A module or submodule of the context with its texts (/repo/src/session_server.c:690-733). -/
structure Mod where
  name : Text
  rev : Option Text
  implemented : Bool
  sub : Bool
  yang : Text
  yin : Text
  deriving DecidableEq, Repr

/-- `ly_ctx_get_module` and `ly_ctx_get_submodule` with a revision (/repo/src/session_server.c:694-697). -/
def getRev (ctx : List Mod) (sub : Bool) (name rev : Text) : Option Mod :=
  ctx.find? (fun m => m.sub == sub && m.name == name && m.rev == some rev)

/-- `ly_ctx_get_module_implemented` (/repo/src/session_server.c:705). -/
def getImpl (ctx : List Mod) (name : Text) : Option Mod :=
  ctx.find? (fun m => m.sub == false && m.name == name && m.implemented)

/-- `get-schema` in the format (`true` is YIN), the default is YANG (/repo/src/session_server.c:714-723); `none` is unsupported. -/
def schemaFormat : Option Text → Option Bool
  | none => some false
  | some f =>
    if f = c!"ietf-netconf-monitoring:yang" then some false
    else if f = c!"ietf-netconf-monitoring:yin" then some true
    else none

/-- The module or submodule found (/repo/src/session_server.c:690-708); `latest` is `ly_ctx_get_(sub)module_latest`. -/
def findSchema (ctx : List Mod) (latest : Bool → Text → Option Mod) (ident : Text) (revision : Option Text) : Option Mod :=
  match revision with
  | some r =>
    match getRev ctx false ident r with
    | some m => some m
    | none => getRev ctx true ident r
  | none =>
    match getImpl ctx ident with
    | some m => some m
    | none =>
      match latest false ident with
      | some m => some m
      | none => latest true ident

/-- An error with an own message (/repo/src/session_server.c:684-686, 709-711, 720-722). -/
def schemaErr (msg : String) : Option Err := (ncErr .invalidValue .app none none 0).map (fun e => setMsg e msg (some "en"))

/-- `nc_clb_default_get_schema` (/repo/src/session_server.c:663-753); the data are the text of the module. -/
def getSchema (ctx : List Mod) (latest : Bool → Text → Option Mod) (ident : Text) (version format : Option Text) : Option Reply :=
  let revision := match version with
    | some v => if v = [] then none else some v
    | none => none
  let badRev := match revision with
    | some v => decide (v.length ≠ 10 ∧ v ≠ c!"1.0")
    | none => false
  if badRev then replyErr (schemaErr "The requested version is not supported.")
  else
    match findSchema ctx latest ident revision with
    | none => replyErr (schemaErr "The requested module was not found.")
    | some m =>
      match schemaFormat format with
      | none => replyErr (schemaErr "The requested format is not supported.")
      | some yin => some (.data [if yin then m.yin else m.yang] .explicit)

/-! ## Ownership of replies -/

/-- NC_PARAMTYPE (/repo/src/netconf.h:121-125). -/
inductive Param where
  | const | free | dup
  deriving DecidableEq, Repr

/-- Data trees by number with their children; freed trees have left the memory. `next` is the next new number.
(/repo/src/messages_server.c:46-76) -/
structure Mem where
  trees : List (Nat × List Text)
  next : Nat
  deriving DecidableEq, Repr

/-- Looking up a tree (/repo/src/messages_server.c:53). -/
def Mem.get (m : Mem) (n : Nat) : Option (List Text) := (m.trees.find? (·.1 == n)).map (·.2)

/-- Freeing a tree; freeing a tree that is not there is undefined (`none`) (/repo/src/messages_server.c:752, 760). -/
def Mem.free (m : Mem) (n : Nat) : Option Mem :=
  match m.get n with
  | none => none
  | some _ => some { m with trees := m.trees.filter (·.1 != n) }

/-- Freeing several trees one after the other (/repo/src/messages_server.c:760). -/
def Mem.freeAll (m : Mem) : List Nat → Option Mem
  | [] => some m
  | n :: l =>
    match m.free n with
    | none => none
    | some m' => m'.freeAll l

/-- A reply object with the trees it refers to (/repo/src/messages_p.h:31-45). -/
inductive RObj where
  | data (tree : Nat) (wd : Wd) (free : Bool)
  | errors (l : List Nat)
  deriving DecidableEq, Repr

/-- `nc_server_reply_data` (/repo/src/messages_server.c:46-76); `op` is whether the node is an RPC or action. -/
def replyData (m : Mem) (tree : Nat) (op : Bool) (wd : Wd) (p : Param) : Option (Option RObj × Mem) :=
  match m.get tree with
  | none => none
  | some cs =>
    if op = false then some (none, m)
    else
      match p with
      | .dup => some (some (.data m.next wd true), { trees := m.trees ++ [(m.next, cs)], next := m.next + 1 })
      | .free => some (some (.data tree wd true), m)
      | .const => some (some (.data tree wd false), m)

/-- `nc_server_reply_err` (/repo/src/messages_server.c:78-91). -/
def replyErrObj (tree : Nat) : RObj := .errors [tree]

/-- `nc_server_reply_add_err` (/repo/src/messages_server.c:93-108); an opaque node is inserted as the last sibling. -/
def addErr (r : RObj) (tree : Nat) : Bool × RObj :=
  match r with
  | .errors l => (true, .errors (l ++ [tree]))
  | r => (false, r)

/-- `nc_server_reply_get_last_err` (/repo/src/messages_server.c:110-129). -/
def lastErr : RObj → Option Nat
  | .errors l => l.getLast?
  | _ => none

/-- The trees given to the printer and what remains of the reply (/repo/src/io.c:961-1007): the children of a data tree are moved to the
reply element and back; errors are all moved, the first is taken out again and the others are freed with the reply element. -/
def printReply (m : Mem) : RObj → Option (List (List Text) × RObj × Mem)
  | .data t wd f =>
    match m.get t with
    | none => none
    | some cs => some ([cs], .data t wd f, m)
  | .errors l =>
    match l.mapM m.get with
    | none => none
    | some cs =>
      match l with
      | [] => some ([], .errors [], m)
      | e :: es =>
        match m.freeAll es with
        | none => none
        | some m' => some (cs, .errors [e], m')

/-- `nc_server_reply_free` (/repo/src/messages_server.c:738-766). -/
def replyFree (m : Mem) : RObj → Option Mem
  | .data t _ f => if f then m.free t else some m
  | .errors l => m.freeAll l

end Verif.ServerRpc
