import Verif.Model.Bytes

/-!
# RPC objects of the client

Creating and freeing (src/messages_client.c) and turning them into data to send (src/session_client.c: `nc_send_rpc`).
-/

namespace Verif.ClientRpc

/-- `NC_PARAMTYPE` (src/netconf.h:121-125). -/
inductive ParamType
  | const | free | dupAndFree
  deriving DecidableEq

/-- The heap: blocks in use, the number of the next allocation, the texts of the blocks and the allocations that fail.
Simplification: a data tree is one block (`lyd_dup_single`, `lyd_free_tree`; src/messages_client.c:61, 895). -/
structure Mem where
  live : List Nat
  next : Nat
  text : Nat → List Byte
  fails : Nat → Bool

/-- `malloc`, `calloc` (src/messages_client.c:55, 456). -/
def Mem.malloc (m : Mem) : Option Nat × Mem :=
  if m.fails m.next then (none, { m with next := m.next + 1 }) else (some m.next, { m with next := m.next + 1, live := m.next :: m.live })

/-- `strdup` of a string (src/messages_client.c:85). -/
def Mem.strdup (p : Nat) (m : Mem) : Option Nat × Mem :=
  if m.fails m.next then (none, { m with next := m.next + 1 })
  else (some m.next, { m with next := m.next + 1, live := m.next :: m.live, text := fun q => if q = m.next then m.text p else m.text q })

/-- `free` (src/messages_client.c:897); freeing a block not in use is undefined (`none`). -/
def Mem.free : Option Nat → Mem → Option Mem
  | none, m => some m
  | some p, m => if p ∈ m.live then some { m with live := m.live.filter (· != p) } else none

/-- Several calls of `free` (src/messages_client.c:916-917). -/
def freeAll : List (Option Nat) → Mem → Option Mem
  | [], m => some m
  | p :: ps, m => (m.free p).bind (freeAll ps)

/-- RPC objects, without the flag `free` (src/messages_p.h:65-259). `σ` are strings and `α` arrays of strings. The structures for push subscriptions have two variants each. -/
inductive Rpc (σ α : Type)
  | generic (data : σ)
  | genericXml (xml : σ)
  | getconfig (source : Nat) (filter : σ) (wd : Nat)
  | edit (target defop testopt erropt : Nat) (cont : σ)
  | copy (target : Nat) (urlTrg : σ) (source : Nat) (src : σ) (wd : Nat)
  | delete (target : Nat) (url : σ)
  | lock (target : Nat)
  | unlock (target : Nat)
  | get (filter : σ) (wd : Nat)
  | kill (sid : Nat)
  | commit (confirmed : Bool) (timeout : Nat) (persist persistId : σ)
  | discard
  | cancel (persistId : σ)
  | validate (source : Nat) (src : σ)
  | getschema (ident version format : σ)
  | subscribe (stream filter start stop : σ)
  | getdata (ds filter config : σ) (origin : α) (negated : Bool) (maxDepth : Nat) (withOrigin : Bool) (wd : Nat)
  | editdata (ds : σ) (defop : Nat) (cont : σ)
  | establishsub (filter stream start stop encoding : σ)
  | modifysub (id : Nat) (filter stop : σ)
  | deletesub (id : Nat)
  | killsub (id : Nat)
  | pushPeriodic (ds filter stop encoding : σ) (period : Nat) (anchor : σ)
  | pushOnchange (ds filter stop encoding : σ) (damp : Nat) (sync : Bool) (excluded : α)
  | modpushPeriodic (id : Nat) (ds filter stop : σ) (period : Nat) (anchor : σ)
  | modpushOnchange (id : Nat) (ds filter stop : σ) (damp : Nat)
  | resyncsub (id : Nat)
  deriving DecidableEq

/-- An RPC with pointers: `NULL` or a block; arrays as their block and the blocks of their elements before a `NULL` (src/messages_p.h:65-259). -/
abbrev PRpc := Rpc (Option Nat) (Option (Nat × List Nat))

/-- An object: its block, its content, the flag `free` (src/messages_p.h:65-259). -/
structure Obj where
  self : Nat
  rpc : PRpc
  owns : Bool

/-- Result of a constructor: undefined, `NULL` or an object (src/messages_client.c:44-862). -/
inductive Res
  | ub
  | null (m : Mem)
  | made (o : Obj) (m : Mem)

/-- `if (arg && (paramtype == NC_PARAMTYPE_DUP_AND_FREE)) … strdup(arg) else … arg` (src/messages_client.c:112-116). -/
def field (pt : ParamType) (a : Option Nat) (m : Mem) : Option Nat × Mem :=
  match a with
  | some p => if pt = .dupAndFree then m.strdup p else (some p, m)
  | none => (none, m)

/-- `isalpha` in the C locale (src/messages_client.c:102). -/
def isAlpha (c : Byte) : Bool := (65 ≤ c && c ≤ 90) || (97 ≤ c && c ≤ 122)

/-- The check of a filter (src/messages_client.c:102-105). -/
def filterOk (m : Mem) : Option Nat → Bool
  | none => true
  | some p =>
    match m.text p with
    | [] => true
    | c :: _ => c == 60 || c == 47 || isAlpha c

/-- The check of a URL or config (src/messages_client.c:131-134). -/
def contOk (m : Mem) : Option Nat → Bool
  | none => true
  | some p =>
    match m.text p with
    | [] => true
    | c :: _ => c == 60 || isAlpha c

/-- The checks of arguments and the first allocation, common to the constructors (e.g. src/messages_client.c:100-108). -/
def begin (ok : Bool) (pt : ParamType) (m : Mem) (k : Mem → PRpc × Mem) : Res :=
  if !ok then .null m
  else
    match m.malloc with
    | (none, m) => .null m
    | (some self, m) =>
      let r := k m
      .made ⟨self, r.1, pt != .const⟩ r.2

/-- The copies of the origin filters (src/messages_client.c:479-483): the copied ones, whether all were. -/
def dupOrigins : List Nat → Mem → List Nat × Bool × Mem
  | [], m => ([], true, m)
  | p :: ps, m =>
    match m.strdup p with
    | (none, m) => ([], false, m)
    | (some q, m) =>
      let r := dupOrigins ps m
      (q :: r.1, r.2.1, r.2.2)

/-- The copy of the excluded changes (src/messages_client.c:738-752); `arr` is the array so far, `es` its strings before the first `NULL`, `cut` whether there is a `NULL`. -/
def dupExcluded : List Nat → Option Nat → List Nat → Bool → Mem → Option (Option (Nat × List Nat) × Mem)
  | [], arr, es, _, m => some (arr.map (·, es), m)
  | p :: ps, arr, es, cut, m =>
    match m.malloc with
    | (none, m) => (m.free arr).map (none, ·)
    | (some arr', m) =>
      match m.free arr with
      | none => none
      | some m =>
        match m.strdup p with
        | (none, m) => dupExcluded ps (some arr') es true m
        | (some q, m) => dupExcluded ps (some arr') (if cut then es else es ++ [q]) cut m

/-- The strings `nc_rpc_free` releases if the object owns them (src/messages_client.c:890-1044), in this order. -/
def freed : PRpc → List (Option Nat)
  | .generic data => [data]
  | .genericXml xml => [xml]
  | .getconfig _ filter _ => [filter]
  | .edit _ _ _ _ cont => [cont]
  | .copy _ urlTrg _ src _ => [src, urlTrg]
  | .delete _ url => [url]
  | .get filter _ => [filter]
  | .commit _ _ persist persistId => [persist, persistId]
  | .cancel persistId => [persistId]
  | .validate _ src => [src]
  | .getschema ident version format => [ident, version, format]
  | .subscribe stream filter start stop => [stream, filter, start, stop]
  | .getdata ds filter config origin _ _ _ _ =>
    [ds, filter, config] ++ (match origin with | some (_, es) => es.map some | none => []) ++ [origin.map (·.1)]
  | .editdata ds _ cont => [ds, cont]
  | .establishsub filter stream start stop encoding => [filter, stream, start, stop, encoding]
  | .modifysub _ filter stop => [filter, stop]
  | .pushPeriodic ds filter stop encoding _ anchor => [ds, filter, stop, encoding, anchor]
  | .pushOnchange ds filter stop encoding _ _ excluded =>
    [ds, filter, stop, encoding] ++ (match excluded with | some (a, es) => es.map some ++ [some a] | none => [])
  | .modpushPeriodic _ ds filter stop _ anchor => [ds, filter, stop, anchor]
  | .modpushOnchange _ ds filter stop _ => [ds, filter, stop]
  | .lock _ | .unlock _ | .kill _ | .discard | .deletesub _ | .killsub _ | .resyncsub _ => []

/-- `nc_rpc_free` (src/messages_client.c:864-1047). -/
def rpcFree (o : Obj) (m : Mem) : Option Mem :=
  (if o.owns then freeAll (freed o.rpc) m else some m).bind (·.free (some o.self))

/-- The constructors, called with the arguments in `c`. `single`: the data tree has no siblings.
nc_rpc_act_generic (src/messages_client.c:44-71), _xml (73-93), getconfig (95-121), edit (123-152), copy (154-187), delete (189-209), lock (211-225), unlock (227-241), get (243-266),
kill (268-282), commit (284-309), discard (311-322), cancel (324-341), validate (343-368), getschema (370-399), subscribe (401-439), getdata (441-498), editdata (500-530), establishsub (532-578),
modifysub (580-611), deletesub (613-627), killsub (629-643), establishpush_periodic (645-693), establishpush_onchange (695-759), modifypush_periodic (761-805),
modifypush_onchange (807-846), resyncsub (848-862). -/
def create (single : Bool) (pt : ParamType) (c : PRpc) (m : Mem) : Res :=
  match c with
  | .generic data =>
    if data.isNone || !single then .null m
    else
      match m.malloc with
      | (none, m) => .null m
      | (some self, m) =>
        match field pt data m with
        | (none, m) =>
          match m.free (some self) with
          | some m => .null m
          | none => .ub
        | (some d, m) => .made ⟨self, .generic (some d), pt != .const⟩ m
  | .genericXml xml => begin xml.isSome pt m fun m => let x := field pt xml m; (.genericXml x.1, x.2)
  | .getconfig source filter wd => begin (source != 0 && filterOk m filter) pt m fun m => let f := field pt filter m; (.getconfig source f.1 wd, f.2)
  | .edit target defop testopt erropt cont =>
    begin (target != 0 && cont.isSome && contOk m cont) pt m fun m => let x := field pt cont m; (.edit target defop testopt erropt x.1, x.2)
  | .copy target urlTrg source src wd =>
    begin (target != 0 && source != 0 && contOk m src) pt m fun m =>
      let u := field pt urlTrg m
      let s := field pt src u.2
      (.copy target u.1 source s.1 wd, s.2)
  | .delete target url => begin (target != 0) pt m fun m => let u := field pt url m; (.delete target u.1, u.2)
  | .lock target => begin (target != 0) pt m fun m => (.lock target, m)
  | .unlock target => begin (target != 0) pt m fun m => (.unlock target, m)
  | .get filter wd => begin (filterOk m filter) pt m fun m => let f := field pt filter m; (.get f.1 wd, f.2)
  | .kill sid => begin (sid != 0) pt m fun m => (.kill sid, m)
  | .commit confirmed timeout persist persistId =>
    begin true pt m fun m =>
      let p := field pt persist m
      let i := field pt persistId p.2
      (.commit confirmed timeout p.1 i.1, i.2)
  | .discard => begin true pt m fun m => (.discard, m)
  | .cancel persistId => begin true pt m fun m => let i := field pt persistId m; (.cancel i.1, i.2)
  | .validate source src => begin (source != 0 && contOk m src) pt m fun m => let s := field pt src m; (.validate source s.1, s.2)
  | .getschema ident version format =>
    begin ident.isSome pt m fun m =>
      let i := field pt ident m
      let v := field pt version i.2
      let f := field pt format v.2
      (.getschema i.1 v.1 f.1, f.2)
  | .subscribe stream filter start stop =>
    begin (filterOk m filter) pt m fun m =>
      let s := field pt stream m
      let f := field pt filter s.2
      let b := field pt start f.2
      let e := field pt stop b.2
      (.subscribe s.1 f.1 b.1 e.1, e.2)
  | .getdata ds filter config origin negated maxDepth withOrigin wd =>
    if ds.isNone || !filterOk m filter then .null m
    else
      match m.malloc with
      | (none, m) => .null m
      | (some self, m) =>
        let d := field pt ds m
        let f := field pt filter d.2
        let c := field pt config f.2
        let fail (m : Mem) (o : Option (Nat × List Nat)) : Res :=
          match rpcFree ⟨self, .getdata d.1 f.1 c.1 o false 0 false 0, pt != .const⟩ m with
          | some m => .null m
          | none => .ub
        match origin with
        | some (arr, es) =>
          if pt = .dupAndFree then
            match c.2.malloc with
            | (none, m) => fail m none
            | (some arr', m) =>
              match dupOrigins es m with
              | (es', true, m) => .made ⟨self, .getdata d.1 f.1 c.1 (some (arr', es')) negated maxDepth withOrigin wd, true⟩ m
              | (es', false, m) => fail m (some (arr', es'))
          else .made ⟨self, .getdata d.1 f.1 c.1 (some (arr, es)) negated maxDepth withOrigin wd, pt != .const⟩ c.2
        | none => .made ⟨self, .getdata d.1 f.1 c.1 none negated maxDepth withOrigin wd, pt != .const⟩ c.2
  | .editdata ds defop cont =>
    begin (ds.isSome && cont.isSome && contOk m cont) pt m fun m =>
      let d := field pt ds m
      let x := field pt cont d.2
      (.editdata d.1 defop x.1, x.2)
  | .establishsub filter stream start stop encoding =>
    begin (stream.isSome && filterOk m filter) pt m fun m =>
      let f := field pt filter m
      let s := field pt stream f.2
      let b := field pt start s.2
      let e := field pt stop b.2
      let n := field pt encoding e.2
      (.establishsub f.1 s.1 b.1 e.1 n.1, n.2)
  | .modifysub id filter stop =>
    begin (id != 0 && filterOk m filter) pt m fun m =>
      let f := field pt filter m
      let e := field pt stop f.2
      (.modifysub id f.1 e.1, e.2)
  | .deletesub id => begin (id != 0) pt m fun m => (.deletesub id, m)
  | .killsub id => begin (id != 0) pt m fun m => (.killsub id, m)
  | .pushPeriodic ds filter stop encoding period anchor =>
    begin (ds.isSome && period != 0 && filterOk m filter) pt m fun m =>
      let d := field pt ds m
      let f := field pt filter d.2
      let e := field pt stop f.2
      let n := field pt encoding e.2
      let a := field pt anchor n.2
      (.pushPeriodic d.1 f.1 e.1 n.1 period a.1, a.2)
  | .pushOnchange ds filter stop encoding damp sync excluded =>
    if ds.isNone || !filterOk m filter then .null m
    else
      match m.malloc with
      | (none, m) => .null m
      | (some self, m) =>
        let d := field pt ds m
        let f := field pt filter d.2
        let e := field pt stop f.2
        let n := field pt encoding e.2
        match excluded with
        | some (arr, es) =>
          if pt = .dupAndFree then
            match dupExcluded es none [] false n.2 with
            | some (x, m) => .made ⟨self, .pushOnchange d.1 f.1 e.1 n.1 damp sync x, true⟩ m
            | none => .ub
          else .made ⟨self, .pushOnchange d.1 f.1 e.1 n.1 damp sync (some (arr, es)), pt != .const⟩ n.2
        | none => .made ⟨self, .pushOnchange d.1 f.1 e.1 n.1 damp sync none, pt != .const⟩ n.2
  | .modpushPeriodic id ds filter stop period anchor =>
    begin (id != 0 && ds.isSome && filterOk m filter) pt m fun m =>
      let d := field pt ds m
      let f := field pt filter d.2
      let e := field pt stop f.2
      let a := field pt anchor e.2
      (.modpushPeriodic id d.1 f.1 e.1 period a.1, a.2)
  | .modpushOnchange id ds filter stop damp =>
    begin (id != 0 && ds.isSome && filterOk m filter) pt m fun m =>
      let d := field pt ds m
      let f := field pt filter d.2
      let e := field pt stop f.2
      (.modpushOnchange id d.1 f.1 e.1 damp, e.2)
  | .resyncsub id => begin (id != 0) pt m fun m => (.resyncsub id, m)

/-! ## Sending -/

/-- What an RPC object says: texts instead of pointers, no array and an empty one are the same (src/session_client.c:2594-3208). -/
abbrev Req := Rpc (Option (List Byte)) (List (List Byte))

/-- What `nc_send_rpc` reads through the pointers of an object (src/session_client.c:2717-3181). -/
def says (m : Mem) : PRpc → Req
  | .generic data => .generic (data.map m.text)
  | .genericXml xml => .genericXml (xml.map m.text)
  | .getconfig source filter wd => .getconfig source (filter.map m.text) wd
  | .edit target defop testopt erropt cont => .edit target defop testopt erropt (cont.map m.text)
  | .copy target urlTrg source src wd => .copy target (urlTrg.map m.text) source (src.map m.text) wd
  | .delete target url => .delete target (url.map m.text)
  | .lock target => .lock target
  | .unlock target => .unlock target
  | .get filter wd => .get (filter.map m.text) wd
  | .kill sid => .kill sid
  | .commit confirmed timeout persist persistId => .commit confirmed timeout (persist.map m.text) (persistId.map m.text)
  | .discard => .discard
  | .cancel persistId => .cancel (persistId.map m.text)
  | .validate source src => .validate source (src.map m.text)
  | .getschema ident version format => .getschema (ident.map m.text) (version.map m.text) (format.map m.text)
  | .subscribe stream filter start stop => .subscribe (stream.map m.text) (filter.map m.text) (start.map m.text) (stop.map m.text)
  | .getdata ds filter config origin negated maxDepth withOrigin wd =>
    .getdata (ds.map m.text) (filter.map m.text) (config.map m.text) (match origin with | some (_, es) => es.map m.text | none => []) negated maxDepth withOrigin wd
  | .editdata ds defop cont => .editdata (ds.map m.text) defop (cont.map m.text)
  | .establishsub filter stream start stop encoding =>
    .establishsub (filter.map m.text) (stream.map m.text) (start.map m.text) (stop.map m.text) (encoding.map m.text)
  | .modifysub id filter stop => .modifysub id (filter.map m.text) (stop.map m.text)
  | .deletesub id => .deletesub id
  | .killsub id => .killsub id
  | .pushPeriodic ds filter stop encoding period anchor =>
    .pushPeriodic (ds.map m.text) (filter.map m.text) (stop.map m.text) (encoding.map m.text) period (anchor.map m.text)
  | .pushOnchange ds filter stop encoding damp sync excluded =>
    .pushOnchange (ds.map m.text) (filter.map m.text) (stop.map m.text) (encoding.map m.text) damp sync (match excluded with | some (_, es) => es.map m.text | none => [])
  | .modpushPeriodic id ds filter stop period anchor => .modpushPeriodic id (ds.map m.text) (filter.map m.text) (stop.map m.text) period (anchor.map m.text)
  | .modpushOnchange id ds filter stop damp => .modpushOnchange id (ds.map m.text) (filter.map m.text) (stop.map m.text) damp
  | .resyncsub id => .resyncsub id

/-- A node without children: `lyd_new_term` (no value: `NULL`) or `lyd_new_any` with attributes (src/session_client.c:2739-2748). -/
structure Leaf where
  mod : String
  name : String
  value : Option (List Byte)
  any : Bool := false
  metas : List (String × List Byte) := []
  deriving DecidableEq

/-- A child of the operation: a leaf or a container of leaves (src/session_client.c:2738-2739). -/
inductive Child
  | leaf (l : Leaf)
  | cont (mod name : String) (ls : List Leaf)
  deriving DecidableEq

/-- The operation sent (src/session_client.c:3197). -/
structure Op where
  mod : String
  name : String
  children : List Child
  deriving DecidableEq

/-- What is handed to `nc_send_msg_io`: the tree or text of the application, or an operation (src/session_client.c:2718-3197). -/
inductive Sent
  | tree (t : List Byte)
  | xml (t : List Byte)
  | op (o : Op)
  deriving DecidableEq

/-- Undefined, `NC_MSG_ERROR`, or data sent (src/session_client.c:2594-3208). -/
inductive SendRes
  | ub
  | err
  | sent (s : Sent)
  deriving DecidableEq

/-- The context: implemented modules, the nodes libyang accepts and the texts it can parse as an operation (src/session_client.c:2652, 2726, 2737). -/
structure Ctx where
  hasMod : String → Bool
  ok : Child → Bool
  parse : List Byte → Bool

/-- A literal string in C (src/session_client.c:58). -/
def lit (s : String) : List Byte := s.toList.map Char.toNat

/-- `ncds2str` (src/session_client.c:58); out of the array or `NULL`: `none`. -/
def ncds2str : Nat → Option String
  | 1 => some "config"
  | 2 => some "url"
  | 3 => some "running"
  | 4 => some "startup"
  | 5 => some "candidate"
  | _ => none

/-- `nc_wd2str` (src/session_client.c:2575-2592). -/
def wd2str : Nat → Option String
  | 1 => some "report-all"
  | 2 => some "report-all-tagged"
  | 3 => some "trim"
  | 4 => some "explicit"
  | _ => none

/-- `rpcedit_dfltop2str` (src/messages_client.c:32). -/
def dfltop2str : Nat → Option String
  | 1 => some "merge"
  | 2 => some "replace"
  | 3 => some "none"
  | _ => none

/-- `rpcedit_testopt2str` (src/messages_client.c:33). -/
def testopt2str : Nat → Option String
  | 1 => some "test-then-set"
  | 2 => some "set"
  | 3 => some "test-only"
  | _ => none

/-- `rpcedit_erropt2str` (src/messages_client.c:34). -/
def erropt2str : Nat → Option String
  | 1 => some "stop-on-error"
  | 2 => some "continue-on-error"
  | 3 => some "rollback-on-error"
  | _ => none

/-- `lyd_new_term` for an optional string (src/session_client.c:2892-2894). -/
def optTerm (mod name : String) : Option (List Byte) → List Child
  | some t => [.leaf ⟨mod, name, some t, false, []⟩]
  | none => []

/-- `lyd_new_term` for a number printed if not 0 (src/session_client.c:2888-2891). -/
def optNum (mod name : String) (n : Nat) : List Child := if n = 0 then [] else [.leaf ⟨mod, name, some (dec n), false, []⟩]

/-- `lyd_new_term` for an enumeration printed if not 0 (src/session_client.c:2769-2771). -/
def optEnum (mod name : String) (tab : Nat → Option String) (n : Nat) : List Child :=
  if n = 0 then [] else [.leaf ⟨mod, name, (tab n).map lit, false, []⟩]

/-- A config starts with `<` or is empty (src/session_client.c:2778). -/
def isConfig : List Byte → Bool
  | [] => true
  | c :: _ => c == 60

/-- The node `filter` (src/session_client.c:2740-2749, 2850-2859, 2950-2959). -/
def filterNode (mod : String) : Option (List Byte) → List Child
  | none => []
  | some t =>
    if isConfig t then [.leaf ⟨mod, "filter", some t, true, [("type", lit "subtree")]⟩]
    else [.leaf ⟨mod, "filter", none, true, [("type", lit "xpath"), ("select", t)]⟩]

/-- A filter as one of three nodes (src/session_client.c:3024-3033, 3055-3064, 3094-3103, 3145-3154). -/
def filter3 (mod subtree xpath name : String) : Option (List Byte) → List Child
  | none => []
  | some t =>
    if isConfig t then [.leaf ⟨mod, subtree, some t, true, []⟩]
    else if t.head? = some 47 then [.leaf ⟨mod, xpath, some t, false, []⟩]
    else [.leaf ⟨mod, name, some t, false, []⟩]

/-- A config as `config` or a URL (src/session_client.c:2778-2782). -/
def contLeaf (mod : String) (t : List Byte) : Leaf := if isConfig t then ⟨mod, "config", some t, true, []⟩ else ⟨mod, "url", some t, false, []⟩

/-- The leaf of a datastore (src/session_client.c:2739); the name is `NULL` or out of the array: rejected. -/
def dsLeaf (n : Nat) : Option Leaf := (ncds2str n).map fun s => ⟨"ietf-netconf", s, none, false, []⟩

/-- The leaf of a target that can be a URL (src/session_client.c:2790-2794, 2823-2827). -/
def trgLeaf (target : Nat) : Option (List Byte) → Option Leaf
  | some u => some ⟨"ietf-netconf", "url", some u, false, []⟩
  | none => dsLeaf target

/-- The leaf of a source that can be a URL or a config (src/session_client.c:2797-2805, 2918-2926). -/
def srcLeaf (source : Nat) : Option (List Byte) → Option Leaf
  | some t => some (contLeaf "ietf-netconf" t)
  | none => dsLeaf source

/-- The filter of get-data (src/session_client.c:2974-2980). -/
def dataFilter (mod : String) : Option (List Byte) → List Child
  | some t => if isConfig t then [.leaf ⟨mod, "subtree-filter", some t, true, []⟩] else [.leaf ⟨mod, "xpath-filter", some t, false, []⟩]
  | none => []

/-- The node `with-defaults` (src/session_client.c:2751-2759); `none`: its module is missing. -/
def wdNode (ctx : Ctx) (wd : Nat) : Option (List Child) :=
  if wd = 0 then some []
  else if ctx.hasMod "ietf-netconf-with-defaults" then some [.leaf ⟨"ietf-netconf-with-defaults", "with-defaults", (wd2str wd).map lit, false, []⟩]
  else none

/-- The nodes are created one after another; the first failure ends it (src/session_client.c:2715, 3190-3194). -/
def finish (ctx : Ctx) (mod name : String) (cs : List Child) : SendRes :=
  if ctx.hasMod mod && cs.all ctx.ok then .sent (.op ⟨mod, name, cs⟩) else .err

/-- `finish` if all nodes could be prepared (src/session_client.c:2753-2757). -/
def finish? (ctx : Ctx) (mod name : String) : Option (List Child) → SendRes
  | some cs => finish ctx mod name cs
  | none => .err

/-- `nc_send_rpc` up to sending (src/session_client.c:2594-3197). -/
def send (ctx : Ctx) : Req → SendRes
  | .generic (some t) => .sent (.tree t)
  | .generic none => .ub
  | .genericXml (some t) => if ctx.parse t then .sent (.xml t) else .err
  | .genericXml none => .ub
  | .getconfig source filter wd =>
    finish? ctx "ietf-netconf" "get-config" do
      let d ← dsLeaf source
      let w ← wdNode ctx wd
      pure ([.cont "ietf-netconf" "source" [d]] ++ filterNode "ietf-netconf" filter ++ w)
  | .edit target defop testopt erropt cont =>
    match cont with
    | none => .ub
    | some t =>
      finish? ctx "ietf-netconf" "edit-config" do
        let d ← dsLeaf target
        pure ([.cont "ietf-netconf" "target" [d]] ++ optEnum "ietf-netconf" "default-operation" dfltop2str defop ++ optEnum "ietf-netconf" "test-option" testopt2str testopt ++
          optEnum "ietf-netconf" "error-option" erropt2str erropt ++ [.leaf (contLeaf "ietf-netconf" t)])
  | .copy target urlTrg source src wd =>
    finish? ctx "ietf-netconf" "copy-config" do
      let d ← trgLeaf target urlTrg
      let s ← srcLeaf source src
      let w ← wdNode ctx wd
      pure ([.cont "ietf-netconf" "target" [d], .cont "ietf-netconf" "source" [s]] ++ w)
  | .delete target url =>
    finish? ctx "ietf-netconf" "delete-config" do
      let d ← trgLeaf target url
      pure [.cont "ietf-netconf" "target" [d]]
  | .lock target => finish? ctx "ietf-netconf" "lock" do
      let d ← dsLeaf target
      pure [.cont "ietf-netconf" "target" [d]]
  | .unlock target => finish? ctx "ietf-netconf" "unlock" do
      let d ← dsLeaf target
      pure [.cont "ietf-netconf" "target" [d]]
  | .get filter wd =>
    finish? ctx "ietf-netconf" "get" do
      let w ← wdNode ctx wd
      pure (filterNode "ietf-netconf" filter ++ w)
  | .kill sid => finish ctx "ietf-netconf" "kill-session" [.leaf ⟨"ietf-netconf", "session-id", some (dec sid), false, []⟩]
  | .commit confirmed timeout persist persistId =>
    finish ctx "ietf-netconf" "commit" ((if confirmed then [.leaf ⟨"ietf-netconf", "confirmed", none, false, []⟩] else []) ++ optNum "ietf-netconf" "confirm-timeout" timeout ++
      optTerm "ietf-netconf" "persist" persist ++ optTerm "ietf-netconf" "persist-id" persistId)
  | .discard => finish ctx "ietf-netconf" "discard-changes" []
  | .cancel persistId => finish ctx "ietf-netconf" "cancel-commit" (optTerm "ietf-netconf" "persist-id" persistId)
  | .validate source src =>
    finish? ctx "ietf-netconf" "validate" do
      let s ← srcLeaf source src
      pure [.cont "ietf-netconf" "source" [s]]
  | .getschema ident version format =>
    finish ctx "ietf-netconf-monitoring" "get-schema" ([.leaf ⟨"ietf-netconf-monitoring", "identifier", ident, false, []⟩] ++ optTerm "ietf-netconf-monitoring" "version" version ++
      optTerm "ietf-netconf-monitoring" "format" format)
  | .subscribe stream filter start stop =>
    finish ctx "notifications" "create-subscription" (optTerm "notifications" "stream" stream ++ filterNode "notifications" filter ++ optTerm "notifications" "startTime" start ++
      optTerm "notifications" "stopTime" stop)
  | .getdata ds filter config origin negated maxDepth withOrigin wd =>
    let mod := "ietf-netconf-nmda"
    let pre : List Child := [.leaf ⟨mod, "datastore", ds, false, []⟩] ++ dataFilter mod filter ++ optTerm mod "config-filter" config
    let os : List Child := origin.map fun t => .leaf ⟨mod, if negated then "negated-origin-filter" else "origin-filter", some t, false, []⟩
    let post : List Child := optNum mod "max-depth" maxDepth ++ (if withOrigin then [.leaf ⟨mod, "with-origin", none, false, []⟩] else []) ++ optEnum mod "with-defaults" wd2str wd
    -- a failure in the loop leaves only the loop; the next node sets `lyrc` again (src/session_client.c:2984-2999)
    if ctx.hasMod mod && pre.all ctx.ok && (os.all ctx.ok || !post.isEmpty) && post.all ctx.ok then .sent (.op ⟨mod, "get-data", pre ++ os.takeWhile ctx.ok ++ post⟩) else .err
  | .editdata ds defop cont =>
    match cont with
    | none => .ub
    | some t =>
      finish ctx "ietf-netconf-nmda" "edit-data" ([.leaf ⟨"ietf-netconf-nmda", "datastore", ds, false, []⟩] ++ optEnum "ietf-netconf-nmda" "default-operation" dfltop2str defop ++
        [.leaf (contLeaf "ietf-netconf-nmda" t)])
  | .establishsub filter stream start stop encoding =>
    let mod := "ietf-subscribed-notifications"
    finish ctx mod "establish-subscription" (filter3 mod "stream-subtree-filter" "stream-xpath-filter" "stream-filter-name" filter ++ [.leaf ⟨mod, "stream", stream, false, []⟩] ++
      optTerm mod "replay-start-time" start ++ optTerm mod "stop-time" stop ++ optTerm mod "encoding" encoding)
  | .modifysub id filter stop =>
    let mod := "ietf-subscribed-notifications"
    finish ctx mod "modify-subscription" ([.leaf ⟨mod, "id", some (dec id), false, []⟩] ++ filter3 mod "stream-subtree-filter" "stream-xpath-filter" "stream-filter-name" filter ++
      optTerm mod "stop-time" stop)
  | .deletesub id => finish ctx "ietf-subscribed-notifications" "delete-subscription" [.leaf ⟨"ietf-subscribed-notifications", "id", some (dec id), false, []⟩]
  | .killsub id => finish ctx "ietf-subscribed-notifications" "kill-subscription" [.leaf ⟨"ietf-subscribed-notifications", "id", some (dec id), false, []⟩]
  | .pushPeriodic ds filter stop encoding period anchor =>
    let mod := "ietf-subscribed-notifications"
    let mod2 := "ietf-yang-push"
    if !ctx.hasMod mod2 then .err
    else finish ctx mod "establish-subscription" ([.leaf ⟨mod2, "datastore", ds, false, []⟩] ++
      filter3 mod2 "datastore-subtree-filter" "datastore-xpath-filter" "selection-filter-ref" filter ++ optTerm mod "stop-time" stop ++ optTerm mod "encoding" encoding ++
      [.cont mod2 "periodic" (⟨mod2, "period", some (dec period), false, []⟩ :: (anchor.map fun t => (⟨mod2, "anchor-time", some t, false, []⟩ : Leaf)).toList)])
  | .pushOnchange ds filter stop encoding damp sync excluded =>
    let mod := "ietf-subscribed-notifications"
    let mod2 := "ietf-yang-push"
    if !ctx.hasMod mod2 then .err
    else finish ctx mod "establish-subscription" ([.leaf ⟨mod2, "datastore", ds, false, []⟩] ++
      filter3 mod2 "datastore-subtree-filter" "datastore-xpath-filter" "selection-filter-ref" filter ++ optTerm mod "stop-time" stop ++ optTerm mod "encoding" encoding ++
      [.cont mod2 "on-change" ((if damp = 0 then [] else [⟨mod2, "dampening-period", some (dec damp), false, []⟩]) ++
        [⟨mod2, "sync-on-start", some (lit (if sync then "true" else "false")), false, []⟩] ++ excluded.map fun t => ⟨mod2, "excluded-change", some t, false, []⟩)])
  | .modpushPeriodic id ds filter stop period anchor =>
    let mod := "ietf-subscribed-notifications"
    let mod2 := "ietf-yang-push"
    if !ctx.hasMod mod2 then .err
    else finish ctx mod "modify-subscription" ([.leaf ⟨mod, "id", some (dec id), false, []⟩, .leaf ⟨mod2, "datastore", ds, false, []⟩] ++
      filter3 mod2 "datastore-subtree-filter" "datastore-xpath-filter" "selection-filter-ref" filter ++ optTerm mod "stop-time" stop ++
      [.cont mod2 "periodic" (⟨mod2, "period", some (dec period), false, []⟩ :: (anchor.map fun t => (⟨mod2, "anchor-time", some t, false, []⟩ : Leaf)).toList)])
  | .modpushOnchange id ds filter stop damp =>
    let mod := "ietf-subscribed-notifications"
    let mod2 := "ietf-yang-push"
    if !ctx.hasMod mod2 then .err
    else finish ctx mod "modify-subscription" ([.leaf ⟨mod, "id", some (dec id), false, []⟩, .leaf ⟨mod2, "datastore", ds, false, []⟩] ++
      filter3 mod2 "datastore-subtree-filter" "datastore-xpath-filter" "selection-filter-ref" filter ++ optTerm mod "stop-time" stop ++
      [.cont mod2 "on-change" (if damp = 0 then [] else [⟨mod2, "dampening-period", some (dec damp), false, []⟩])])
  | .resyncsub id => finish ctx "ietf-yang-push" "resync-subscription" [.leaf ⟨"ietf-yang-push", "id", some (dec id), false, []⟩]

/-- The operation node a reply is parsed with (`recv_reply_dup_rpc`, src/session_client.c:2241-2401), for the RPCs that are not generic; `none`: error. -/
def replyOp (hasMod : String → Bool) (r : Req) : Option (String × String) :=
  let mk (mod name : String) : Option (String × String) := if hasMod mod then some (mod, name) else none
  match r with
  | .generic _ | .genericXml _ => none
  | .getconfig .. => mk "ietf-netconf" "get-config"
  | .edit .. => mk "ietf-netconf" "edit-config"
  | .copy .. => mk "ietf-netconf" "copy-config"
  | .delete .. => mk "ietf-netconf" "delete-config"
  | .lock .. => mk "ietf-netconf" "lock"
  | .unlock .. => mk "ietf-netconf" "unlock"
  | .get .. => mk "ietf-netconf" "get"
  | .kill .. => mk "ietf-netconf" "kill-session"
  | .commit .. => mk "ietf-netconf" "commit"
  | .discard => mk "ietf-netconf" "discard-changes"
  | .cancel .. => mk "ietf-netconf" "cancel-commit"
  | .validate .. => mk "ietf-netconf" "validate"
  | .getschema .. => mk "ietf-netconf-monitoring" "get-schema"
  | .subscribe .. => mk "notifications" "create-subscription"
  | .getdata .. => mk "ietf-netconf-nmda" "get-data"
  | .editdata .. => mk "ietf-netconf-nmda" "edit-data"
  | .establishsub .. => mk "ietf-subscribed-notifications" "establish-subscription"
  | .modifysub .. => mk "ietf-subscribed-notifications" "modify-subscription"
  | .deletesub .. => mk "ietf-subscribed-notifications" "delete-subscription"
  | .killsub .. => mk "ietf-subscribed-notifications" "kill-subscription"
  | .pushPeriodic .. | .pushOnchange .. => if hasMod "ietf-yang-push" then mk "ietf-subscribed-notifications" "establish-subscription" else none
  | .modpushPeriodic .. | .modpushOnchange .. => if hasMod "ietf-yang-push" then mk "ietf-subscribed-notifications" "modify-subscription" else none
  | .resyncsub .. => mk "ietf-yang-push" "resync-subscription"

end Verif.ClientRpc
