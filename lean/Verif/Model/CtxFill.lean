import Verif.Model.ModSel

/-!
# Filling the context of a client session (src/session_client.c:358-576, 702-898, 1111-1419)

A libyang context is a list of modules with name, revision and whether they are implemented; features are left out. libyang is a parameter
(`Env.parse`, `Env.setImpl`, `Env.compile`), and so are local files, the replies of the server and the callback of the user. RPCs are numbered, so
that the server may reply differently every time. That retrieved modules are stored in the search path is left out.
-/

namespace Verif.CtxFill
open Verif.ModSel (Text strGt strstr cpbltModules)

/-- A module in a context (src/session_client.c:721-733). -/
structure Mod where
  name : Text
  rev : Option Text
  impl : Bool
  deriving DecidableEq, Repr

/-- The text of a module (src/session_client.c:551-576): what it defines, and a number for the rest. -/
structure Src where
  name : Text
  rev : Option Text
  id : Nat
  deriving DecidableEq, Repr

/-- A module of the server (src/session_client.c:334-344). -/
structure SMod where
  name : Text
  rev : Option Text
  impl : Bool
  deriving DecidableEq, Repr

/-- How the data of the user's callback are to be freed: by `free`, by another function, not at all (src/session_client.c:567-572). -/
inductive Free where
  | libc
  | own
  | untouched
  deriving DecidableEq, Repr

/-- The reply to get-schema (src/session_client.c:446-489): a text, nothing useful, or the session breaks. -/
inductive Reply where
  | text (t : Src)
  | nothing
  | broken
  deriving DecidableEq, Repr

/-- The reply to a request for operational data (src/session_client.c:836-898). -/
inductive Oper where
  | data (l : List SMod)
  | nothing
  | broken
  deriving DecidableEq, Repr

/-- The surroundings (src/session_client.c:363-576, 702-785, 1387-1391): the file found for a module with whether its name has a revision, the server,
the user's callback, libyang, and whether operational data for schema mount are valid (1240-1245). -/
structure Env where
  localFile : Text → Option Text → Option (Src × Bool)
  server : Nat → Text → Option Text → Reply
  oper : Nat → Oper
  user : Option (Text → Option Text → Option (Src × Free))
  parse : List Mod → Src → Option (List Mod × Mod)
  setImpl : List Mod → Mod → Option (List Mod)
  compile : List Mod → Bool
  mountOk : Bool

/-- Import callbacks of a context: the one set before, none, that of the library (src/session_client.c:1284-1293, 760, 771, 1412). -/
inductive Clb where
  | before
  | none
  | ours
  deriving DecidableEq, Repr

/-- Session and context (src/session_client.c:1269-1295): modules, options LY_CTX_DISABLE_SEARCHDIRS and LY_CTX_EXPLICIT_COMPILE, callback; is
the session running, is it strict, number of RPCs so far. -/
structure St where
  ctx : List Mod
  noDirs : Bool
  explicit : Bool
  clb : Clb
  alive : Bool
  strict : Bool
  rpcs : Nat
  deriving DecidableEq, Repr

/-- Outcome: undefined behaviour (data are freed in the wrong way, an assertion fails) or a value (src/session_client.c:572, 1170). -/
inductive Res (α : Type) where
  | ub
  | ok (a : α)
  deriving DecidableEq, Repr

/-- `retrieve_module_data_localfile` (src/session_client.c:363-424). -/
def localText (env : Env) (name : Text) (rev : Option Text) : Option Src :=
  match env.localFile name rev with
  | none => none
  | some (t, hasRev) => if rev.isSome && !hasRev then none else some t

/-- `retrieve_module_data_getschema` (src/session_client.c:435-531). -/
def getSchema (env : Env) (s : St) (name : Text) (rev : Option Text) : St × Option Src :=
  if s.alive then
    match env.server s.rpcs name rev with
    | .text t => ({ s with rpcs := s.rpcs + 1 }, some t)
    | .nothing => ({ s with rpcs := s.rpcs + 1 }, none)
    | .broken => ({ s with rpcs := s.rpcs + 1, alive := false }, none)
  else (s, none)

/-- The third source in `retrieve_module_data` (src/session_client.c:566-571). -/
def userText (env : Env) (name : Text) (rev : Option Text) : Option (Src × Free) :=
  match env.user with
  | none => none
  | some f => f name rev

/-- `retrieve_module_data` (src/session_client.c:551-576). -/
def retrieve (env : Env) (s : St) (hasGs : Bool) (name : Text) (rev : Option Text) : St × Option (Src × Free) :=
  match localText env name rev with
  | some t => (s, some (t, .libc))
  | none =>
    match (if hasGs then getSchema env s name rev else (s, none)) with
    | (s', some t) => (s', some (t, .libc))
    | (s', none) => (s', userText env name rev)

/-- `ly_ctx_get_module_implemented` (src/session_client.c:719). -/
def implemented (ctx : List Mod) (name : Text) : Option Mod := ctx.find? (fun m => m.impl && m.name == name)

/-- `ly_ctx_get_module` (src/session_client.c:722). -/
def withRev (ctx : List Mod) (name : Text) (rev : Text) : Option Mod := ctx.find? (fun m => m.name == name && m.rev == some rev)

/-- `ly_ctx_get_module_latest` (src/session_client.c:724): a module without revision is the oldest. -/
def latest (ctx : List Mod) (name : Text) : Option Mod :=
  (ctx.filter (fun m => m.name == name)).foldl
    (fun acc m => match acc with | none => some m | some a => if strGt (m.rev.getD []) (a.rev.getD []) then some m else some a) none

/-- The module in the context that is used (src/session_client.c:718-729). -/
def present (ctx : List Mod) (name : Text) (rev : Option Text) : Option Mod :=
  match implemented ctx name with
  | some m => some m
  | none =>
    match rev with
    | some r => withRev ctx name r
    | none => latest ctx name

/-- `nc_ctx_load_module` (src/session_client.c:702-785): the state, does it return 0, the module given back. -/
def load (env : Env) (s : St) (hasGs : Bool) (name : Text) (rev : Option Text) : Res (St × Bool × Option Mod) :=
  match present s.ctx name rev with
  | some m =>
    match env.setImpl s.ctx m with
    | some c => .ok ({ s with ctx := c }, true, some m)
    | none => .ok (s, false, some m)
  | none =>
    match retrieve env s hasGs name rev with
    | (s1, none) => .ok (s1, false, none)
    | (s1, some (t, f)) =>
      match env.parse s1.ctx t with
      | some (c, m) => if f = .libc then .ok ({ s1 with ctx := c, clb := .none }, true, some m) else .ub
      | none => if f = .libc then .ok ({ s1 with clb := .none }, false, none) else .ub

/-- `nc_ctx_fill` (src/session_client.c:1111-1148): the state, and does it return 0. -/
def fill (env : Env) (hasGs : Bool) : List SMod → St → Res (St × Bool)
  | [], s => .ok (s, true)
  | m :: ms, s =>
    if m.impl then
      match load env s hasGs m.name m.rev with
      | .ub => .ub
      | .ok (s1, _, some _) => fill env hasGs ms s1
      | .ok (s1, _, none) => if s1.alive then fill env hasGs ms { s1 with strict := false } else .ok (s1, false)
    else fill env hasGs ms s

/-- The name of the base module (src/session_client.c:1171). -/
def netconf : Text := "ietf-netconf".toList

/-- The text of the base module in the library (src/session_client.c:1188, modules/ietf-netconf@2013-09-29.yang:52). -/
def builtinNetconf : Src := ⟨netconf, some "2013-09-29".toList, 0⟩

/-- `nc_ctx_fill_ietf_netconf` (src/session_client.c:1161-1202). -/
def fillNetconf (env : Env) (mods : List SMod) (hasGs : Bool) (s : St) : Res (St × Bool) :=
  match mods.find? (fun m => m.name == netconf) with
  | none => .ok (s, false)
  | some m =>
    if m.impl then
      match implemented s.ctx netconf with
      | some x =>
        match env.setImpl s.ctx x with
        | some c => .ok ({ s with ctx := c }, true)
        | none => .ok (s, true)
      | none =>
        match load env s hasGs netconf none with
        | .ub => .ub
        | .ok (s1, _, some _) => .ok (s1, true)
        | .ok (s1, _, none) =>
          match env.parse s1.ctx builtinNetconf with
          | some (c, _) => .ok ({ s1 with ctx := c }, true)
          | none => .ok (s1, false)
    else .ub

/-- `get_oper_data` (src/session_client.c:826-898): the state, the data, and does it return 0. -/
def operData (env : Env) (s : St) : St × Option (List SMod) × Bool :=
  if s.alive then
    match env.oper s.rpcs with
    | .data l => ({ s with rpcs := s.rpcs + 1 }, some l, true)
    | .nothing => ({ s with rpcs := s.rpcs + 1 }, none, true)
    | .broken => ({ s with rpcs := s.rpcs + 1, alive := false }, none, false)
  else (s, none, false)

/-- `nc_client_set_new_session_context_schema_mount` (src/session_client.c:1204-1266). -/
def schemaMount (env : Env) (shared : Bool) (s : St) : St × Bool :=
  if shared then (s, true)
  else
    match implemented s.ctx "ietf-yang-library".toList with
    | none => (s, false)
    | some _ =>
      match operData env s with
      | (s1, some _, true) => (s1, env.mountOk)
      | (s1, _, ok) => (s1, ok)

/-- A capability with the given beginning (src/session_client.c:1296-1305): the last one counts. -/
def cpblt (pre : Text) (cpblts : List Text) : Option Text := (cpblts.filter (fun c => pre.isPrefixOf c)).getLast?

/-- The text of ietf-netconf-monitoring in the library (src/session_client.c:1317). -/
def builtinMonitoring : Src := ⟨"ietf-netconf-monitoring".toList, some "2010-10-04".toList, 1⟩

/-- Loading ietf-netconf-monitoring (src/session_client.c:1316-1320): the state, can get-schema be used. -/
def loadMonitoring (env : Env) (s : St) (cpblts : List Text) : St × Bool :=
  if (cpblt "urn:ietf:params:xml:ns:yang:ietf-netconf-monitoring?".toList cpblts).isSome then
    match env.parse s.ctx builtinMonitoring with
    | some (c, _) => ({ s with ctx := c }, true)
    | none => (s, false)
  else (s, false)

/-- Loading ietf-yang-library and ietf-datastores (src/session_client.c:1327-1355): the state, can the library be used. -/
def loadYanglib (env : Env) (s : St) (hasGs : Bool) (cpblts : List Text) : Res (St × Bool) :=
  match (cpblt "urn:ietf:params:netconf:capability:yang-library:".toList cpblts).map (strstr "revision=".toList) with
  | some (some r) =>
    match load env s hasGs "ietf-yang-library".toList (some ((r.drop 9).take 10)) with
    | .ub => .ub
    | .ok (s1, ok1, _) =>
      if strGt "2019-01-04".toList ((r.drop 9).take 10) then .ok (s1, ok1)
      else
        match load env s1 hasGs "ietf-datastores".toList none with
        | .ub => .ub
        | .ok (s2, ok2, _) => .ok (s2, ok1 && ok2)
  | _ => .ok (s, false)

/-- The list of modules that is used (src/session_client.c:1357-1382); `build_module_info_yl` returns 0 also if the session breaks (919-931). -/
def serverMods (env : Env) (s : St) (hasGs yl : Bool) (fromCpblts : List SMod) : Res (St × List SMod) :=
  if yl then
    match operData env s with
    | (s1, none, _) => .ok (s1, fromCpblts)
    | (s1, some l, _) =>
      if l.any (fun m => m.name == "ietf-netconf-nmda".toList && m.impl) then
        match load env s1 hasGs "ietf-netconf-nmda".toList none with
        | .ub => .ub
        | .ok (s2, _, _) => .ok (s2, l)
      else .ok (s1, l)
  else .ok (s, fromCpblts)

/-- Modules in the capabilities (src/session_client.c:1034-1099): all are implemented. -/
def fromCpblts (cpblts : List Text) : List SMod := (cpbltModules cpblts).map (fun m => ⟨m.name, m.rev, true⟩)

/-- From the list of modules on (src/session_client.c:1384-1403). -/
def finishFill (env : Env) (shared hasGs yl : Bool) (mods : List SMod) (s : St) : Res (St × Bool) :=
  match fill env hasGs mods { s with explicit := true } with
  | .ub => .ub
  | .ok (s1, false) => .ok (s1, false)
  | .ok (s1, true) =>
    if env.compile s1.ctx then if yl then .ok (schemaMount env shared s1) else .ok (s1, true)
    else .ok (s1, false)

/-- `nc_ctx_check_and_fill` up to `cleanup` (src/session_client.c:1281-1408). -/
def body (env : Env) (shared : Bool) (cpblts : List Text) (s : St) : Res (St × Bool) :=
  match loadMonitoring env { s with noDirs := true, clb := .none } cpblts with
  | (s1, gs) =>
    match fillNetconf env (fromCpblts cpblts) gs s1 with
    | .ub => .ub
    | .ok (s2, false) => .ok (s2, false)
    | .ok (s2, true) =>
      match loadYanglib env s2 gs cpblts with
      | .ub => .ub
      | .ok (s3, yl) =>
        match serverMods env s3 gs yl (fromCpblts cpblts) with
        | .ub => .ub
        | .ok (s4, mods) => finishFill env shared gs yl mods s4

/-- `nc_ctx_check_and_fill` (src/session_client.c:1268-1419): `auto` is unless nc_client_set_auto_context_fill disabled it, `shared` says that the
context is the user's. -/
def checkAndFill (env : Env) (auto shared : Bool) (cpblts : List Text) (s : St) : Res (St × Bool) :=
  if auto then
    match body env shared cpblts s with
    | .ub => .ub
    | .ok (s1, b) => .ok ({ s1 with clb := .before, noDirs := false, explicit := false }, b)
  else .ok (s, true)

end Verif.CtxFill
