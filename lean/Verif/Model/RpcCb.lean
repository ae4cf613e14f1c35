/-!
# Which callback deals with a request

The application sets callbacks for RPCs in schema nodes and a global one (src/session_server.c:1663-1667; src/session_server.h:97-105); whenever a session is
accepted in a context, default ones are set for two RPCs (src/session_server.c:767-796, 995, 2507, 2721). A request is given to the callback of its schema
node, or the global one (src/session_server.c:1736-1746).

What is simplified: contexts and callbacks of the application are numbers; the application sets the field `priv` of schema nodes itself. A context that is freed
and another one at its address are told apart by `fresh`. One thread.
-/

namespace Verif.RpcCb

/-- A callback: of the application, `nc_clb_default_get_schema`, `nc_clb_default_close_session` (src/session_server.c:665-765). -/
inductive Cb where
  | app (n : Nat)
  | getSchema
  | closeSession
  deriving DecidableEq, Repr

/-- An operation: the two that have default callbacks (src/session_server.c:785, 792), others. -/
inductive Op where
  | getSchema
  | closeSession
  | other (n : Nat)
  deriving DecidableEq, Repr

/-- A context (src/session_server.c:772-796): whether ietf-netconf-monitoring is implemented, whether ietf-netconf is there, and the field `priv` of the operations. -/
structure Ctx where
  monitoring : Bool
  netconf : Bool
  priv : Op → Option Cb

/-- `global_rpc_clb` and the contexts (src/session_server.c:60, 773). -/
structure State where
  glob : Option Nat
  ctxs : Nat → Ctx

/-- Setting `priv` (src/session_server.c:788, 794). -/
def Ctx.set (x : Ctx) (op : Op) (f : Option Cb) : Ctx := { x with priv := fun o => if o = op then f else x.priv o }

/-- `nc_server_init_cb_ctx` (src/session_server.c:772-796). -/
def initCtx (glob : Option Nat) (x : Ctx) : Ctx :=
  match glob with
  | some _ => x
  | none =>
    let x := if x.monitoring && (x.priv .getSchema).isNone then x.set .getSchema (some .getSchema) else x
    if x.netconf && (x.priv .closeSession).isNone then x.set .closeSession (some .closeSession) else x

/-- What happens: `nc_set_global_rpc_clb` (src/session_server.c:1663-1667), the application sets the field of an operation (src/session_server.h:97-105), a
context is made, a session is accepted in a context (src/session_server.c:994-995, 2506-2507, 2720-2721). -/
inductive Event where
  | global (g : Option Nat)
  | own (c : Nat) (op : Op) (f : Option Nat)
  | fresh (c : Nat) (monitoring netconf : Bool)
  | session (c : Nat)
  deriving DecidableEq, Repr

/-- The contexts with one changed (src/session_server.c:773). -/
def State.at (s : State) (c : Nat) (x : Ctx) : State := { s with ctxs := fun d => if d = c then x else s.ctxs d }

/-- One event (src/session_server.c:772-796, 1663-1667). -/
def step (s : State) : Event → State
  | .global g => { s with glob := g }
  | .own c op f => s.at c ((s.ctxs c).set op (f.map .app))
  | .fresh c m n => s.at c ⟨m, n, fun _ => none⟩
  | .session c => s.at c (initCtx s.glob (s.ctxs c))

/-- Before the first event (src/session_server.c:60). -/
def start : State := ⟨none, fun _ => ⟨false, false, fun _ => none⟩⟩

/-- Events, one after another (src/session_server.c:772-796, 1663-1667). -/
def run (h : List Event) : State := h.foldl step start

/-- The callback that gets the request; without one the reply is that the operation is not supported (src/session_server.c:1736-1746). -/
def handler (s : State) (c : Nat) (op : Op) : Option Cb :=
  match (s.ctxs c).priv op with
  | none => s.glob.map .app
  | some f => some f

end Verif.RpcCb
