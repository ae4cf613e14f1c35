import Verif.Model.ConfCh
import Verif.Model.CertExp

/-!
# Setting up the whole configuration (src/server_config.c:4304-4502)

The configuration data are the top-level containers of the four modules, in the order in which they are given. A container that is only there by
default has nothing in it, so the flag LYD_DEFAULT is left out. References between endpoints are left out (see `References`); parameters of SSH
and TLS endpoints are in `ConfUsers` and `ConfTls`.
-/

namespace Verif.ConfSetup
open Verif.ConfTree (Op Meta current)
open Verif.ConfStore
open Verif.ConfEndpt (Env Srv Endpt Net delOpts)
open Verif.ConfCh (Client destroyable)
open Verif.CertExp (Span Interval)

/-! ## Intervals of the notifications on expiration of certificates -/

/-- `strtol(value, NULL, 10)` for a text that starts with a digit (src/server_config.c:4001). -/
def lead (acc : Nat) : List Char → Nat
  | [] => acc
  | c :: cs => if '0' ≤ c ∧ c ≤ '9' then lead (acc * 10 + (c.toNat - 48)) cs else acc

/-- `nc_server_config_yang_value2cert_exp_time` (src/server_config.c:3994-4021); the text is not empty (type time-period,
modules/libnetconf2-netconf-server@2024-07-09.yang:247-250). -/
def spanOf (t : List Char) : Option Span :=
  match t.getLast? with
  | some 'm' => some { months := lead 0 t }
  | some 'w' => some { weeks := lead 0 t }
  | some 'd' => some { days := lead 0 t }
  | some 'h' => some { hours := lead 0 t }
  | _ => none

/-- `nc_server_config_create_interval` (src/server_config.c:4023-4051). -/
def createInterval (a p : List Char) (l : List Interval) : Res (List Interval) :=
  match spanOf a with
  | none => .fail l
  | some x =>
    match spanOf p with
    | none => .fail l
    | some y => .ok (l ++ [⟨x, y⟩])

/-- `nc_server_config_del_interval` (src/server_config.c:4053-4085). -/
def delInterval (a p : List Char) (l : List Interval) : List Interval :=
  match spanOf a with
  | none => l
  | some x =>
    match spanOf p with
    | none => l
    | some y =>
      match l.findIdx? (fun i => decide (i.anchor = x) && decide (i.period = y)) with
      | none => l
      | some i => swapDel l i

/-- `nc_server_config_interval` (src/server_config.c:4087-4115). -/
def interval (a p : List Char) (op : Op) (l : List Interval) : Res (List Interval) :=
  if setting op then createInterval a p l else .ok (delInterval a p l)

/-- A list entry `interval` in data (modules/libnetconf2-netconf-server@2024-07-09.yang:418-445, src/server_config.c:4087-4115). -/
structure IvNode where
  m : Meta
  anchor : List Char
  period : List Char
  deriving Repr

/-- The container `ln2-netconf-server` in data with the container `certificate-expiration-notif-intervals` in it, if it is there
(modules/libnetconf2-netconf-server@2024-07-09.yang:399-446, src/server_config.c:3969-3990). -/
structure Ln2 where
  m : Meta
  cont : Option (Meta × List IvNode)
  deriving Repr

/-- `nc_server_config_parse_tree` for an interval (src/server_config.c:4142-4212, 4119-4140). -/
def parseIv (parent : Op) (l : List Interval) (x : IvNode) : Res (List Interval) :=
  if current x.m parent = .unknown then .fail l
  else if current x.m parent = .none then .ok l
  else interval x.anchor x.period (current x.m parent) l

/-- The loop over the intervals (src/server_config.c:4205-4210). -/
def parseIvs (parent : Op) (l : List Interval) : List IvNode → Res (List Interval)
  | [] => .ok l
  | x :: xs =>
    match parseIv parent l x with
    | .ok l1 => parseIvs parent l1 xs
    | r => r

/-- `nc_server_config_parse_tree` for the container with the intervals (src/server_config.c:4142-4212): there is no callback for it. -/
def parseCont (parent : Op) (l : List Interval) (x : Meta × List IvNode) : Res (List Interval) :=
  if current x.1 parent = .unknown then .fail l
  else if current x.1 parent = .delete then .ok l
  else parseIvs (current x.1 parent) l x.2

/-- `nc_server_config_parse_tree` for the container `ln2-netconf-server` (src/server_config.c:4142-4212) with its callback
`nc_server_config_ln2_netconf_server` (3969-3990). -/
def parseLn2 (parent : Op) (l : List Interval) (x : Ln2) : Res (List Interval) :=
  if current x.m parent = .unknown then .fail l
  else if current x.m parent = .delete then .ok []
  else
    match x.cont with
    | none => .ok l
    | some y => parseCont (current x.m parent) l y

/-! ## Removal of everything -/

/-- `nc_server_config_listen` on removal (src/server_config.c:979-1011): the endpoints are removed in order (that the loop meets each of them
once is C25) until one has no transport. -/
def delListen : List Endpt → Net → Res (List Endpt × Net)
  | [], n => .ok ([], n)
  | e :: es, n =>
    match e.ti with
    | none => .fail (e :: es, n)
    | some t =>
      match delOpts t (e, n) with
      | .ok x => delListen es x.2
      | .fail x => .fail (e :: es, x.2)
      | .ub => .ub

/-- The same on the server options (src/server_config.c:979-1011). -/
def clearListen (s : Srv) : Res Srv :=
  match delListen s.endpts s.net with
  | .ok x => .ok { s with endpts := x.1, net := x.2 }
  | .fail x => .fail { s with endpts := x.1, net := x.2 }
  | .ub => .ub

/-- `nc_server_config_ch` on removal (src/server_config.c:1013-1046, 912-943). -/
def clearCh (s : List Client) : Res (List Client) := if s.all destroyable then .ok [] else .ub

/-! ## The whole server -/

/-- The parts of `server_opts` that are configured by YANG data (src/session_p.h:475-606). -/
structure Server where
  ks : Ks
  ts : Ts
  listen : Srv
  ch : List Client
  ivs : List Interval
  deriving DecidableEq, Repr

/-- The container `netconf-server` in data (modules/ietf-netconf-server@2023-12-28.yang:679-682, src/server_config.c:4304-4338). -/
structure SrvTree where
  m : Meta
  listen : Option Tree
  ch : Option Tree
  deriving Repr

/-- Top-level nodes of data (src/server_config.c:4310, 4346; src/server_config_ks.c:428, src/server_config_ts.c:583). -/
inductive Top where
  | ks (t : Tree)
  | ts (t : Tree)
  | srv (t : SrvTree)
  | ln2 (t : Ln2)
  deriving Repr

/-- Metadata of a node (src/server_config.c:4153). -/
def metaOf : Tree → Meta
  | .node _ _ m _ => m

/-- `nc_server_config_parse_tree` for the container `listen` (src/server_config.c:4142-4212, 3866-3867). -/
def parseListen (env : Env) (parent : Op) (s : Srv) (t : Tree) : Res Srv :=
  if current (metaOf t) parent = .delete then clearListen s else parse (ConfEndpt.srvCb env) parent [] s t

/-- `nc_server_config_parse_tree` for the container `call-home` (src/server_config.c:4142-4212, 3853-3854). -/
def parseCh (disp : Bool) (parent : Op) (s : List Client) (t : Tree) : Res (List Client) :=
  if current (metaOf t) parent = .delete then clearCh s else parse (ConfCh.srvCb disp) parent [] s t

/-- Change a part of the server (src/server_config.c:4142-4212, the callbacks change `server_opts`). -/
def on {σ : Type} (put : σ → Server) : Res σ → Res Server
  | .ok x => .ok (put x)
  | .fail x => .fail (put x)
  | .ub => .ub

/-- `nc_server_config_fill_keystore` (src/server_config_ks.c:421-447). -/
def stepKs (op : Op) (t : Option Tree) (s : Server) : Res Server := on (fun x => { s with ks := x }) (fillKs t op s.ks)

/-- `nc_server_config_fill_truststore` (src/server_config_ts.c:576-602). -/
def stepTs (op : Op) (t : Option Tree) (s : Server) : Res Server := on (fun x => { s with ts := x }) (fillTs t op s.ts)

/-- The container `listen`, if it is there (src/server_config.c:4205-4210). -/
def stepListen (env : Env) (op : Op) (t : Option Tree) (s : Server) : Res Server :=
  match t with
  | none => .ok s
  | some t => on (fun x => { s with listen := x }) (parseListen env op s.listen t)

/-- The container `call-home`, if it is there (src/server_config.c:4205-4210). -/
def stepCh (disp : Bool) (op : Op) (t : Option Tree) (s : Server) : Res Server :=
  match t with
  | none => .ok s
  | some t => on (fun x => { s with ch := x }) (parseCh disp op s.ch t)

/-- First one, then the other if it succeeds (src/server_config.c:4377-4409). -/
def andThen (r : Res Server) (f : Server → Res Server) : Res Server :=
  match r with
  | .ok s => f s
  | r => r

/-- `nc_server_config_fill_netconf_server` (src/server_config.c:4304-4338); there is no callback for the container itself. -/
def stepSrv (env : Env) (disp : Bool) (op : Op) (t : Option SrvTree) (s : Server) : Res Server :=
  match t with
  | none => .ok s
  | some t =>
    if current t.m op = .unknown then .fail s
    else if current t.m op = .delete then .ok s
    else andThen (stepListen env (current t.m op) t.listen s) (stepCh disp (current t.m op) t.ch)

/-- `nc_server_config_fill_libnetconf2_netconf_server` (src/server_config.c:4340-4366). -/
def stepLn2 (op : Op) (t : Option Ln2) (s : Server) : Res Server :=
  match t with
  | none => .ok s
  | some t => on (fun x => { s with ivs := x }) (parseLn2 op s.ivs t)

/-- The keystore in data (src/server_config_ks.c:428). -/
def findKs (d : List Top) : Option Tree := d.findSome? (fun | .ks t => some t | _ => none)

/-- The truststore in data (src/server_config_ts.c:583). -/
def findTs (d : List Top) : Option Tree := d.findSome? (fun | .ts t => some t | _ => none)

/-- The container `netconf-server` in data (src/server_config.c:4314, 4434). -/
def findSrv (d : List Top) : Option SrvTree := d.findSome? (fun | .srv t => some t | _ => none)

/-- The container `ln2-netconf-server` in data (src/server_config.c:4350). -/
def findLn2 (d : List Top) : Option Ln2 := d.findSome? (fun | .ln2 t => some t | _ => none)

/-- The four modules in order (src/server_config.c:4377-4409, 4460-4489). -/
def fill (env : Env) (disp : Bool) (op : Op) (d : List Top) (s : Server) : Res Server :=
  andThen (andThen (andThen (stepKs op (findKs d) s) (stepTs op (findTs d))) (stepSrv env disp op (findSrv d))) (stepLn2 op (findLn2 d))

/-- `nc_server_config_setup_diff` (src/server_config.c:4368-4421). -/
def setupDiff (env : Env) (disp : Bool) (d : List Top) (s : Server) : Res Server := fill env disp .unknown d s

mutual
/-- Has a node or one below it the metadata `yang:operation` (src/server_config.c:4442-4449). -/
def hasOp : Tree → Bool
  | .node _ _ m ch => m != .absent || hasOpL ch
/-- The same for several nodes (src/server_config.c:4442-4449). -/
def hasOpL : List Tree → Bool
  | [] => false
  | t :: ts => hasOp t || hasOpL ts
end

/-- The same for top-level nodes (src/server_config.c:4442-4449). -/
def Top.hasOp : Top → Bool
  | .ks t => ConfSetup.hasOp t
  | .ts t => ConfSetup.hasOp t
  | .srv t => t.m != .absent || (t.listen.any ConfSetup.hasOp || t.ch.any ConfSetup.hasOp)
  | .ln2 t => t.m != .absent || t.cont.any (fun y => y.1 != .absent || y.2.any (fun x => x.m != .absent))

/-- Is it the container `netconf-server` (src/server_config.c:4434). -/
def Top.isSrv : Top → Bool
  | .srv _ => true
  | _ => false

/-- Removal of the current configuration (src/server_config.c:4454-4458); results are not looked at. -/
def clear (s : Server) : Option Server :=
  match clearListen s.listen with
  | .ub => none
  | .ok l | .fail l =>
    match clearCh s.ch with
    | .ub => none
    | .ok c | .fail c =>
      match ksAll .delete s.ks, tsTruststore .delete s.ts with
      | .ok k, .ok t => some ⟨k, t, l, c, s.ivs⟩
      | _, _ => none

/-- `nc_server_config_setup_data` (src/server_config.c:4423-4502). -/
def setupData (env : Env) (disp : Bool) (d : List Top) (s : Server) : Res Server :=
  if (findSrv d).isNone then .fail s
  else if (d.dropWhile (fun t => !t.isSrv)).any Top.hasOp then .fail s
  else
    match clear s with
    | none => .ub
    | some s0 => fill env disp .create d s0

/-- What the application does: complete data or a diff (src/server_config.h:72-94). -/
inductive Call where
  | data (d : List Top)
  | diff (d : List Top)
  deriving Repr

/-- One call (src/server_config.c:4368-4502). -/
def call (env : Env) (disp : Bool) (s : Server) : Call → Res Server
  | .data d => setupData env disp d s
  | .diff d => setupDiff env disp d s

/-- Several calls, up to the first one that fails (src/server_config.c:4368-4502). -/
def calls (env : Env) (disp : Bool) : List Call → Server → Res Server
  | [], s => .ok s
  | c :: cs, s =>
    match call env disp s c with
    | .ok s1 => calls env disp cs s1
    | r => r

/-- A server without configuration (src/session_server.c:54-58). -/
def boot : Server := ⟨⟨[]⟩, ⟨[], []⟩, ConfEndpt.start, [], []⟩

end Verif.ConfSetup
