import Verif.Model.ConfUse

/-!
# From the functions that configure Call Home to the server set up with the data

The application calls the functions for Call Home clients, where they are reached and when (src/server_config_util.c:926-960, 975-998, 1210-1366), and gives
the data to `nc_server_config_setup_data` (src/server_config.c:4423-4502). As for the endpoints to listen on (`Model.ConfUse`), here is how the data are read.

What is simplified: as in `Model.ConfUse`; there is nothing but the container `call-home` in the data. Default nodes are not among the data of `Model.ConfUtil`,
so functions that delete a node fail here if there is only the default one. The functions with NULL as the last name are left out.
-/

namespace Verif.ConfChUse
open Verif.ConfTree (Meta)
open Verif.ConfStore (Tree Label)
open Verif.ConfEndpt (Ti)
open Verif.ConfUtil
open Verif.ConfUse (seg valueAt leafOf kaTree tiLabel tiSeg)

/-- A call (src/server_config_util.c:926-960, 975-998, 1210-1366), first the name of the client: `nc_server_config_add_ch_address_port`,
`nc_server_config_del_ch_endpt`, `nc_server_config_del_ch_client`, `nc_server_config_add_ch_persistent`, the functions that add and delete period, anchor time and
idle timeout, `nc_server_config_add_ch_reconnect_strategy`, `nc_server_config_del_ch_reconnect_strategy`. -/
inductive Call where
  | addr (c e : Text) (t : Ti) (a : Text) (p : Nat)
  | delEndpt (c e : Text)
  | delClient (c : Text)
  | persistent (c : Text)
  | period (c : Text) (n : Nat)
  | delPeriod (c : Text)
  | anchor (c : Text) (x : Text)
  | delAnchor (c : Text)
  | idle (c : Text) (n : Nat)
  | delIdle (c : Text)
  | strategy (c : Text) (start wait attempts : Nat)
  | delStrategy (c : Text)

/-- The function for the transport (src/server_config_util.c:934-941). -/
def addFn : Ti → Fn
  | .ssh => add_ch_address_port_ssh
  | .tls => add_ch_address_port_tls

/-- The text of NC_CH_START_WITH (src/server_config_util.c:1320-1330; src/session.h:111-115). -/
def startText : Nat → Option Text
  | 0 => some t!"first-listed"
  | 1 => some t!"last-connected"
  | 2 => some t!"random-selection"
  | _ => none

/-- A number that is printed if it is not 0 (src/server_config_util.c:1337-1352). -/
def unless0 (n : Nat) : Option Text := if n = 0 then none else some (Nat.toDigits 10 n)

/-- The call (src/server_config_util.c:926-960, 975-998, 1210-1366); numbers are printed. -/
def Call.run (S : Schema) (cfg : Config) : Call → Bool × Config
  | .addr c e t a p => call S (addFn t) [c, e] [some a, some (Nat.toDigits 10 p)] cfg
  | .delEndpt c e => call S del_ch_endpt [c, e] [] cfg
  | .delClient c => call S del_ch_client [c] [] cfg
  | .persistent c => call S add_ch_persistent [c] [] cfg
  | .period c n => call S add_ch_period [c] [some (Nat.toDigits 10 n)] cfg
  | .delPeriod c => call S del_ch_period [c] [] cfg
  | .anchor c x => call S add_ch_anchor_time [c] [some x] cfg
  | .delAnchor c => call S del_ch_anchor_time [c] [] cfg
  | .idle c n => call S add_ch_idle_timeout [c] [some (Nat.toDigits 10 n)] cfg
  | .delIdle c => call S del_ch_idle_timeout [c] [] cfg
  | .strategy c s w a => call S add_ch_reconnect_strategy [c] [startText s, unless0 a, unless0 w] cfg
  | .delStrategy c => call S del_ch_reconnect_strategy [c] [] cfg

/-- Several calls, up to the first one that fails (src/server_config_util.c:926-998, 1210-1366). -/
def build (S : Schema) : List Call → Config → Bool × Config
  | [], cfg => (true, cfg)
  | c :: cs, cfg =>
    match c.run S cfg with
    | (true, cfg') => build S cs cfg'
    | r => r

/-- Numbers for the texts of names, addresses and times, which the server compares, gives to the operating system and converts
(src/server_config.c:168-218, 3546-3579, 3699-3726). -/
structure Codes where
  name : Text → Nat
  addr : Text → Nat
  time : Text → Nat

/-- The path of a client (src/server_config_util.c:978-983). -/
def cl (c : Text) : Path := [seg t!"ietf-netconf-server:netconf-server", seg t!"call-home", ⟨t!"netconf-client", [(t!"name", c)]⟩]

/-- The path of an endpoint (src/server_config_util.c:990-997). -/
def chEp (c e : Text) : Path := cl c ++ [seg t!"endpoints", ⟨t!"endpoint", [(t!"name", e)]⟩]

/-- The name of the client, if the path is that of one: its key (src/server_config.c:3482-3542). -/
def clientName (p : Path) : Option Text :=
  match p.drop 2 with
  | [⟨_, [(_, n)]⟩] => if p = cl n then some n else none
  | _ => none

/-- The name of the endpoint of the client, if the path is that of one: its key (src/server_config.c:1169-1192). -/
def epName (c : Text) (p : Path) : Option Text :=
  match p.drop 4 with
  | [⟨_, [(_, n)]⟩] => if p = chEp c n then some n else none
  | _ => none

/-- The names of the clients in the data (src/server_config.c:4206-4211). -/
def clients (t : List Node) : List Text := t.filterMap (fun n => clientName n.path)

/-- The names of the endpoints of a client in the data, in their order (src/server_config.c:4206-4211): libyang adds new ones at the end. -/
def eps (c : Text) (t : List Node) : List Text := t.filterMap (fun n => epName c n.path)

/-- The path of the TCP parameters of an endpoint (src/server_config_util.c:935-940). -/
def tcp (c e : Text) (i : Ti) : Path := chEp c e ++ [tiSeg i, seg t!"tcp-client-parameters"]

/-- The default of `remote-port` (src/server_config.c:3581-3612; modules/ietf-netconf-server@2023-12-28.yang:336-337, 392-393). -/
def tiPort : Ti → Nat
  | .ssh => 4334
  | .tls => 4335

/-- A number in the data (src/server_config.c:3581-3612, 3673-3697). -/
def number (v : Text) : Nat := Nat.ofDigitChars 10 v 0

/-- A transport of an endpoint, if it is in the data (src/server_config.c:4206-4211: the children of the endpoint); the local port is the default one
(modules/ietf-tcp-client@2023-12-28.yang:134-175). -/
def transTree (C : Codes) (t : List Node) (c e : Text) (i : Ti) : Option Tree :=
  if found t (chEp c e ++ [tiSeg i]) then
    some (.node (tiLabel i) 0 .absent [.node .tcpClientParameters 0 .absent
      (((valueAt t (tcp c e i ++ [seg t!"remote-address"])).map (fun v => leafOf .remoteAddress (C.addr v))).toList ++
        [leafOf .remotePort (((valueAt t (tcp c e i ++ [seg t!"remote-port"])).map number).getD (tiPort i)), leafOf .localPort 0, kaTree])])
  else none

/-- An endpoint: its key, then its transports in the order of the schema (src/server_config.c:4206-4211;
modules/ietf-netconf-server@2023-12-28.yang:310-420). -/
def epTree (C : Codes) (t : List Node) (c e : Text) : Tree :=
  .node .endpoint 0 .absent (leafOf .name (C.name e) :: [Ti.ssh, Ti.tls].filterMap (transTree C t c e))

/-- The path of the container for a periodic connection (src/server_config_util.c:1214-1216). -/
def periodicPath (c : Text) : Path := cl c ++ [seg t!"connection-type", seg t!"periodic"]

/-- The connection types in the data; period and idle timeout have defaults (src/server_config.c:1049-1070, 3615-3726;
modules/ietf-netconf-server@2023-12-28.yang:520-614). -/
def connTrees (C : Codes) (t : List Node) (c : Text) : List Tree :=
  (if found t (cl c ++ [seg t!"connection-type", seg t!"persistent"]) then [.node .persistent 0 .absent []] else []) ++
  (if found t (periodicPath c) then
    [.node .periodic 0 .absent (leafOf .period (((valueAt t (periodicPath c ++ [seg t!"period"])).map number).getD 60) ::
      (((valueAt t (periodicPath c ++ [seg t!"anchor-time"])).map (fun v => leafOf .anchorTime (C.time v))).toList ++
        [leafOf .idleTimeout (((valueAt t (periodicPath c ++ [seg t!"idle-timeout"])).map number).getD 180)]))]
  else [])

/-- The value of `start-with` (src/server_config.c:3755-3792). -/
def startCode (v : Text) : Nat := if v = t!"first-listed" then 0 else if v = t!"last-connected" then 1 else 2

/-- The path of the reconnect strategy (src/server_config_util.c:1317). -/
def rsPath (c : Text) : Path := cl c ++ [seg t!"reconnect-strategy"]

/-- The reconnect strategy, whose leaves all have defaults (src/server_config.c:3728-3844; modules/ietf-netconf-server@2023-12-28.yang:615-674). -/
def rsTree (t : List Node) (c : Text) : Tree :=
  .node .reconnectStrategy 0 .absent
    [leafOf .startWith (((valueAt t (rsPath c ++ [seg t!"start-with"])).map startCode).getD 0),
      leafOf .maxWait (((valueAt t (rsPath c ++ [seg t!"max-wait"])).map number).getD 5),
      leafOf .maxAttempts (((valueAt t (rsPath c ++ [seg t!"max-attempts"])).map number).getD 3)]

/-- A client (src/server_config.c:3482-3542, 4206-4211). -/
def clientTree (C : Codes) (t : List Node) (c : Text) : Tree :=
  .node .netconfClient 0 .absent
    [leafOf .name (C.name c), .node .other 0 .absent ((eps c t).map (epTree C t c)), .node .connectionType 0 .absent (connTrees C t c), rsTree t c]

/-- The data as they are given to `nc_server_config_setup_data` (src/server_config.c:4423-4502). -/
def topsOf (C : Codes) (t : List Node) : List ConfSetup.Top :=
  [.srv ⟨.absent, none, some (.node .other 0 .absent ((clients t).map (clientTree C t)))⟩]

end Verif.ConfChUse
