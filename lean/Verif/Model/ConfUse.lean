import Verif.Model.ConfUtil
import Verif.Model.ConfSetup

/-!
# From the functions that create configuration data to the server set up with them

The application calls `nc_server_config_add_address_port` and `nc_server_config_del_endpt` (src/server_config_util.c:886-972) and gives the data to
`nc_server_config_setup_data` (src/server_config.c:4423-4502). `ConfUtil` has the data as a list of nodes with texts, `ConfSetup` as trees with
numbers; here is how the one is read as the other.

What is simplified: only these two functions are called, so there is nothing but the container `listen` in the data; texts of names and addresses
are turned to numbers by parameters. libyang keeps the children of a node in the order of the schema and has added the default nodes
(src/server_config_util.c:66-70). The data are given to the server without `lyd_validate_all`.
-/

namespace Verif.ConfUse
open Verif.ConfTree (Meta)
open Verif.ConfStore (Tree Label)
open Verif.ConfEndpt (Ti)
open Verif.ConfUtil

/-- A call of a configuration function (src/server_config_util.c:886-972): `nc_server_config_add_address_port`, `nc_server_config_del_endpt`. -/
inductive Call where
  | add (name : Text) (t : Ti) (addr : Text) (port : Nat)
  | del (name : Text)

/-- The function for the transport (src/server_config_util.c:896-903). -/
def addFn : Ti → Fn
  | .ssh => add_address_port_ssh
  | .tls => add_address_port_tls

/-- The call (src/server_config_util.c:886-972); the port is printed (line 915). -/
def Call.run (S : Schema) (cfg : Config) : Call → Bool × Config
  | .add n t a p => call S (addFn t) [n] [some a, some (Nat.toDigits 10 p)] cfg
  | .del n => call S del_endpt [n] [] cfg

/-- Several calls, up to the first one that fails (src/server_config_util.c:886-972). -/
def build (S : Schema) : List Call → Config → Bool × Config
  | [], cfg => (true, cfg)
  | c :: cs, cfg =>
    match c.run S cfg with
    | (true, cfg') => build S cs cfg'
    | r => r

/-- Numbers for the texts of names and addresses, which the server compares and gives to the operating system (src/server_config.c:138-163, 1355-1378). -/
structure Codes where
  name : Text → Nat
  addr : Text → Nat

/-- A node that is no list instance, in a path (src/server_config_util.c:897-903). -/
def seg (t : Text) : Seg := ⟨t, []⟩

/-- The path of the container of endpoints (src/server_config_util.c:897-903). -/
def base : Path := [seg t!"ietf-netconf-server:netconf-server", seg t!"listen", seg t!"endpoints"]

/-- The path of an endpoint (src/server_config_util.c:897-903). -/
def ep (n : Text) : Path := base ++ [⟨t!"endpoint", [(t!"name", n)]⟩]

/-- The node of a transport (src/server_config_util.c:897-903; src/server_config.c:3846-3957). -/
def tiSeg : Ti → Seg
  | .ssh => seg t!"ssh"
  | .tls => seg t!"tls"

/-- The path of the TCP parameters of an endpoint (src/server_config_util.c:897-903). -/
def tcp (n : Text) (t : Ti) : Path := ep n ++ [tiSeg t, seg t!"tcp-server-parameters"]

/-- The name of the endpoint, if the path is that of one: its key (src/server_config.c:1125-1144). -/
def endptName (p : Path) : Option Text :=
  match p.drop 3 with
  | [⟨_, [(_, n)]⟩] => if p = ep n then some n else none
  | _ => none

/-- The value of a leaf (`lyd_get_value`, src/server_config.c:1355-1438). -/
def valueAt (t : List Node) (p : Path) : Option Text := (t.find? (fun n => n.path == p)).bind Node.value

/-- A leaf without children as the server sees it (src/server_config.c:4143-4213). -/
def leafOf (l : Label) (v : Nat) : Tree := .node l v .absent []

/-- Keepalives: there are only the default nodes (src/server_config_util.c:66-70; modules/ietf-tcp-common@2023-12-28.yang:67-114). -/
def kaTree : Tree := .node .keepalives 0 .absent [leafOf .idleTime 7200, leafOf .maxProbes 9, leafOf .probeInterval 75]

/-- The label of a transport (src/server_config.c:3846-3957). -/
def tiLabel : Ti → Label
  | .ssh => .ssh
  | .tls => .tls

/-- The default port in `local-port` (src/server_config.c:1411-1438; modules/ietf-netconf-server@2023-12-28.yang:213-214, 269-270). -/
def tiPort : Ti → Nat
  | .ssh => 830
  | .tls => 6513

/-- A transport of an endpoint, if it is in the data (src/server_config.c:4206-4211: the children of the endpoint). -/
def transTree (C : Codes) (t : List Node) (n : Text) (i : Ti) : Option Tree :=
  if found t (ep n ++ [tiSeg i]) then
    some (.node (tiLabel i) 0 .absent [.node .tcpServerParameters 0 .absent
      (((valueAt t (tcp n i ++ [seg t!"local-address"])).map (fun v => leafOf .localAddress (C.addr v))).toList ++
        [leafOf .localPort (((valueAt t (tcp n i ++ [seg t!"local-port"])).map (fun v => Nat.ofDigitChars 10 v 0)).getD (tiPort i)), kaTree])])
  else none

/-- An endpoint: its key, then its transports in the order of the schema (src/server_config.c:4206-4211;
modules/ietf-netconf-server@2023-12-28.yang:198-300). -/
def endptTree (C : Codes) (t : List Node) (n : Text) : Tree :=
  .node .endpoint 0 .absent (leafOf .name (C.name n) :: [Ti.ssh, Ti.tls].filterMap (transTree C t n))

/-- The names of the endpoints in the data (src/server_config.c:4206-4211). -/
def names (t : List Node) : List Text := t.filterMap (fun n => endptName n.path)

/-- The container `listen` with the default idle timeout (src/server_config.c:4304-4338; src/server_config_util.c:66-70). -/
def listenTree (C : Codes) (t : List Node) : Tree :=
  .node .other 0 .absent [leafOf .idleTimeout 180, .node .other 0 .absent ((names t).map (endptTree C t))]

/-- The data as they are given to `nc_server_config_setup_data` (src/server_config.c:4423-4502). -/
def topsOf (C : Codes) (t : List Node) : List ConfSetup.Top := [.srv ⟨.absent, some (listenTree C t), none⟩]

end Verif.ConfUse
