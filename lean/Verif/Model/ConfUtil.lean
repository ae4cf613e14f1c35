/-
Functions that create and edit the configuration data of the server.

Modelled sources: `src/server_config_util.c` (`nc_server_config_create`, `nc_server_config_append`,
`nc_server_config_delete`, `nc_server_config_check_delete` and the `nc_server_config_add_*` and
`nc_server_config_del_*` functions), `src/server_config_util_ssh.c`, `src/server_config_util_tls.c`.

What is simplified:
* the configuration is the list of its data nodes, each with its path and value; default nodes
  (`lyd_new_implicit_tree`) and the leaves that hold list keys are left out, a key is a part of
  the path of its list instance;
* libyang is a parameter: whether the schema takes a path with a value and whether it knows a path;
* a path is read the way libyang reads it, without spaces and without literals in double quotes,
  neither of which occurs in the formats of this code;
* names are never NULL (checked by `NC_CHECK_ARG_RET` in all the functions); a NULL last name of
  a function deleting all the instances is a function of its own here;
* keys and certificates read from files are given as values; a failure to read them ends a
  function before it touches the data.
-/
namespace Verif.ConfUtil

/-- Text: strings of `src/server_config_util.c:34-75`. -/
abbrev Text := List Char

open Lean in
/-- The characters of a string literal, written as `t!"..."`, so that a format can be kept in one
piece as in `src/server_config_util.c:897-903`. -/
macro:max "t!" s:str : term => do
  let cs := s.getString.toList.map Syntax.mkCharLit
  `([$(cs.toArray),*])

/-- One node of a data path with the keys of a list instance: the form of paths used in
`src/server_config_util.c:897-903`. -/
structure Seg where
  name : Text
  keys : List (Text × Text)
deriving DecidableEq, Repr

/-- A path of a data node: `src/server_config_util.c:58`. -/
abbrev Path := List Seg

/-- `vasprintf` with a format of `%s` and `%u` only, where an argument for `%u` is already its
decimal text: `src/server_config_util.c:46`. -/
def fill : Text → List Text → Text
  | [], _ => []
  | '%' :: 's' :: r, a :: as => a ++ fill r as
  | '%' :: 'u' :: r, a :: as => a ++ fill r as
  | c :: r, as => c :: fill r as

/-- A character of a node name with its module: `src/server_config_util.c:897-903`. -/
def nameChar (c : Char) : Bool :=
  c.isAlphanum || c == '-' || c == '_' || c == '.' || c == ':'

/-- The predicates `[key='value']` after a node name, as `lyd_new_path` and `lyd_find_path` read
them, with the text left after them: `src/server_config_util.c:51`, `src/server_config_util.c:138`. -/
def parsePreds : Nat → Text → Option (List (Text × Text) × Text)
  | 0, _ => none
  | n + 1, t =>
    match t with
    | '[' :: r =>
      match r.dropWhile nameChar with
      | '=' :: '\'' :: r2 =>
        match r2.dropWhile (· != '\'') with
        | '\'' :: ']' :: r3 =>
          (parsePreds n r3).map
            (fun x => ((r.takeWhile nameChar, r2.takeWhile (· != '\'')) :: x.1, x.2))
        | _ => none
      | _ => none
    | _ => some ([], t)

/-- The nodes of a path, as `lyd_new_path` and `lyd_find_path` read them:
`src/server_config_util.c:51`, `src/server_config_util.c:138`. -/
def parseSegs : Nat → Text → Option Path
  | 0, _ => none
  | n + 1, t =>
    match t with
    | [] => some []
    | '/' :: r =>
      if (r.takeWhile nameChar).isEmpty then none
      else
        match parsePreds (r.length + 1) (r.dropWhile nameChar) with
        | none => none
        | some x => (parseSegs n x.2).map (⟨r.takeWhile nameChar, x.1⟩ :: ·)
    | _ => none

/-- Reading a whole path: `src/server_config_util.c:51`, `src/server_config_util.c:138`. -/
def parse (t : Text) : Option Path :=
  parseSegs (t.length + 1) t

/-- A data node with its value, if it has one: `struct lyd_node`, `src/server_config_util.c:35`. -/
structure Node where
  path : Path
  value : Option Text
deriving DecidableEq, Repr

/-- `*config`: NULL or the nodes of the configuration, `src/server_config_util.c:50`. -/
abbrev Config := Option (List Node)

/-- What libyang decides by the YANG modules: whether `lyd_new_path` takes a path with a value
(`src/server_config_util.c:51-55`), and whether `lyd_find_path` knows the nodes of a path at all
(`src/server_config_util.c:180-187`). -/
structure Schema where
  valid : Path → Option Text → Bool
  known : Path → Bool

/-- The nodes of the path `p` that are not in the data, parents first:
`src/server_config_util.c:51-55`. -/
def missing (t : List Node) (p : Path) : List Node :=
  ((List.range p.length).map (fun i => p.take (i + 1))).filterMap
    (fun q => if t.any (fun n => n.path == q) then none else some ⟨q, none⟩)

/-- `lyd_new_path` with `LYD_NEW_PATH_UPDATE`: creates the nodes of the path that are missing and
gives the last one its value, `src/server_config_util.c:51-55`. -/
def newPath (S : Schema) (t : List Node) (p : Path) (v : Option Text) : Option (List Node) :=
  if S.valid p v then
    some ((t ++ missing t p).map
      (fun n => if n.path = p ∧ v.isSome then { n with value := v } else n))
  else none

/-- Whether `lyd_find_path` finds the path: `src/server_config_util.c:138`. -/
def found (t : List Node) (p : Path) : Bool :=
  t.any (fun n => n.path == p)

/-- `lyd_free_tree`: the node goes away with all that is under it,
`src/server_config_util.c:143`. -/
def freeTree (t : List Node) (p : Path) : List Node :=
  t.filter (fun n => !p.isPrefixOf n.path)

/-- The path of the top-level container: `src/server_config_util.c:61-62`. -/
def top : Path := [⟨t!"ietf-netconf-server:netconf-server", []⟩]

/-- The search for the top-level container, whose result becomes `*config`. If it is not there,
`lyd_find_path` returns an error and sets its output to NULL: `src/server_config_util.c:61-64`. -/
def setTop (t : List Node) : Bool × Config :=
  if found t top then (true, some t) else (false, none)

/-- `nc_server_config_create` and `nc_server_config_append`, `src/server_config_util.c:34-75` and
`src/server_config_util.c:77-116`; the first component is success. -/
def create (S : Schema) (cfg : Config) (path : Text) (v : Option Text) : Bool × Config :=
  match parse path with
  | none => (false, cfg)
  | some p =>
    match newPath S (cfg.getD []) p v with
    | none => (false, cfg)
    | some t => setTop t

/-- `nc_server_config_delete`, `src/server_config_util.c:118-159`; `lyd_find_path` refuses data
that is NULL. -/
def delete (cfg : Config) (path : Text) : Bool × Config :=
  match cfg with
  | none => (false, none)
  | some t =>
    match parse path with
    | none => (false, cfg)
    | some p => if found t p then setTop (freeTree t p) else (false, cfg)

/-- `nc_server_config_check_delete`, `src/server_config_util.c:161-202`: a node that is not there
is not an error. -/
def checkDelete (S : Schema) (cfg : Config) (path : Text) : Bool × Config :=
  match cfg with
  | none => (false, none)
  | some t =>
    match parse path with
    | none => (false, cfg)
    | some p =>
      if !S.known p then (false, cfg)
      else if found t p then setTop (freeTree t p)
      else (true, cfg)

/-- Where the value of a created node comes from: a constant, NULL, an argument that has to be
there, or an argument whose node is left out if it is not there (`src/server_config_util.c:1332-1350`,
`src/server_config_util_tls.c:666-671`). -/
inductive Src where
  | const (t : Text)
  | null
  | arg (i : Nat)
  | opt (i : Nat)
deriving DecidableEq, Repr

/-- One call of a function above with the format of its path. The path of
`nc_server_config_append` is the format of its parent with the child added
(`src/server_config_util.c:87`). The names in a format are always the first names of the caller. -/
inductive Op where
  | create (fmt : Text) (src : Src)
  | delete (fmt : Text)
  | checkDelete (fmt : Text)
deriving DecidableEq, Repr

/-- The format of the path of a call: `src/server_config_util.c:46`. -/
def Op.fmt : Op → Text
  | .create f _ => f
  | .delete f => f
  | .checkDelete f => f

/-- A function of the API: the number of its names and its calls in their order, e.g.
`src/server_config_util.c:886-923`. -/
structure Fn where
  arity : Nat
  ops : List Op
deriving DecidableEq, Repr

/-- One call made by a function of the API: `src/server_config_util.c:34-202`. -/
def step (S : Schema) (names : List Text) (vals : List (Option Text)) (cfg : Config) :
    Op → Bool × Config
  | .create f (.const v) => create S cfg (fill f names) (some v)
  | .create f .null => create S cfg (fill f names) none
  | .create f (.arg i) =>
    match vals.getD i none with
    | some v => create S cfg (fill f names) (some v)
    | none => (false, cfg)
  | .create f (.opt i) =>
    match vals.getD i none with
    | some v => create S cfg (fill f names) (some v)
    | none => (true, cfg)
  | .delete f => delete cfg (fill f names)
  | .checkDelete f => checkDelete S cfg (fill f names)

/-- The calls of a function one after another until one fails, e.g.
`src/server_config_util.c:910-919`. -/
def run (S : Schema) (names : List Text) (vals : List (Option Text)) : List Op → Config →
    Bool × Config
  | [], cfg => (true, cfg)
  | o :: os, cfg =>
    let r := step S names vals cfg o
    if r.1 then run S names vals os r.2 else r

/-- A call of a function of the API, e.g. `src/server_config_util.c:886-923`. -/
def call (S : Schema) (f : Fn) (names : List Text) (vals : List (Option Text)) (cfg : Config) :
    Bool × Config :=
  run S names vals f.ops cfg

/-- `nc_server_config_add_address_port` for the transport SSH: src/server_config_util.c:887-923; the values are 0 `address`, 1 `port`. -/
def add_address_port_ssh : Fn := ⟨1, [
  .create t!"/ietf-netconf-server:netconf-server/listen/endpoints/endpoint[name='%s']/ssh/tcp-server-parameters/local-address" (.arg 0),
  .create t!"/ietf-netconf-server:netconf-server/listen/endpoints/endpoint[name='%s']/ssh/tcp-server-parameters/local-port" (.arg 1)]⟩

/-- `nc_server_config_add_address_port` for the transport TLS: src/server_config_util.c:887-923; the values are 0 `address`, 1 `port`. -/
def add_address_port_tls : Fn := ⟨1, [
  .create t!"/ietf-netconf-server:netconf-server/listen/endpoints/endpoint[name='%s']/tls/tcp-server-parameters/local-address" (.arg 0),
  .create t!"/ietf-netconf-server:netconf-server/listen/endpoints/endpoint[name='%s']/tls/tcp-server-parameters/local-port" (.arg 1)]⟩

/-- `nc_server_config_add_ch_address_port` for the transport SSH: src/server_config_util.c:926-960; the values are 0 `address`, 1 `port`. -/
def add_ch_address_port_ssh : Fn := ⟨2, [
  .create t!"/ietf-netconf-server:netconf-server/call-home/netconf-client[name='%s']/endpoints/endpoint[name='%s']/ssh/tcp-client-parameters/remote-address" (.arg 0),
  .create t!"/ietf-netconf-server:netconf-server/call-home/netconf-client[name='%s']/endpoints/endpoint[name='%s']/ssh/tcp-client-parameters/remote-port" (.arg 1)]⟩

/-- `nc_server_config_add_ch_address_port` for the transport TLS: src/server_config_util.c:926-960; the values are 0 `address`, 1 `port`. -/
def add_ch_address_port_tls : Fn := ⟨2, [
  .create t!"/ietf-netconf-server:netconf-server/call-home/netconf-client[name='%s']/endpoints/endpoint[name='%s']/tls/tcp-client-parameters/remote-address" (.arg 0),
  .create t!"/ietf-netconf-server:netconf-server/call-home/netconf-client[name='%s']/endpoints/endpoint[name='%s']/tls/tcp-client-parameters/remote-port" (.arg 1)]⟩

/-- `nc_server_config_del_endpt`: src/server_config_util.c:963-972. -/
def del_endpt : Fn := ⟨1, [
  .delete t!"/ietf-netconf-server:netconf-server/listen/endpoints/endpoint[name='%s']"]⟩

/-- `nc_server_config_del_endpt` with NULL as its last name: src/server_config_util.c:963-972. -/
def del_endpt_all : Fn := ⟨0, [
  .delete t!"/ietf-netconf-server:netconf-server/listen/endpoints/endpoint"]⟩

/-- `nc_server_config_del_ch_client`: src/server_config_util.c:975-984. -/
def del_ch_client : Fn := ⟨1, [
  .delete t!"/ietf-netconf-server:netconf-server/call-home/netconf-client[name='%s']"]⟩

/-- `nc_server_config_del_ch_client` with NULL as its last name: src/server_config_util.c:975-984. -/
def del_ch_client_all : Fn := ⟨0, [
  .delete t!"/ietf-netconf-server:netconf-server/call-home/netconf-client"]⟩

/-- `nc_server_config_del_ch_endpt`: src/server_config_util.c:987-998. -/
def del_ch_endpt : Fn := ⟨2, [
  .delete t!"/ietf-netconf-server:netconf-server/call-home/netconf-client[name='%s']/endpoints/endpoint[name='%s']"]⟩

/-- `nc_server_config_del_ch_endpt` with NULL as its last name: src/server_config_util.c:987-998. -/
def del_ch_endpt_all : Fn := ⟨1, [
  .delete t!"/ietf-netconf-server:netconf-server/call-home/netconf-client[name='%s']/endpoints/endpoint"]⟩

/-- `nc_server_config_add_keystore_asym_key`: src/server_config_util.c:1001-1069; the values are 0 `pubkey_format`, 1 `pubkey`, 2 `privkey_format`, 3 `privkey`. -/
def add_keystore_asym_key : Fn := ⟨1, [
  .create t!"/ietf-keystore:keystore/asymmetric-keys/asymmetric-key[name='%s']/public-key-format" (.arg 0),
  .create t!"/ietf-keystore:keystore/asymmetric-keys/asymmetric-key[name='%s']/public-key" (.arg 1),
  .create t!"/ietf-keystore:keystore/asymmetric-keys/asymmetric-key[name='%s']/private-key-format" (.arg 2),
  .create t!"/ietf-keystore:keystore/asymmetric-keys/asymmetric-key[name='%s']/cleartext-private-key" (.arg 3)]⟩

/-- `nc_server_config_del_keystore_asym_key`: src/server_config_util.c:1072-1081. -/
def del_keystore_asym_key : Fn := ⟨1, [
  .delete t!"/ietf-keystore:keystore/asymmetric-keys/asymmetric-key[name='%s']"]⟩

/-- `nc_server_config_del_keystore_asym_key` with NULL as its last name: src/server_config_util.c:1072-1081. -/
def del_keystore_asym_key_all : Fn := ⟨0, [
  .delete t!"/ietf-keystore:keystore/asymmetric-keys/asymmetric-key"]⟩

/-- `nc_server_config_add_keystore_cert`: src/server_config_util.c:1084-1104; the values are 0 `cert`. -/
def add_keystore_cert : Fn := ⟨2, [
  .create t!"/ietf-keystore:keystore/asymmetric-keys/asymmetric-key[name='%s']/certificates/certificate[name='%s']/cert-data" (.arg 0)]⟩

/-- `nc_server_config_del_keystore_cert`: src/server_config_util.c:1107-1118. -/
def del_keystore_cert : Fn := ⟨2, [
  .delete t!"/ietf-keystore:keystore/asymmetric-keys/asymmetric-key[name='%s']/certificates/certificate[name='%s']"]⟩

/-- `nc_server_config_del_keystore_cert` with NULL as its last name: src/server_config_util.c:1107-1118. -/
def del_keystore_cert_all : Fn := ⟨1, [
  .delete t!"/ietf-keystore:keystore/asymmetric-keys/asymmetric-key[name='%s']/certificates/certificate"]⟩

/-- `nc_server_config_add_truststore_pubkey`: src/server_config_util.c:1121-1150; the values are 0 `pubkey`. -/
def add_truststore_pubkey : Fn := ⟨2, [
  .create t!"/ietf-truststore:truststore/public-key-bags/public-key-bag[name='%s']/public-key[name='%s']/public-key-format" (.const t!"ietf-crypto-types:ssh-public-key-format"),
  .create t!"/ietf-truststore:truststore/public-key-bags/public-key-bag[name='%s']/public-key[name='%s']/public-key" (.arg 0)]⟩

/-- `nc_server_config_del_truststore_pubkey`: src/server_config_util.c:1153-1165. -/
def del_truststore_pubkey : Fn := ⟨2, [
  .delete t!"/ietf-truststore:truststore/public-key-bags/public-key-bag[name='%s']/public-key[name='%s']"]⟩

/-- `nc_server_config_del_truststore_pubkey` with NULL as its last name: src/server_config_util.c:1153-1165. -/
def del_truststore_pubkey_all : Fn := ⟨1, [
  .delete t!"/ietf-truststore:truststore/public-key-bags/public-key-bag[name='%s']/public-key"]⟩

/-- `nc_server_config_add_truststore_cert`: src/server_config_util.c:1168-1190; the values are 0 `cert`. -/
def add_truststore_cert : Fn := ⟨2, [
  .create t!"/ietf-truststore:truststore/certificate-bags/certificate-bag[name='%s']/certificate[name='%s']/cert-data" (.arg 0)]⟩

/-- `nc_server_config_del_truststore_cert`: src/server_config_util.c:1193-1205. -/
def del_truststore_cert : Fn := ⟨2, [
  .delete t!"/ietf-truststore:truststore/certificate-bags/certificate-bag[name='%s']/certificate[name='%s']"]⟩

/-- `nc_server_config_del_truststore_cert` with NULL as its last name: src/server_config_util.c:1193-1205. -/
def del_truststore_cert_all : Fn := ⟨1, [
  .delete t!"/ietf-truststore:truststore/certificate-bags/certificate-bag[name='%s']/certificate"]⟩

/-- `nc_server_config_add_ch_persistent`: src/server_config_util.c:1210-1222. -/
def add_ch_persistent : Fn := ⟨1, [
  .checkDelete t!"/ietf-netconf-server:netconf-server/call-home/netconf-client[name='%s']/connection-type/periodic",
  .create t!"/ietf-netconf-server:netconf-server/call-home/netconf-client[name='%s']/connection-type/persistent" .null]⟩

/-- `nc_server_config_add_ch_period`: src/server_config_util.c:1225-1241; the values are 0 `buf`. -/
def add_ch_period : Fn := ⟨1, [
  .checkDelete t!"/ietf-netconf-server:netconf-server/call-home/netconf-client[name='%s']/connection-type/persistent",
  .create t!"/ietf-netconf-server:netconf-server/call-home/netconf-client[name='%s']/connection-type/periodic/period" (.arg 0)]⟩

/-- `nc_server_config_del_ch_period`: src/server_config_util.c:1244-1250. -/
def del_ch_period : Fn := ⟨1, [
  .delete t!"/ietf-netconf-server:netconf-server/call-home/netconf-client[name='%s']/connection-type/periodic/period"]⟩

/-- `nc_server_config_add_ch_anchor_time`: src/server_config_util.c:1253-1266; the values are 0 `anchor_time`. -/
def add_ch_anchor_time : Fn := ⟨1, [
  .checkDelete t!"/ietf-netconf-server:netconf-server/call-home/netconf-client[name='%s']/connection-type/persistent",
  .create t!"/ietf-netconf-server:netconf-server/call-home/netconf-client[name='%s']/connection-type/periodic/anchor-time" (.arg 0)]⟩

/-- `nc_server_config_del_ch_anchor_time`: src/server_config_util.c:1269-1275. -/
def del_ch_anchor_time : Fn := ⟨1, [
  .delete t!"/ietf-netconf-server:netconf-server/call-home/netconf-client[name='%s']/connection-type/periodic/anchor-time"]⟩

/-- `nc_server_config_add_ch_idle_timeout`: src/server_config_util.c:1278-1294; the values are 0 `buf`. -/
def add_ch_idle_timeout : Fn := ⟨1, [
  .checkDelete t!"/ietf-netconf-server:netconf-server/call-home/netconf-client[name='%s']/connection-type/persistent",
  .create t!"/ietf-netconf-server:netconf-server/call-home/netconf-client[name='%s']/connection-type/periodic/idle-timeout" (.arg 0)]⟩

/-- `nc_server_config_del_ch_idle_timeout`: src/server_config_util.c:1297-1303. -/
def del_ch_idle_timeout : Fn := ⟨1, [
  .delete t!"/ietf-netconf-server:netconf-server/call-home/netconf-client[name='%s']/connection-type/periodic/idle-timeout"]⟩

/-- `nc_server_config_add_ch_reconnect_strategy`: src/server_config_util.c:1306-1357; the values are 0 `start_with_val`, 1 `max-attempts`, 2 `max-wait`. -/
def add_ch_reconnect_strategy : Fn := ⟨1, [
  .create t!"/ietf-netconf-server:netconf-server/call-home/netconf-client[name='%s']/reconnect-strategy/start-with" (.arg 0),
  .create t!"/ietf-netconf-server:netconf-server/call-home/netconf-client[name='%s']/reconnect-strategy/max-attempts" (.opt 1),
  .create t!"/ietf-netconf-server:netconf-server/call-home/netconf-client[name='%s']/reconnect-strategy/max-wait" (.opt 2)]⟩

/-- `nc_server_config_del_ch_reconnect_strategy`: src/server_config_util.c:1360-1366. -/
def del_ch_reconnect_strategy : Fn := ⟨1, [
  .delete t!"/ietf-netconf-server:netconf-server/call-home/netconf-client[name='%s']/reconnect-strategy"]⟩

/-- `nc_server_config_add_ssh_hostkey`: src/server_config_util_ssh.c:93-113, with `_nc_server_config_add_ssh_hostkey`, src/server_config_util_ssh.c:36-90; the values are 0 `pubkey`, 1 `privkey_format`, 2 `privkey`. -/
def add_ssh_hostkey : Fn := ⟨2, [
  .create t!"/ietf-netconf-server:netconf-server/listen/endpoints/endpoint[name='%s']/ssh/ssh-server-parameters/server-identity/host-key[name='%s']/public-key/inline-definition/public-key-format" (.const t!"ietf-crypto-types:ssh-public-key-format"),
  .create t!"/ietf-netconf-server:netconf-server/listen/endpoints/endpoint[name='%s']/ssh/ssh-server-parameters/server-identity/host-key[name='%s']/public-key/inline-definition/public-key" (.arg 0),
  .create t!"/ietf-netconf-server:netconf-server/listen/endpoints/endpoint[name='%s']/ssh/ssh-server-parameters/server-identity/host-key[name='%s']/public-key/inline-definition/private-key-format" (.arg 1),
  .create t!"/ietf-netconf-server:netconf-server/listen/endpoints/endpoint[name='%s']/ssh/ssh-server-parameters/server-identity/host-key[name='%s']/public-key/inline-definition/cleartext-private-key" (.arg 2),
  .checkDelete t!"/ietf-netconf-server:netconf-server/listen/endpoints/endpoint[name='%s']/ssh/ssh-server-parameters/server-identity/host-key[name='%s']/public-key/central-keystore-reference"]⟩

/-- `nc_server_config_add_ch_ssh_hostkey`: src/server_config_util_ssh.c:116-137, with `_nc_server_config_add_ssh_hostkey`, src/server_config_util_ssh.c:36-90; the values are 0 `pubkey`, 1 `privkey_format`, 2 `privkey`. -/
def add_ch_ssh_hostkey : Fn := ⟨3, [
  .create t!"/ietf-netconf-server:netconf-server/call-home/netconf-client[name='%s']/endpoints/endpoint[name='%s']/ssh/ssh-server-parameters/server-identity/host-key[name='%s']/public-key/inline-definition/public-key-format" (.const t!"ietf-crypto-types:ssh-public-key-format"),
  .create t!"/ietf-netconf-server:netconf-server/call-home/netconf-client[name='%s']/endpoints/endpoint[name='%s']/ssh/ssh-server-parameters/server-identity/host-key[name='%s']/public-key/inline-definition/public-key" (.arg 0),
  .create t!"/ietf-netconf-server:netconf-server/call-home/netconf-client[name='%s']/endpoints/endpoint[name='%s']/ssh/ssh-server-parameters/server-identity/host-key[name='%s']/public-key/inline-definition/private-key-format" (.arg 1),
  .create t!"/ietf-netconf-server:netconf-server/call-home/netconf-client[name='%s']/endpoints/endpoint[name='%s']/ssh/ssh-server-parameters/server-identity/host-key[name='%s']/public-key/inline-definition/cleartext-private-key" (.arg 2),
  .checkDelete t!"/ietf-netconf-server:netconf-server/call-home/netconf-client[name='%s']/endpoints/endpoint[name='%s']/ssh/ssh-server-parameters/server-identity/host-key[name='%s']/public-key/central-keystore-reference"]⟩

/-- `nc_server_config_del_ssh_hostkey`: src/server_config_util_ssh.c:140-152. -/
def del_ssh_hostkey : Fn := ⟨2, [
  .delete t!"/ietf-netconf-server:netconf-server/listen/endpoints/endpoint[name='%s']/ssh/ssh-server-parameters/server-identity/host-key[name='%s']"]⟩

/-- `nc_server_config_del_ssh_hostkey` with NULL as its last name: src/server_config_util_ssh.c:140-152. -/
def del_ssh_hostkey_all : Fn := ⟨1, [
  .delete t!"/ietf-netconf-server:netconf-server/listen/endpoints/endpoint[name='%s']/ssh/ssh-server-parameters/server-identity/host-key"]⟩

/-- `nc_server_config_del_ch_ssh_hostkey`: src/server_config_util_ssh.c:155-169. -/
def del_ch_ssh_hostkey : Fn := ⟨3, [
  .delete t!"/ietf-netconf-server:netconf-server/call-home/netconf-client[name='%s']/endpoints/endpoint[name='%s']/ssh/ssh-server-parameters/server-identity/host-key[name='%s']"]⟩

/-- `nc_server_config_del_ch_ssh_hostkey` with NULL as its last name: src/server_config_util_ssh.c:155-169. -/
def del_ch_ssh_hostkey_all : Fn := ⟨2, [
  .delete t!"/ietf-netconf-server:netconf-server/call-home/netconf-client[name='%s']/endpoints/endpoint[name='%s']/ssh/ssh-server-parameters/server-identity/host-key"]⟩

/-- `nc_server_config_add_ssh_keystore_ref`: src/server_config_util_ssh.c:172-196; the values are 0 `keystore_reference`. -/
def add_ssh_keystore_ref : Fn := ⟨2, [
  .create t!"/ietf-netconf-server:netconf-server/listen/endpoints/endpoint[name='%s']/ssh/ssh-server-parameters/server-identity/host-key[name='%s']/public-key/central-keystore-reference" (.arg 0),
  .checkDelete t!"/ietf-netconf-server:netconf-server/listen/endpoints/endpoint[name='%s']/ssh/ssh-server-parameters/server-identity/host-key[name='%s']/public-key/inline-definition"]⟩

/-- `nc_server_config_add_ch_ssh_keystore_ref`: src/server_config_util_ssh.c:199-223; the values are 0 `keystore_reference`. -/
def add_ch_ssh_keystore_ref : Fn := ⟨3, [
  .create t!"/ietf-netconf-server:netconf-server/call-home/netconf-client[name='%s']/endpoints/endpoint[name='%s']/ssh/ssh-server-parameters/server-identity/host-key[name='%s']/public-key/central-keystore-reference" (.arg 0),
  .checkDelete t!"/ietf-netconf-server:netconf-server/call-home/netconf-client[name='%s']/endpoints/endpoint[name='%s']/ssh/ssh-server-parameters/server-identity/host-key[name='%s']/public-key/inline-definition"]⟩

/-- `nc_server_config_del_ssh_keystore_ref`: src/server_config_util_ssh.c:226-234. -/
def del_ssh_keystore_ref : Fn := ⟨2, [
  .delete t!"/ietf-netconf-server:netconf-server/listen/endpoints/endpoint[name='%s']/ssh/ssh-server-parameters/server-identity/host-key[name='%s']/public-key/central-keystore-reference"]⟩

/-- `nc_server_config_del_ch_ssh_keystore_ref`: src/server_config_util_ssh.c:237-245. -/
def del_ch_ssh_keystore_ref : Fn := ⟨3, [
  .delete t!"/ietf-netconf-server:netconf-server/call-home/netconf-client[name='%s']/endpoints/endpoint[name='%s']/ssh/ssh-server-parameters/server-identity/host-key[name='%s']/public-key/central-keystore-reference"]⟩

/-- `nc_server_config_add_ssh_user_pubkey`: src/server_config_util_ssh.c:277-314, with `_nc_server_config_add_ssh_user_pubkey`, src/server_config_util_ssh.c:248-274; the values are 0 `pubkey`. -/
def add_ssh_user_pubkey : Fn := ⟨3, [
  .create t!"/ietf-netconf-server:netconf-server/listen/endpoints/endpoint[name='%s']/ssh/ssh-server-parameters/client-authentication/users/user[name='%s']/public-keys/inline-definition/public-key[name='%s']/public-key-format" (.const t!"ietf-crypto-types:ssh-public-key-format"),
  .create t!"/ietf-netconf-server:netconf-server/listen/endpoints/endpoint[name='%s']/ssh/ssh-server-parameters/client-authentication/users/user[name='%s']/public-keys/inline-definition/public-key[name='%s']/public-key" (.arg 0),
  .checkDelete t!"/ietf-netconf-server:netconf-server/listen/endpoints/endpoint[name='%s']/ssh/ssh-server-parameters/client-authentication/users/user[name='%s']/public-keys/central-truststore-reference",
  .checkDelete t!"/ietf-netconf-server:netconf-server/listen/endpoints/endpoint[name='%s']/ssh/ssh-server-parameters/client-authentication/users/user[name='%s']/public-keys/libnetconf2-netconf-server:use-system-keys"]⟩

/-- `nc_server_config_add_ch_ssh_user_pubkey`: src/server_config_util_ssh.c:317-356, with `_nc_server_config_add_ssh_user_pubkey`, src/server_config_util_ssh.c:248-274; the values are 0 `pubkey`. -/
def add_ch_ssh_user_pubkey : Fn := ⟨4, [
  .create t!"/ietf-netconf-server:netconf-server/call-home/netconf-client[name='%s']/endpoints/endpoint[name='%s']/ssh/ssh-server-parameters/client-authentication/users/user[name='%s']/public-keys/inline-definition/public-key[name='%s']/public-key-format" (.const t!"ietf-crypto-types:ssh-public-key-format"),
  .create t!"/ietf-netconf-server:netconf-server/call-home/netconf-client[name='%s']/endpoints/endpoint[name='%s']/ssh/ssh-server-parameters/client-authentication/users/user[name='%s']/public-keys/inline-definition/public-key[name='%s']/public-key" (.arg 0),
  .checkDelete t!"/ietf-netconf-server:netconf-server/call-home/netconf-client[name='%s']/endpoints/endpoint[name='%s']/ssh/ssh-server-parameters/client-authentication/users/user[name='%s']/public-keys/central-truststore-reference",
  .checkDelete t!"/ietf-netconf-server:netconf-server/call-home/netconf-client[name='%s']/endpoints/endpoint[name='%s']/ssh/ssh-server-parameters/client-authentication/users/user[name='%s']/public-keys/libnetconf2-netconf-server:use-system-keys"]⟩

/-- `nc_server_config_del_ssh_user_pubkey`: src/server_config_util_ssh.c:359-373. -/
def del_ssh_user_pubkey : Fn := ⟨3, [
  .delete t!"/ietf-netconf-server:netconf-server/listen/endpoints/endpoint[name='%s']/ssh/ssh-server-parameters/client-authentication/users/user[name='%s']/public-keys/inline-definition/public-key[name='%s']"]⟩

/-- `nc_server_config_del_ssh_user_pubkey` with NULL as its last name: src/server_config_util_ssh.c:359-373. -/
def del_ssh_user_pubkey_all : Fn := ⟨2, [
  .delete t!"/ietf-netconf-server:netconf-server/listen/endpoints/endpoint[name='%s']/ssh/ssh-server-parameters/client-authentication/users/user[name='%s']/public-keys/inline-definition/public-key"]⟩

/-- `nc_server_config_del_ch_ssh_user_pubkey`: src/server_config_util_ssh.c:376-392. -/
def del_ch_ssh_user_pubkey : Fn := ⟨4, [
  .delete t!"/ietf-netconf-server:netconf-server/call-home/netconf-client[name='%s']/endpoints/endpoint[name='%s']/ssh/ssh-server-parameters/client-authentication/users/user[name='%s']/public-keys/inline-definition/public-key[name='%s']"]⟩

/-- `nc_server_config_del_ch_ssh_user_pubkey` with NULL as its last name: src/server_config_util_ssh.c:376-392. -/
def del_ch_ssh_user_pubkey_all : Fn := ⟨3, [
  .delete t!"/ietf-netconf-server:netconf-server/call-home/netconf-client[name='%s']/endpoints/endpoint[name='%s']/ssh/ssh-server-parameters/client-authentication/users/user[name='%s']/public-keys/inline-definition/public-key"]⟩

/-- `nc_server_config_add_ssh_user_authkey`: src/server_config_util_ssh.c:395-431. -/
def add_ssh_user_authkey : Fn := ⟨2, [
  .create t!"/ietf-netconf-server:netconf-server/listen/endpoints/endpoint[name='%s']/ssh/ssh-server-parameters/client-authentication/users/user[name='%s']/public-keys/libnetconf2-netconf-server:use-system-keys" .null,
  .checkDelete t!"/ietf-netconf-server:netconf-server/listen/endpoints/endpoint[name='%s']/ssh/ssh-server-parameters/client-authentication/users/user[name='%s']/public-keys/inline-definition",
  .checkDelete t!"/ietf-netconf-server:netconf-server/listen/endpoints/endpoint[name='%s']/ssh/ssh-server-parameters/client-authentication/users/user[name='%s']/public-keys/central-truststore-reference"]⟩

/-- `nc_server_config_add_ch_ssh_user_authkey`: src/server_config_util_ssh.c:434-471. -/
def add_ch_ssh_user_authkey : Fn := ⟨3, [
  .create t!"/ietf-netconf-server:netconf-server/call-home/netconf-client[name='%s']/endpoints/endpoint[name='%s']/ssh/ssh-server-parameters/client-authentication/users/user[name='%s']/public-keys/libnetconf2-netconf-server:use-system-keys" .null,
  .checkDelete t!"/ietf-netconf-server:netconf-server/call-home/netconf-client[name='%s']/endpoints/endpoint[name='%s']/ssh/ssh-server-parameters/client-authentication/users/user[name='%s']/public-keys/inline-definition",
  .checkDelete t!"/ietf-netconf-server:netconf-server/call-home/netconf-client[name='%s']/endpoints/endpoint[name='%s']/ssh/ssh-server-parameters/client-authentication/users/user[name='%s']/public-keys/central-truststore-reference"]⟩

/-- `nc_server_config_del_ssh_user_authkey`: src/server_config_util_ssh.c:474-481. -/
def del_ssh_user_authkey : Fn := ⟨2, [
  .delete t!"/ietf-netconf-server:netconf-server/listen/endpoints/endpoint[name='%s']/ssh/ssh-server-parameters/client-authentication/users/user[name='%s']/public-keys/libnetconf2-netconf-server:use-system-keys"]⟩

/-- `nc_server_config_ch_del_ssh_user_authkey`: src/server_config_util_ssh.c:484-492. -/
def ch_del_ssh_user_authkey : Fn := ⟨3, [
  .delete t!"/ietf-netconf-server:netconf-server/call-home/netconf-client[name='%s']/endpoints/endpoint[name='%s']/ssh/ssh-server-parameters/client-authentication/users/user[name='%s']/public-keys/libnetconf2-netconf-server:use-system-keys"]⟩

/-- `nc_server_config_add_ssh_user_password`: src/server_config_util_ssh.c:522-542, with `_nc_server_config_add_ssh_user_password`, src/server_config_util_ssh.c:495-519; the values are 0 `hashed_pw`. -/
def add_ssh_user_password : Fn := ⟨2, [
  .create t!"/ietf-netconf-server:netconf-server/listen/endpoints/endpoint[name='%s']/ssh/ssh-server-parameters/client-authentication/users/user[name='%s']/password" (.arg 0)]⟩

/-- `nc_server_config_add_ch_ssh_user_password`: src/server_config_util_ssh.c:545-566, with `_nc_server_config_add_ssh_user_password`, src/server_config_util_ssh.c:495-519; the values are 0 `hashed_pw`. -/
def add_ch_ssh_user_password : Fn := ⟨3, [
  .create t!"/ietf-netconf-server:netconf-server/call-home/netconf-client[name='%s']/endpoints/endpoint[name='%s']/ssh/ssh-server-parameters/client-authentication/users/user[name='%s']/password" (.arg 0)]⟩

/-- `nc_server_config_del_ssh_user_password`: src/server_config_util_ssh.c:569-575. -/
def del_ssh_user_password : Fn := ⟨2, [
  .delete t!"/ietf-netconf-server:netconf-server/listen/endpoints/endpoint[name='%s']/ssh/ssh-server-parameters/client-authentication/users/user[name='%s']/password"]⟩

/-- `nc_server_config_del_ch_ssh_user_password`: src/server_config_util_ssh.c:578-586. -/
def del_ch_ssh_user_password : Fn := ⟨3, [
  .delete t!"/ietf-netconf-server:netconf-server/call-home/netconf-client[name='%s']/endpoints/endpoint[name='%s']/ssh/ssh-server-parameters/client-authentication/users/user[name='%s']/password"]⟩

/-- `nc_server_config_add_ssh_user_interactive`: src/server_config_util_ssh.c:589-609. -/
def add_ssh_user_interactive : Fn := ⟨2, [
  .create t!"/ietf-netconf-server:netconf-server/listen/endpoints/endpoint[name='%s']/ssh/ssh-server-parameters/client-authentication/users/user[name='%s']/libnetconf2-netconf-server:keyboard-interactive/use-system-auth" .null]⟩

/-- `nc_server_config_add_ch_ssh_user_interactive`: src/server_config_util_ssh.c:612-633. -/
def add_ch_ssh_user_interactive : Fn := ⟨3, [
  .create t!"/ietf-netconf-server:netconf-server/call-home/netconf-client[name='%s']/endpoints/endpoint[name='%s']/ssh/ssh-server-parameters/client-authentication/users/user[name='%s']/libnetconf2-netconf-server:keyboard-interactive/use-system-auth" .null]⟩

/-- `nc_server_config_del_ssh_user_interactive`: src/server_config_util_ssh.c:636-643. -/
def del_ssh_user_interactive : Fn := ⟨2, [
  .delete t!"/ietf-netconf-server:netconf-server/listen/endpoints/endpoint[name='%s']/ssh/ssh-server-parameters/client-authentication/users/user[name='%s']/libnetconf2-netconf-server:keyboard-interactive"]⟩

/-- `nc_server_config_del_ch_ssh_user_interactive`: src/server_config_util_ssh.c:646-654. -/
def del_ch_ssh_user_interactive : Fn := ⟨3, [
  .delete t!"/ietf-netconf-server:netconf-server/call-home/netconf-client[name='%s']/endpoints/endpoint[name='%s']/ssh/ssh-server-parameters/client-authentication/users/user[name='%s']/libnetconf2-netconf-server:keyboard-interactive"]⟩

/-- `nc_server_config_del_ssh_user`: src/server_config_util_ssh.c:657-669. -/
def del_ssh_user : Fn := ⟨2, [
  .delete t!"/ietf-netconf-server:netconf-server/listen/endpoints/endpoint[name='%s']/ssh/ssh-server-parameters/client-authentication/users/user[name='%s']"]⟩

/-- `nc_server_config_del_ssh_user` with NULL as its last name: src/server_config_util_ssh.c:657-669. -/
def del_ssh_user_all : Fn := ⟨1, [
  .delete t!"/ietf-netconf-server:netconf-server/listen/endpoints/endpoint[name='%s']/ssh/ssh-server-parameters/client-authentication/users/user"]⟩

/-- `nc_server_config_del_ch_ssh_user`: src/server_config_util_ssh.c:672-685. -/
def del_ch_ssh_user : Fn := ⟨3, [
  .delete t!"/ietf-netconf-server:netconf-server/call-home/netconf-client[name='%s']/endpoints/endpoint[name='%s']/ssh/ssh-server-parameters/client-authentication/users/user[name='%s']"]⟩

/-- `nc_server_config_del_ch_ssh_user` with NULL as its last name: src/server_config_util_ssh.c:672-685. -/
def del_ch_ssh_user_all : Fn := ⟨2, [
  .delete t!"/ietf-netconf-server:netconf-server/call-home/netconf-client[name='%s']/endpoints/endpoint[name='%s']/ssh/ssh-server-parameters/client-authentication/users/user"]⟩

/-- `nc_server_config_add_ssh_endpoint_client_ref`: src/server_config_util_ssh.c:688-696; the values are 0 `referenced_endpt`. -/
def add_ssh_endpoint_client_ref : Fn := ⟨1, [
  .create t!"/ietf-netconf-server:netconf-server/listen/endpoints/endpoint[name='%s']/ssh/ssh-server-parameters/client-authentication/libnetconf2-netconf-server:endpoint-reference" (.arg 0)]⟩

/-- `nc_server_config_del_ssh_endpoint_client_ref`: src/server_config_util_ssh.c:699-705. -/
def del_ssh_endpoint_client_ref : Fn := ⟨1, [
  .delete t!"/ietf-netconf-server:netconf-server/listen/endpoints/endpoint[name='%s']/ssh/ssh-server-parameters/client-authentication/libnetconf2-netconf-server:endpoint-reference"]⟩

/-- `nc_server_config_add_ssh_truststore_ref`: src/server_config_util_ssh.c:708-740; the values are 0 `truststore_reference`. -/
def add_ssh_truststore_ref : Fn := ⟨2, [
  .create t!"/ietf-netconf-server:netconf-server/listen/endpoints/endpoint[name='%s']/ssh/ssh-server-parameters/client-authentication/users/user[name='%s']/public-keys/central-truststore-reference" (.arg 0),
  .checkDelete t!"/ietf-netconf-server:netconf-server/listen/endpoints/endpoint[name='%s']/ssh/ssh-server-parameters/client-authentication/users/user[name='%s']/public-keys/inline-definition",
  .checkDelete t!"/ietf-netconf-server:netconf-server/listen/endpoints/endpoint[name='%s']/ssh/ssh-server-parameters/client-authentication/users/user[name='%s']/public-keys/libnetconf2-netconf-server:use-system-keys"]⟩

/-- `nc_server_config_add_ch_ssh_truststore_ref`: src/server_config_util_ssh.c:743-776; the values are 0 `truststore_reference`. -/
def add_ch_ssh_truststore_ref : Fn := ⟨3, [
  .create t!"/ietf-netconf-server:netconf-server/call-home/netconf-client[name='%s']/endpoints/endpoint[name='%s']/ssh/ssh-server-parameters/client-authentication/users/user[name='%s']/public-keys/central-truststore-reference" (.arg 0),
  .checkDelete t!"/ietf-netconf-server:netconf-server/call-home/netconf-client[name='%s']/endpoints/endpoint[name='%s']/ssh/ssh-server-parameters/client-authentication/users/user[name='%s']/public-keys/inline-definition",
  .checkDelete t!"/ietf-netconf-server:netconf-server/call-home/netconf-client[name='%s']/endpoints/endpoint[name='%s']/ssh/ssh-server-parameters/client-authentication/users/user[name='%s']/public-keys/libnetconf2-netconf-server:use-system-keys"]⟩

/-- `nc_server_config_del_ssh_truststore_ref`: src/server_config_util_ssh.c:779-787. -/
def del_ssh_truststore_ref : Fn := ⟨2, [
  .delete t!"/ietf-netconf-server:netconf-server/listen/endpoint[name='%s']/ssh/ssh-server-parameters/client-authentication/users/user[name='%s']/public-keys/central-truststore-reference"]⟩

/-- `nc_server_config_del_ch_ssh_truststore_ref`: src/server_config_util_ssh.c:790-798. -/
def del_ch_ssh_truststore_ref : Fn := ⟨3, [
  .delete t!"/ietf-netconf-server:netconf-server/call-home/netconf-client[name='%s']/endpoints/endpoint[name='%s']/ssh/ssh-server-parameters/client-authentication/users/user[name='%s']/public-keys/central-truststore-reference"]⟩

/-- `nc_server_config_add_tls_server_cert`: src/server_config_util_tls.c:106-128, with `_nc_server_config_add_tls_server_cert`, src/server_config_util_tls.c:36-103; the values are 0 `pubkey`, 1 `privkey_format`, 2 `privkey`, 3 `cert`. -/
def add_tls_server_cert : Fn := ⟨1, [
  .create t!"/ietf-netconf-server:netconf-server/listen/endpoints/endpoint[name='%s']/tls/tls-server-parameters/server-identity/certificate/inline-definition/public-key-format" (.const t!"ietf-crypto-types:subject-public-key-info-format"),
  .create t!"/ietf-netconf-server:netconf-server/listen/endpoints/endpoint[name='%s']/tls/tls-server-parameters/server-identity/certificate/inline-definition/public-key" (.arg 0),
  .create t!"/ietf-netconf-server:netconf-server/listen/endpoints/endpoint[name='%s']/tls/tls-server-parameters/server-identity/certificate/inline-definition/private-key-format" (.arg 1),
  .create t!"/ietf-netconf-server:netconf-server/listen/endpoints/endpoint[name='%s']/tls/tls-server-parameters/server-identity/certificate/inline-definition/cleartext-private-key" (.arg 2),
  .create t!"/ietf-netconf-server:netconf-server/listen/endpoints/endpoint[name='%s']/tls/tls-server-parameters/server-identity/certificate/inline-definition/cert-data" (.arg 3),
  .checkDelete t!"/ietf-netconf-server:netconf-server/listen/endpoints/endpoint[name='%s']/tls/tls-server-parameters/server-identity/certificate/central-keystore-reference"]⟩

/-- `nc_server_config_del_tls_server_cert`: src/server_config_util_tls.c:131-137. -/
def del_tls_server_cert : Fn := ⟨1, [
  .delete t!"/ietf-netconf-server:netconf-server/listen/endpoints/endpoint[name='%s']/tls/tls-server-parameters/server-identity/certificate/inline-definition"]⟩

/-- `nc_server_config_add_ch_tls_server_cert`: src/server_config_util_tls.c:140-163, with `_nc_server_config_add_tls_server_cert`, src/server_config_util_tls.c:36-103; the values are 0 `pubkey`, 1 `privkey_format`, 2 `privkey`, 3 `cert`. -/
def add_ch_tls_server_cert : Fn := ⟨2, [
  .create t!"/ietf-netconf-server:netconf-server/call-home/netconf-client[name='%s']/endpoints/endpoint[name='%s']/tls/tls-server-parameters/server-identity/certificate/inline-definition/public-key-format" (.const t!"ietf-crypto-types:subject-public-key-info-format"),
  .create t!"/ietf-netconf-server:netconf-server/call-home/netconf-client[name='%s']/endpoints/endpoint[name='%s']/tls/tls-server-parameters/server-identity/certificate/inline-definition/public-key" (.arg 0),
  .create t!"/ietf-netconf-server:netconf-server/call-home/netconf-client[name='%s']/endpoints/endpoint[name='%s']/tls/tls-server-parameters/server-identity/certificate/inline-definition/private-key-format" (.arg 1),
  .create t!"/ietf-netconf-server:netconf-server/call-home/netconf-client[name='%s']/endpoints/endpoint[name='%s']/tls/tls-server-parameters/server-identity/certificate/inline-definition/cleartext-private-key" (.arg 2),
  .create t!"/ietf-netconf-server:netconf-server/call-home/netconf-client[name='%s']/endpoints/endpoint[name='%s']/tls/tls-server-parameters/server-identity/certificate/inline-definition/cert-data" (.arg 3),
  .checkDelete t!"/ietf-netconf-server:netconf-server/call-home/netconf-client[name='%s']/endpoints/endpoint[name='%s']/tls/tls-server-parameters/server-identity/certificate/central-keystore-reference"]⟩

/-- `nc_server_config_del_ch_tls_server_cert`: src/server_config_util_tls.c:166-174. -/
def del_ch_tls_server_cert : Fn := ⟨2, [
  .delete t!"/ietf-netconf-server:netconf-server/call-home/netconf-client[name='%s']/endpoints/endpoint[name='%s']/tls/tls-server-parameters/server-identity/certificate/inline-definition"]⟩

/-- `nc_server_config_add_tls_keystore_ref`: src/server_config_util_tls.c:205-225, with `_nc_server_config_add_tls_keystore_ref`, src/server_config_util_tls.c:177-202; the values are 0 `asym_key_ref`, 1 `cert_ref`. -/
def add_tls_keystore_ref : Fn := ⟨1, [
  .create t!"/ietf-netconf-server:netconf-server/listen/endpoints/endpoint[name='%s']/tls/tls-server-parameters/server-identity/certificate/central-keystore-reference/asymmetric-key" (.arg 0),
  .create t!"/ietf-netconf-server:netconf-server/listen/endpoints/endpoint[name='%s']/tls/tls-server-parameters/server-identity/certificate/central-keystore-reference/certificate" (.arg 1),
  .checkDelete t!"/ietf-netconf-server:netconf-server/listen/endpoints/endpoint[name='%s']/tls/tls-server-parameters/server-identity/certificate/inline-definition"]⟩

/-- `nc_server_config_del_tls_keystore_ref`: src/server_config_util_tls.c:228-234. -/
def del_tls_keystore_ref : Fn := ⟨1, [
  .delete t!"/ietf-netconf-server:netconf-server/listen/endpoints/endpoint[name='%s']/tls/tls-server-parameters/server-identity/certificate/central-keystore-reference"]⟩

/-- `nc_server_config_add_ch_tls_keystore_ref`: src/server_config_util_tls.c:237-257, with `_nc_server_config_add_tls_keystore_ref`, src/server_config_util_tls.c:177-202; the values are 0 `asym_key_ref`, 1 `cert_ref`. -/
def add_ch_tls_keystore_ref : Fn := ⟨2, [
  .create t!"/ietf-netconf-server:netconf-server/call-home/netconf-client[name='%s']/endpoints/endpoint[name='%s']/tls/tls-server-parameters/server-identity/certificate/central-keystore-reference/asymmetric-key" (.arg 0),
  .create t!"/ietf-netconf-server:netconf-server/call-home/netconf-client[name='%s']/endpoints/endpoint[name='%s']/tls/tls-server-parameters/server-identity/certificate/central-keystore-reference/certificate" (.arg 1),
  .checkDelete t!"/ietf-netconf-server:netconf-server/call-home/netconf-client[name='%s']/endpoints/endpoint[name='%s']/tls/tls-server-parameters/server-identity/certificate/inline-definition"]⟩

/-- `nc_server_config_del_ch_tls_keystore_ref`: src/server_config_util_tls.c:260-268. -/
def del_ch_tls_keystore_ref : Fn := ⟨2, [
  .delete t!"/ietf-netconf-server:netconf-server/call-home/netconf-client[name='%s']/endpoints/endpoint[name='%s']/tls/tls-server-parameters/server-identity/certificate/central-keystore-reference"]⟩

/-- `nc_server_config_add_tls_client_cert`: src/server_config_util_tls.c:296-324, with `_nc_server_config_add_tls_client_cert`, src/server_config_util_tls.c:271-293; the values are 0 `cert`. -/
def add_tls_client_cert : Fn := ⟨2, [
  .create t!"/ietf-netconf-server:netconf-server/listen/endpoints/endpoint[name='%s']/tls/tls-server-parameters/client-authentication/ee-certs/inline-definition/certificate[name='%s']/cert-data" (.arg 0),
  .checkDelete t!"/ietf-netconf-server:netconf-server/listen/endpoints/endpoint[name='%s']/tls/tls-server-parameters/client-authentication/ee-certs/central-truststore-reference"]⟩

/-- `nc_server_config_del_tls_client_cert`: src/server_config_util_tls.c:327-340. -/
def del_tls_client_cert : Fn := ⟨2, [
  .delete t!"/ietf-netconf-server:netconf-server/listen/endpoints/endpoint[name='%s']/tls/tls-server-parameters/client-authentication/ee-certs/inline-definition/certificate[name='%s']"]⟩

/-- `nc_server_config_del_tls_client_cert` with NULL as its last name: src/server_config_util_tls.c:327-340. -/
def del_tls_client_cert_all : Fn := ⟨1, [
  .delete t!"/ietf-netconf-server:netconf-server/listen/endpoints/endpoint[name='%s']/tls/tls-server-parameters/client-authentication/ee-certs/inline-definition/certificate"]⟩

/-- `nc_server_config_add_ch_tls_client_cert`: src/server_config_util_tls.c:343-373, with `_nc_server_config_add_tls_client_cert`, src/server_config_util_tls.c:271-293; the values are 0 `cert`. -/
def add_ch_tls_client_cert : Fn := ⟨3, [
  .create t!"/ietf-netconf-server:netconf-server/call-home/netconf-client[name='%s']/endpoints/endpoint[name='%s']/tls/tls-server-parameters/client-authentication/ee-certs/inline-definition/certificate[name='%s']/cert-data" (.arg 0),
  .checkDelete t!"/ietf-netconf-server:netconf-server/call-home/netconf-client[name='%s']/endpoints/endpoint[name='%s']/tls/tls-server-parameters/client-authentication/ee-certs/central-truststore-reference"]⟩

/-- `nc_server_config_del_ch_tls_client_cert`: src/server_config_util_tls.c:376-390. -/
def del_ch_tls_client_cert : Fn := ⟨3, [
  .delete t!"/ietf-netconf-server:netconf-server/call-home/netconf-client[name='%s']/endpoints/endpoint[name='%s']/tls/tls-server-parameters/client-authentication/ee-certs/inline-definition/certificate[name='%s']"]⟩

/-- `nc_server_config_del_ch_tls_client_cert` with NULL as its last name: src/server_config_util_tls.c:376-390. -/
def del_ch_tls_client_cert_all : Fn := ⟨2, [
  .delete t!"/ietf-netconf-server:netconf-server/call-home/netconf-client[name='%s']/endpoints/endpoint[name='%s']/tls/tls-server-parameters/client-authentication/ee-certs/inline-definition/certificate"]⟩

/-- `nc_server_config_add_tls_client_cert_truststore_ref`: src/server_config_util_tls.c:393-415; the values are 0 `cert_bag_ref`. -/
def add_tls_client_cert_truststore_ref : Fn := ⟨1, [
  .create t!"/ietf-netconf-server:netconf-server/listen/endpoints/endpoint[name='%s']/tls/tls-server-parameters/client-authentication/ee-certs/central-truststore-reference" (.arg 0),
  .checkDelete t!"/ietf-netconf-server:netconf-server/listen/endpoints/endpoint[name='%s']/tls/tls-server-parameters/client-authentication/ee-certs/inline-definition"]⟩

/-- `nc_server_config_del_tls_client_cert_truststore_ref`: src/server_config_util_tls.c:418-424. -/
def del_tls_client_cert_truststore_ref : Fn := ⟨1, [
  .delete t!"/ietf-netconf-server:netconf-server/listen/endpoints/endpoint[name='%s']/tls/tls-server-parameters/client-authentication/ee-certs/central-truststore-reference"]⟩

/-- `nc_server_config_add_ch_tls_client_cert_truststore_ref`: src/server_config_util_tls.c:427-451; the values are 0 `cert_bag_ref`. -/
def add_ch_tls_client_cert_truststore_ref : Fn := ⟨2, [
  .create t!"/ietf-netconf-server:netconf-server/call-home/netconf-client[name='%s']/endpoints/endpoint[name='%s']/tls/tls-server-parameters/client-authentication/ee-certs/central-truststore-reference" (.arg 0),
  .checkDelete t!"/ietf-netconf-server:netconf-server/call-home/netconf-client[name='%s']/endpoints/endpoint[name='%s']/tls/tls-server-parameters/client-authentication/ee-certs/inline-definition"]⟩

/-- `nc_server_config_del_ch_tls_client_cert_truststore_ref`: src/server_config_util_tls.c:454-462. -/
def del_ch_tls_client_cert_truststore_ref : Fn := ⟨2, [
  .delete t!"/ietf-netconf-server:netconf-server/call-home/netconf-client[name='%s']/endpoints/endpoint[name='%s']/tls/tls-server-parameters/client-authentication/ee-certs/central-truststore-reference"]⟩

/-- `nc_server_config_add_tls_ca_cert`: src/server_config_util_tls.c:465-493, with `_nc_server_config_add_tls_client_cert`, src/server_config_util_tls.c:271-293; the values are 0 `cert`. -/
def add_tls_ca_cert : Fn := ⟨2, [
  .create t!"/ietf-netconf-server:netconf-server/listen/endpoints/endpoint[name='%s']/tls/tls-server-parameters/client-authentication/ca-certs/inline-definition/certificate[name='%s']/cert-data" (.arg 0),
  .checkDelete t!"/ietf-netconf-server:netconf-server/listen/endpoints/endpoint[name='%s']/tls/tls-server-parameters/client-authentication/ca-certs/central-truststore-reference"]⟩

/-- `nc_server_config_del_tls_ca_cert`: src/server_config_util_tls.c:496-509. -/
def del_tls_ca_cert : Fn := ⟨2, [
  .delete t!"/ietf-netconf-server:netconf-server/listen/endpoints/endpoint[name='%s']/tls/tls-server-parameters/client-authentication/ca-certs/inline-definition/certificate[name='%s']"]⟩

/-- `nc_server_config_del_tls_ca_cert` with NULL as its last name: src/server_config_util_tls.c:496-509. -/
def del_tls_ca_cert_all : Fn := ⟨1, [
  .delete t!"/ietf-netconf-server:netconf-server/listen/endpoints/endpoint[name='%s']/tls/tls-server-parameters/client-authentication/ca-certs/inline-definition/certificate"]⟩

/-- `nc_server_config_add_ch_tls_ca_cert`: src/server_config_util_tls.c:512-542, with `_nc_server_config_add_tls_client_cert`, src/server_config_util_tls.c:271-293; the values are 0 `cert`. -/
def add_ch_tls_ca_cert : Fn := ⟨3, [
  .create t!"/ietf-netconf-server:netconf-server/call-home/netconf-client[name='%s']/endpoints/endpoint[name='%s']/tls/tls-server-parameters/client-authentication/ca-certs/inline-definition/certificate[name='%s']/cert-data" (.arg 0),
  .checkDelete t!"/ietf-netconf-server:netconf-server/call-home/netconf-client[name='%s']/endpoints/endpoint[name='%s']/tls/tls-server-parameters/client-authentication/ca-certs/central-truststore-reference"]⟩

/-- `nc_server_config_del_ch_tls_ca_cert`: src/server_config_util_tls.c:545-559. -/
def del_ch_tls_ca_cert : Fn := ⟨3, [
  .delete t!"/ietf-netconf-server:netconf-server/call-home/netconf-client[name='%s']/endpoints/endpoint[name='%s']/tls/tls-server-parameters/client-authentication/ca-certs/inline-definition/certificate[name='%s']"]⟩

/-- `nc_server_config_del_ch_tls_ca_cert` with NULL as its last name: src/server_config_util_tls.c:545-559. -/
def del_ch_tls_ca_cert_all : Fn := ⟨2, [
  .delete t!"/ietf-netconf-server:netconf-server/call-home/netconf-client[name='%s']/endpoints/endpoint[name='%s']/tls/tls-server-parameters/client-authentication/ca-certs/inline-definition/certificate"]⟩

/-- `nc_server_config_add_tls_ca_cert_truststore_ref`: src/server_config_util_tls.c:562-584; the values are 0 `cert_bag_ref`. -/
def add_tls_ca_cert_truststore_ref : Fn := ⟨1, [
  .create t!"/ietf-netconf-server:netconf-server/listen/endpoints/endpoint[name='%s']/tls/tls-server-parameters/client-authentication/ca-certs/central-truststore-reference" (.arg 0),
  .checkDelete t!"/ietf-netconf-server:netconf-server/listen/endpoints/endpoint[name='%s']/tls/tls-server-parameters/client-authentication/ca-certs/inline-definition"]⟩

/-- `nc_server_config_del_tls_ca_cert_truststore_ref`: src/server_config_util_tls.c:587-593. -/
def del_tls_ca_cert_truststore_ref : Fn := ⟨1, [
  .delete t!"/ietf-netconf-server:netconf-server/listen/endpoints/endpoint[name='%s']/tls/tls-server-parameters/client-authentication/ca-certs/central-truststore-reference"]⟩

/-- `nc_server_config_add_ch_tls_ca_cert_truststore_ref`: src/server_config_util_tls.c:596-620; the values are 0 `cert_bag_ref`. -/
def add_ch_tls_ca_cert_truststore_ref : Fn := ⟨2, [
  .create t!"/ietf-netconf-server:netconf-server/call-home/netconf-client[name='%s']/endpoints/endpoint[name='%s']/tls/tls-server-parameters/client-authentication/ca-certs/central-truststore-reference" (.arg 0),
  .checkDelete t!"/ietf-netconf-server:netconf-server/call-home/netconf-client[name='%s']/endpoints/endpoint[name='%s']/tls/tls-server-parameters/client-authentication/ca-certs/inline-definition"]⟩

/-- `nc_server_config_del_ch_tls_ca_cert_truststore_ref`: src/server_config_util_tls.c:623-631. -/
def del_ch_tls_ca_cert_truststore_ref : Fn := ⟨2, [
  .delete t!"/ietf-netconf-server:netconf-server/call-home/netconf-client[name='%s']/endpoints/endpoint[name='%s']/tls/tls-server-parameters/client-authentication/ca-certs/central-truststore-reference"]⟩

/-- `nc_server_config_add_tls_ctn`: src/server_config_util_tls.c:695-716, with `_nc_server_config_add_tls_ctn`, src/server_config_util_tls.c:657-692; the values are 0 `fingerprint`, 1 `map`, 2 `name`. -/
def add_tls_ctn : Fn := ⟨2, [
  .create t!"/ietf-netconf-server:netconf-server/listen/endpoints/endpoint[name='%s']/tls/netconf-server-parameters/client-identity-mappings/cert-to-name[id='%u']/fingerprint" (.opt 0),
  .create t!"/ietf-netconf-server:netconf-server/listen/endpoints/endpoint[name='%s']/tls/netconf-server-parameters/client-identity-mappings/cert-to-name[id='%u']/map-type" (.arg 1),
  .create t!"/ietf-netconf-server:netconf-server/listen/endpoints/endpoint[name='%s']/tls/netconf-server-parameters/client-identity-mappings/cert-to-name[id='%u']/name" (.arg 2)]⟩

/-- `nc_server_config_del_tls_ctn`: src/server_config_util_tls.c:719-730. -/
def del_tls_ctn : Fn := ⟨2, [
  .delete t!"/ietf-netconf-server:netconf-server/listen/endpoints/endpoint[name='%s']/tls/netconf-server-parameters/client-identity-mappings/cert-to-name[id='%u']"]⟩

/-- `nc_server_config_del_tls_ctn` with NULL as its last name: src/server_config_util_tls.c:719-730. -/
def del_tls_ctn_all : Fn := ⟨1, [
  .delete t!"/ietf-netconf-server:netconf-server/listen/endpoints/endpoint[name='%s']/tls/netconf-server-parameters/client-identity-mappings/cert-to-name"]⟩

/-- `nc_server_config_add_ch_tls_ctn`: src/server_config_util_tls.c:733-755, with `_nc_server_config_add_tls_ctn`, src/server_config_util_tls.c:657-692; the values are 0 `fingerprint`, 1 `map`, 2 `name`. -/
def add_ch_tls_ctn : Fn := ⟨3, [
  .create t!"/ietf-netconf-server:netconf-server/call-home/netconf-client[name='%s']/endpoints/endpoint[name='%s']/tls/netconf-server-parameters/client-identity-mappings/cert-to-name[id='%u']/fingerprint" (.opt 0),
  .create t!"/ietf-netconf-server:netconf-server/call-home/netconf-client[name='%s']/endpoints/endpoint[name='%s']/tls/netconf-server-parameters/client-identity-mappings/cert-to-name[id='%u']/map-type" (.arg 1),
  .create t!"/ietf-netconf-server:netconf-server/call-home/netconf-client[name='%s']/endpoints/endpoint[name='%s']/tls/netconf-server-parameters/client-identity-mappings/cert-to-name[id='%u']/name" (.arg 2)]⟩

/-- `nc_server_config_del_ch_tls_ctn`: src/server_config_util_tls.c:758-772. -/
def del_ch_tls_ctn : Fn := ⟨3, [
  .delete t!"/ietf-netconf-server:netconf-server/call-home/netconf-client[name='%s']/endpoints/endpoint[name='%s']/tls/netconf-server-parameters/client-identity-mappings/cert-to-name[id='%u']"]⟩

/-- `nc_server_config_del_ch_tls_ctn` with NULL as its last name: src/server_config_util_tls.c:758-772. -/
def del_ch_tls_ctn_all : Fn := ⟨2, [
  .delete t!"/ietf-netconf-server:netconf-server/call-home/netconf-client[name='%s']/endpoints/endpoint[name='%s']/tls/netconf-server-parameters/client-identity-mappings/cert-to-name"]⟩

/-- `nc_server_config_add_tls_endpoint_client_ref`: src/server_config_util_tls.c:775-781; the values are 0 `referenced_endpt`. -/
def add_tls_endpoint_client_ref : Fn := ⟨1, [
  .create t!"/ietf-netconf-server:netconf-server/listen/endpoints/endpoint[name='%s']/tls/tls-server-parameters/client-authentication/libnetconf2-netconf-server:endpoint-reference" (.arg 0)]⟩

/-- `nc_server_config_del_tls_endpoint_client_ref`: src/server_config_util_tls.c:784-790. -/
def del_tls_endpoint_client_ref : Fn := ⟨1, [
  .delete t!"/ietf-netconf-server:netconf-server/listen/endpoints/endpoint[name='%s']/tls/tls-server-parameters/client-authentication/libnetconf2-netconf-server:endpoint-reference"]⟩

end Verif.ConfUtil
