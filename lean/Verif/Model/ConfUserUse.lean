import Verif.Model.ConfUse
import Verif.Model.ConfUsers

/-!
# From the functions that configure SSH users to the users of the server

The application calls the functions for users of an endpoint (src/server_config_util_ssh.c:277-669, 708-740) and gives the data to the server. As in
`ConfUse`, the data are a list of nodes with texts, and here is how the server finds users in them.

What is simplified: all calls are for one endpoint; the functions that delete all users or all keys at once are left out, and
`nc_server_config_del_ssh_truststore_ref`, whose path is not known to the modules (src/server_config_util_ssh.c:779-787). Files are read before
(`KeyUtil`), passwords are hashed before (src/server_config_util_ssh.c:495-519), so that the texts of keys and of hashes are given here.
A container `public-keys` without children has no effect on the server (src/server_config.c:2314-2317).
-/

namespace Verif.ConfUserUse
open Verif.ConfUtil
open Verif.ConfStore (Tree)
open Verif.ConfUse (seg ep valueAt leafOf)

/-- A call for an endpoint (src/server_config_util_ssh.c:277-669, 708-740): `nc_server_config_add_ssh_user_pubkey`, `..._authkey`,
`nc_server_config_add_ssh_truststore_ref`, `nc_server_config_add_ssh_user_password`, `..._interactive` and the functions that delete these. -/
inductive Call where
  | pubkey (u k d : Text)
  | authkey (u : Text)
  | tsRef (u b : Text)
  | password (u h : Text)
  | interactive (u : Text)
  | delPubkey (u k : Text)
  | delAuthkey (u : Text)
  | delPassword (u : Text)
  | delInteractive (u : Text)
  | delUser (u : Text)

/-- The call (src/server_config_util_ssh.c:277-669, 708-740). -/
def Call.run (S : Schema) (e : Text) (cfg : Config) : Call → Bool × Config
  | .pubkey u k d => call S add_ssh_user_pubkey [e, u, k] [some d] cfg
  | .authkey u => call S add_ssh_user_authkey [e, u] [] cfg
  | .tsRef u b => call S add_ssh_truststore_ref [e, u] [some b] cfg
  | .password u h => call S add_ssh_user_password [e, u] [some h] cfg
  | .interactive u => call S add_ssh_user_interactive [e, u] [] cfg
  | .delPubkey u k => call S del_ssh_user_pubkey [e, u, k] [] cfg
  | .delAuthkey u => call S del_ssh_user_authkey [e, u] [] cfg
  | .delPassword u => call S del_ssh_user_password [e, u] [] cfg
  | .delInteractive u => call S del_ssh_user_interactive [e, u] [] cfg
  | .delUser u => call S del_ssh_user [e, u] [] cfg

/-- Several calls, up to the first one that fails (src/server_config_util_ssh.c:277-669, 708-740). -/
def build (S : Schema) (e : Text) : List Call → Config → Bool × Config
  | [], cfg => (true, cfg)
  | c :: cs, cfg =>
    match c.run S e cfg with
    | (true, cfg') => build S e cs cfg'
    | r => r

/-- The path of the users of an endpoint (src/server_config_util_ssh.c:285-287). -/
def usersPath (e : Text) : Path :=
  ep e ++ [seg t!"ssh", seg t!"ssh-server-parameters", seg t!"client-authentication", seg t!"users"]

/-- The path of a user (src/server_config_util_ssh.c:285-287). -/
def usr (e u : Text) : Path := usersPath e ++ [⟨t!"user", [(t!"name", u)]⟩]

/-- The container of public keys (src/server_config_util_ssh.c:285-287). -/
def pubKeys : Seg := seg t!"public-keys"

/-- The path of the keys given in the configuration, from the user on (src/server_config_util_ssh.c:285-287). -/
def inlinePath : Path := [pubKeys, seg t!"inline-definition"]

/-- The path of such a key (src/server_config_util_ssh.c:285-287). -/
def keyPath (k : Text) : Path := inlinePath ++ [⟨t!"public-key", [(t!"name", k)]⟩]

/-- The name of the user, if the path is that of one: its key (`nc_server_config_user`, src/server_config.c:2130-2166). -/
def userName (e : Text) (p : Path) : Option Text :=
  match p.drop 8 with
  | [⟨_, [(_, n)]⟩] => if p = usr e n then some n else none
  | _ => none

/-- The users in the data (src/server_config.c:4206-4211: the children of `users`). -/
def users (e : Text) (t : List Node) : List Text := t.filterMap (fun n => userName e n.path)

/-- The name of the key of a user, if the path is that of one (src/server_config.c:1841-1906). -/
def keyName (e u : Text) (p : Path) : Option Text :=
  match p.drop 11 with
  | [⟨_, [(_, n)]⟩] => if p = usr e u ++ keyPath n then some n else none
  | _ => none

/-- The keys of a user in the data (src/server_config.c:4206-4211: the children of `inline-definition`). -/
def keys (e u : Text) (t : List Node) : List Text := t.filterMap (fun n => keyName e u n.path)

/-- The number of a format of public keys (src/server_config.c:1747-1756). -/
def fmtCode (t : Text) : Nat :=
  if t = t!"ietf-crypto-types:ssh-public-key-format" then 0
  else if t = t!"ietf-crypto-types:subject-public-key-info-format" then 1
  else 2

/-- A key given in the configuration (src/server_config.c:1747-1772, 1841-1906). Texts are turned to numbers by `C`. -/
def keyTree (C : Text → Nat) (e u : Text) (t : List Node) (k : Text) : Tree :=
  .node .publicKey 0 .absent [leafOf .name (C k),
    leafOf .publicKeyFormat (fmtCode ((valueAt t (usr e u ++ keyPath k ++ [seg t!"public-key-format"])).getD [])),
    leafOf .publicKey (C ((valueAt t (usr e u ++ keyPath k ++ [seg t!"public-key"])).getD []))]

/-- The container `public-keys` of a user: the keys of the system, a bag of the truststore, or the ones given there; left out if there are none
(src/server_config.c:2274-2338). -/
def pubKeysTrees (C : Text → Nat) (e u : Text) (t : List Node) : List Tree :=
  if found t (usr e u ++ [pubKeys, seg t!"libnetconf2-netconf-server:use-system-keys"]) then
    [.node .publicKeys 0 .absent [leafOf .useSystemKeys 0]]
  else
    match valueAt t (usr e u ++ [pubKeys, seg t!"central-truststore-reference"]) with
    | some b => [.node .publicKeys 0 .absent [leafOf .centralTruststoreReference (C b)]]
    | none =>
      if found t (usr e u ++ inlinePath) then
        [.node .publicKeys 0 .absent [.node .inlineDefinition 0 .absent ((keys e u t).map (keyTree C e u t))]]
      else []

/-- A user in the data, the children in the order of the modules (src/server_config.c:2130-2166, 2274-2410). No function adds the method `none`. -/
def userTree (C : Text → Nat) (e : Text) (t : List Node) (u : Text) : Tree :=
  .node .user 0 .absent (leafOf .name (C u) :: (pubKeysTrees C e u t ++
    (((valueAt t (usr e u ++ [seg t!"password"])).map (fun v => leafOf .password (C v))).toList ++
      (if found t (usr e u ++ [seg t!"libnetconf2-netconf-server:keyboard-interactive"]) then
        [.node .keyboardInteractive 0 .absent [leafOf .useSystemAuth 0]] else []))))

/-- The SSH parameters of the endpoint with these users, and with host keys that were configured by other functions
(src/server_config.c:4206-4211). -/
def sshTree (C : Text → Nat) (e : Text) (hosts : List Tree) (t : List Node) : Tree :=
  .node .sshServerParameters 0 .absent
    [.node .serverIdentity 0 .absent hosts, .node .clientAuthentication 0 .absent [.node .users 0 .absent ((users e t).map (userTree C e t))]]

end Verif.ConfUserUse
