import Verif.Model.ConfStoreUse

/-!
# From the functions that configure host keys to the host keys of the server

The application calls the functions for host keys of an SSH endpoint (src/server_config_util_ssh.c:36-113, 140-152, 172-196, 226-234), between calls of the
functions for its users and for the stores, and gives the data to the server. As in `ConfUse`, the data are a list of nodes with texts, and here is how the
server finds host keys in them.

What is simplified: all calls are for one endpoint; `nc_server_config_del_ssh_hostkey` without the name of a host key is left out. Files are read before
(`KeyUtil`), so that the texts of keys are given here.
-/

namespace Verif.ConfHostUse
open Verif.ConfUtil
open Verif.ConfStore (Tree Label)
open Verif.ConfUse (seg ep leafOf)
open Verif.ConfUserUse (fmtCode)
open Verif.ConfTlsUse (leafAt privCode)

/-- A call for an endpoint (src/server_config_util_ssh.c:36-113, 140-152, 172-196, 226-234): `nc_server_config_add_ssh_hostkey` with what was read from the
files, `nc_server_config_add_ssh_keystore_ref` and the functions that delete these. -/
inductive Call where
  | key (h pub sfmt priv : Text)
  | ref (h k : Text)
  | delKey (h : Text)
  | delRef (h : Text)

/-- The call (src/server_config_util_ssh.c:36-113, 140-152, 172-196, 226-234). -/
def Call.run (S : Schema) (e : Text) (cfg : Config) : Call → Bool × Config
  | .key h pub sfmt priv => call S add_ssh_hostkey [e, h] [some pub, some sfmt, some priv] cfg
  | .ref h k => call S add_ssh_keystore_ref [e, h] [some k] cfg
  | .delKey h => call S del_ssh_hostkey [e, h] [] cfg
  | .delRef h => call S del_ssh_keystore_ref [e, h] [] cfg

/-- A call for the endpoint, for host keys or for users (src/server_config_util_ssh.c:36-113, 140-152, 172-196, 226-234, 277-669, 708-740). -/
def run (S : Schema) (e : Text) (cfg : Config) : Call ⊕ ConfUserUse.Call → Bool × Config
  | .inl c => c.run S e cfg
  | .inr c => c.run S e cfg

/-- The path of a host key (src/server_config_util_ssh.c:102-103). -/
def hostPath (e h : Text) : Path :=
  ep e ++ [seg t!"ssh", seg t!"ssh-server-parameters", seg t!"server-identity", ⟨t!"host-key", [(t!"name", h)]⟩]

/-- The name of the host key, if the path is that of one: its key (`nc_server_config_host_key`, src/server_config.c:1673-1725). -/
def hostName (e : Text) (p : Path) : Option Text :=
  match p.drop 7 with
  | [⟨_, [(_, n)]⟩] => if p = hostPath e n then some n else none
  | _ => none

/-- The host keys in the data, in their order (src/server_config.c:4206-4211: the children of `server-identity`). -/
def hosts (e : Text) (t : List Node) : List Text := t.filterMap (fun n => hostName e n.path)

/-- The keys given in the configuration (src/server_config_util_ssh.c:62-81). -/
def inlineDef (e h : Text) : Path := hostPath e h ++ [seg t!"public-key", seg t!"inline-definition"]

/-- The children of `public-key` of a host key: the keys given there, or the name of a key of the keystore, whatever there is, in the order of the modules
(src/server_config.c:1728-1772, 1840-1883, 1961-2051, 2077-2117). Texts are turned to numbers by `C`. -/
def contentOf (C : Text → Nat) (e : Text) (t : List Node) (h : Text) : List Tree :=
  (if found t (inlineDef e h) then
    [.node .inlineDefinition 0 .absent
      (leafAt t .publicKeyFormat fmtCode (inlineDef e h ++ [seg t!"public-key-format"]) ++
        (leafAt t .publicKey C (inlineDef e h ++ [seg t!"public-key"]) ++
          (leafAt t .privateKeyFormat privCode (inlineDef e h ++ [seg t!"private-key-format"]) ++
            leafAt t .cleartextPrivateKey C (inlineDef e h ++ [seg t!"cleartext-private-key"]))))]
  else []) ++
  leafAt t .centralKeystoreReference C (hostPath e h ++ [seg t!"public-key", seg t!"central-keystore-reference"])

/-- A host key (src/server_config.c:1673-1725). -/
def hostTreeOf (C : Text → Nat) (e : Text) (t : List Node) (h : Text) : Tree :=
  .node .hostKey 0 .absent [leafOf .name (C h), .node .publicKey 0 .absent (contentOf C e t h)]

/-- The SSH parameters of the endpoint with the host keys and users in the data (src/server_config.c:4206-4211). -/
def sshTreeOf (C : Text → Nat) (e : Text) (t : List Node) : Tree :=
  ConfUserUse.sshTree C e ((hosts e t).map (hostTreeOf C e t)) t

end Verif.ConfHostUse
