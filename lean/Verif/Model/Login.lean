import Verif.Model.ConfUsers
import Verif.Model.SshAuth

/-!
# From the configuration of users to SSH authentication (src/session_server_ssh.c:167-200, 1075-1161, 1243-1297, 1444-1486)

`ConfUsers` and `ConfStore` model what the callbacks of the configuration leave in memory, with numbers for the values in data.
`SshAuth` models authentication with the clients of the endpoints given. Here the clients of `SshAuth` are read from the memory left by the
configuration. The configuration does not change while a client authenticates: `nc_accept` holds the configuration lock
(src/session_server.c:2509-2582, C183).
-/

namespace Verif.Login
open Verif.ConfStore (PubKey Ts)
open Verif.ConfUsers (User Ssh)
open Verif.SshAuth (Client Opts Text)

/-- Meaning of the values in data: texts of names and passwords; the key that libssh makes of the Base64 text of a public key, `none` if it makes none
(`nc_server_ssh_create_ssh_pubkey`, src/session_server_ssh.c:1075-1124); is it in the SubjectPublicKeyInfo format (src/session.c:176-205). -/
structure Vals where
  text : Nat → Text
  key : Nat → Option Nat
  spki : Nat → Bool

/-- The key compared with the one of the client (`nc_server_ssh_auth_pubkey_compare_key`, src/session_server_ssh.c:1141-1146). -/
def sshKey (v : Vals) (k : PubKey) : Option Nat := k.data.bind v.key

/-- `nc_server_ssh_ts_ref_get_keys` (src/session_server_ssh.c:167-200). -/
def bagKeys (v : Vals) (ts : Ts) (name : Nat) : Option (List PubKey) :=
  match ts.pubBags.find? (fun b => decide (v.text b.name = v.text name)) with
  | none => none
  | some b => if b.keys.any (fun k => k.data.any v.spki) then none else some b.keys

/-- Where the public keys of a user are (src/session_server_ssh.c:1254-1272); `none`: memory is used that is no array of keys or no name. A store of
another kind is an internal error, which denies access, and does not count as a method (src/session_server_ssh.c:1269-1272, 1494-1500). -/
def keysOf (v : Vals) (ts : Ts) (u : User) : Option SshAuth.Store :=
  match u.store with
  | .local => u.keys?.map (fun l => .local (l.map (sshKey v)))
  | .truststore =>
    match u.ptr with
    | .str n => some (.truststore ((bagKeys v ts n).map (fun l => l.map (sshKey v))))
    | _ => none
  | .system => some .system
  | .keystore => some (.local [])

/-- A user as seen by the authentication (src/session_server_ssh.c:1458-1464, 1494-1512). -/
def client (v : Vals) (ts : Ts) (u : User) : Option Client :=
  match keysOf v ts u with
  | none => none
  | some k => some ⟨v.text u.name, k, u.password.map v.text, u.kbdint, u.noneOk⟩

/-- The users of an endpoint (src/session_server_ssh.c:1458-1464). -/
def clients (v : Vals) (ts : Ts) : List User → Option (List Client)
  | [] => some []
  | u :: us =>
    match client v ts u, clients v ts us with
    | some c, some cs => some (c :: cs)
    | _, _ => none

/-- The endpoint and the endpoints it refers to, in order (src/session_server_ssh.c:1466-1477). -/
def chain (v : Vals) (ts : Ts) : List Ssh → Option (List (List Client))
  | [] => some []
  | s :: ss =>
    match clients v ts s.users, chain v ts ss with
    | some c, some cs => some (c :: cs)
    | _, _ => none

/-- Options of the endpoint (src/session_server_ssh.c:1444-1486). -/
def opts (v : Vals) (ts : Ts) (ss : List Ssh) : Option Opts := (chain v ts ss).map Opts.mk

end Verif.Login
