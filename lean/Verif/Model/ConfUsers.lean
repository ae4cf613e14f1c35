import Verif.Model.ConfStore

/-!
# Host keys and users of an SSH endpoint (src/server_config.c)

The callbacks for the nodes below `ssh-server-parameters` of one endpoint (listening or Call Home). The nodes above it and the search
for the endpoint are not modelled (Endpoints, C24), nor are locks of Call Home clients (C92). Trees are those of `ConfStore`.
The public keys of a user share their memory with the name of a bag in the truststore (a union); this is modelled. Running out of
memory and more than 65535 entries are not modelled.
-/

namespace Verif.ConfUsers
open Verif.ConfTree (Op Meta)
open Verif.ConfStore (Label Tree Anc Res Look PubKey swapDel keyOf pubKeyKey ownKey setting privSupported parse)

/-- NC_STORE_TYPE (src/session_p.h:49-54). -/
inductive Store where
  | local
  | keystore
  | truststore
  | system
  deriving DecidableEq, Repr

/-- Where the pointer shared by `pubkeys` and `ts_ref` points to (src/session_p.h:174-180): nowhere, to an array of keys, to a name,
or to an array with entries that were never initialised. -/
inductive Ptr where
  | null
  | keys (l : List PubKey)
  | str (v : Nat)
  | junk
  deriving DecidableEq, Repr

/-- `struct nc_auth_client` (src/session_p.h:170-185); `count` is `pubkey_count`. -/
structure User where
  name : Nat
  store : Store
  ptr : Ptr
  count : Nat
  password : Option Nat
  kbdint : Bool
  noneOk : Bool
  deriving DecidableEq, Repr

/-- `struct nc_hostkey` (src/session_p.h:190-198): `ks_ref` shares its memory only with the name of the key, which is not used. -/
structure HostKey where
  name : Nat
  store : Store
  ksRef : Option Nat
  pubType : Nat
  pubData : Option Nat
  privType : Nat
  privData : Option Nat
  deriving DecidableEq, Repr

/-- `struct nc_server_ssh_opts` (src/session_p.h:203-222), host keys and users. -/
structure Ssh where
  hostKeys : List HostKey
  users : List User
  deriving DecidableEq, Repr

/-- Is the `n`-th parent of the node called `l` (`equal_parent_name`, src/server_config.c:519-536). -/
def parentN (path : List Anc) (n : Nat) (l : Label) : Bool := (path[n]?).map Anc.label == some l

/-- Key of a list entry, missing if there is none (`nc_server_config_get_parent_list_key_value`, src/server_config.c:73-100). -/
def keyOr (path : List Anc) (l : Label) : Option Nat :=
  match keyOf path l with
  | .found k => some k
  | _ => none

/-! ## Users -/

/-- A new user: everything zero but the name (src/server_config.c:545-557, 2119-2126). -/
def newUser (n : Nat) : User := ⟨n, .local, .null, 0, none, false, false⟩

/-- The entries read through `pubkeys` and `pubkey_count` (e.g. src/server_config.c:329-334), `none` if this is not an array with so many keys. -/
def User.keys? (u : User) : Option (List PubKey) :=
  if u.count = 0 then some []
  else
    match u.ptr with
    | .keys l => if u.count ≤ l.length then some (l.take u.count) else none
    | _ => none

/-- A new key (`nc_server_config_realloc`, src/server_config.c:538-562, 1798-1808): the memory the pointer points to is resized. -/
def addKey (k : Nat) (u : User) : User :=
  match u.keys? with
  | some l => { u with ptr := .keys (l ++ [⟨k, 0, none⟩]), count := u.count + 1 }
  | none => { u with ptr := .junk, count := u.count + 1 }

/-- `nc_server_config_get_pubkey` (src/server_config.c:310-338) for the user found. -/
def getPubkey (path : List Anc) (u : User) : Look Nat :=
  match pubKeyKey path with
  | .found k =>
    match u.keys? with
    | none => .bad
    | some l =>
      match l.findIdx? (fun c => c.name == k) with
      | some i => .found i
      | none => .missing
  | _ => .missing

/-- `nc_server_config_del_auth_client_pubkey` (src/server_config.c:589-602). -/
def delKey (i : Nat) (u : User) : User :=
  match u.keys? with
  | some l => if u.count = 1 then { u with ptr := .null, count := 0 } else { u with ptr := .keys (swapDel l i), count := u.count - 1 }
  | none => u

/-- Change of one key through the pointer found (src/server_config.c:1810-1818, 1778). -/
def modKey (i : Nat) (f : PubKey → PubKey) (u : User) : User :=
  match u.keys? with
  | some l => { u with ptr := .keys (l.modify i f) }
  | none => u

/-- `nc_server_config_del_auth_client_pubkeys` (src/server_config.c:604-618). -/
def delKeys (u : User) : Res User :=
  match u.store with
  | .local =>
    if u.count = 0 then .ok u
    else
      match u.keys? with
      | some _ => .ok { u with ptr := .null, count := 0 }
      | none => .ub
  | .truststore => .ok { u with ptr := .null }
  | _ => .ok u

/-- `nc_server_config_public_key` for users (src/server_config.c:1884-1930): the list entry or the leaf inside of it. `spki` tells whether a
key is in the SubjectPublicKeyInfo format (`nc_is_pk_subject_public_key_info`, src/session.c:176-205). -/
def userPublicKey (spki : Nat → Bool) (path : List Anc) (v : Nat) (op : Op) (u : User) : Res User :=
  if parentN path 5 .clientAuthentication then
    if op = .create then
      match ownKey path with
      | .found k => .ok (addKey k { u with store := .local })
      | .missing => .fail u
      | .bad => .ub
    else if op = .delete then
      match getPubkey path u with
      | .found i => .ok (delKey i u)
      | .missing => .fail u
      | .bad => .ub
    else .ok u
  else if parentN path 6 .clientAuthentication then
    match getPubkey path u with
    | .found i =>
      if spki v then .fail u
      else if setting op then .ok (modKey i (fun c => { c with data := some v }) u)
      else if op = .delete then .ok (modKey i (fun c => { c with data := none }) u)
      else .ok u
    | .missing => .fail u
    | .bad => .ub
  else .ok u

/-- `nc_server_config_public_key_format` for users (src/server_config.c:1769-1779). -/
def userPubFormat (path : List Anc) (v : Nat) (op : Op) (u : User) : Res User :=
  if parentN path 6 .clientAuthentication then
    match getPubkey path u with
    | .found i => if setting op then .ok (modKey i (fun c => { c with type := v }) u) else .ok u
    | .missing => .fail u
    | .bad => .ub
  else .ok u

/-- `nc_server_config_truststore_reference` for users (src/server_config.c:2222-2241): the pointer is freed as it is. -/
def userTsRef (path : List Anc) (v : Nat) (op : Op) (u : User) : Res User :=
  if parentN path 1 .publicKeys then
    if setting op then .ok { u with store := .truststore, ptr := .str v }
    else if op = .delete then .ok { u with ptr := .null }
    else .ok u
  else .ok u

/-- `nc_server_config_use_system_keys` (src/server_config.c:2273-2303). -/
def userSystemKeys (op : Op) (u : User) : Res User := if op = .create then .ok { u with store := .system } else .ok u

/-- `nc_server_config_public_keys` (src/server_config.c:2305-2338). -/
def userPublicKeys (op : Op) (u : User) : Res User := if op = .delete then delKeys u else .ok u

/-- `nc_server_config_password` (src/server_config.c:2341-2376). -/
def userPassword (v : Nat) (op : Op) (u : User) : Res User :=
  if setting op then .ok { u with password := some v } else .ok { u with password := none }

/-- `nc_server_config_use_system_auth` (src/server_config.c:2378-2410). -/
def userKbdint (op : Op) (u : User) : Res User := .ok { u with kbdint := op == .create }

/-- `nc_server_config_none` (src/server_config.c:2413-2445). -/
def userNone (op : Op) (u : User) : Res User := .ok { u with noneOk := op == .create }

/-- The callbacks of `nc_server_config_parse_netconf_server` that change one user (src/server_config.c:3846-3957). There are none for
`inline-definition` and `keyboard-interactive`. -/
def userCb (spki : Nat → Bool) (path : List Anc) (v : Nat) (op : Op) (u : User) : Res User :=
  match path.head?.map Anc.label with
  | some .publicKey => userPublicKey spki path v op u
  | some .publicKeyFormat => userPubFormat path v op u
  | some .centralTruststoreReference => userTsRef path v op u
  | some .useSystemKeys => userSystemKeys op u
  | some .publicKeys => userPublicKeys op u
  | some .password => userPassword v op u
  | some .useSystemAuth => userKbdint op u
  | some .noneMethod => userNone op u
  | _ => .ok u

/-! ## Host keys -/

/-- A new host key (src/server_config.c:1673-1680). -/
def newHostKey (n : Nat) : HostKey := ⟨n, .local, none, 0, none, 0, none⟩

/-- `nc_server_config_public_key` for host keys (src/server_config.c:1858-1883): nothing happens on deletion. -/
def hostPublicKey (spki : Nat → Bool) (path : List Anc) (v : Nat) (op : Op) (h : HostKey) : Res HostKey :=
  if parentN path 3 .hostKey then
    if spki v then .fail h
    else if setting op then .ok { h with store := .local, pubData := some v }
    else .ok h
  else .ok h

/-- `nc_server_config_public_key_format` for host keys (src/server_config.c:1758-1768). -/
def hostPubFormat (path : List Anc) (v : Nat) (op : Op) (h : HostKey) : Res HostKey :=
  if parentN path 4 .serverIdentity then
    if setting op then .ok { h with pubType := v } else .ok h
  else .ok h

/-- `nc_server_config_private_key_format` for host keys (src/server_config.c:1980-2002). -/
def hostPrivFormat (v : Nat) (h : HostKey) : Res HostKey :=
  if privSupported v then .ok { h with privType := v } else .fail h

/-- `nc_server_config_cleartext_private_key` for host keys (src/server_config.c:2036-2051). -/
def hostPrivKey (v : Nat) (op : Op) (h : HostKey) : Res HostKey :=
  if setting op then .ok { h with privData := some v } else .ok { h with privData := none }

/-- `nc_server_config_keystore_reference` (src/server_config.c:2077-2117). -/
def hostKsRef (path : List Anc) (v : Nat) (op : Op) (h : HostKey) : Res HostKey :=
  if parentN path 3 .serverIdentity then
    if setting op then .ok { h with store := .keystore, ksRef := some v }
    else if op = .delete then .ok { h with ksRef := none }
    else .ok h
  else .ok h

/-- The callbacks of `nc_server_config_parse_netconf_server` that change one host key (src/server_config.c:3846-3957). -/
def hostCb (spki : Nat → Bool) (path : List Anc) (v : Nat) (op : Op) (h : HostKey) : Res HostKey :=
  match path.head?.map Anc.label with
  | some .publicKey => hostPublicKey spki path v op h
  | some .publicKeyFormat => hostPubFormat path v op h
  | some .privateKeyFormat => hostPrivFormat v h
  | some .cleartextPrivateKey => hostPrivKey v op h
  | some .centralKeystoreReference => hostKsRef path v op h
  | _ => .ok h

/-! ## The endpoint -/

/-- Search the user of the node and change them (`nc_server_config_get_auth_client`, src/server_config.c:279-307). -/
def withUser (path : List Anc) (s : Ssh) (f : User → Res User) : Res Ssh :=
  match (keyOr path .user).bind (fun k => s.users.findIdx? (fun u => u.name == k)) with
  | none => .fail s
  | some i =>
    match s.users[i]? with
    | none => .fail s
    | some u =>
      match f u with
      | .ok u' => .ok { s with users := s.users.set i u' }
      | .fail u' => .fail { s with users := s.users.set i u' }
      | .ub => .ub

/-- Search the host key of the node and change it (`nc_server_config_get_hostkey`, src/server_config.c:248-276). -/
def withHostKey (path : List Anc) (s : Ssh) (f : HostKey → Res HostKey) : Res Ssh :=
  match (keyOr path .hostKey).bind (fun k => s.hostKeys.findIdx? (fun h => h.name == k)) with
  | none => .fail s
  | some i =>
    match s.hostKeys[i]? with
    | none => .fail s
    | some h =>
      match f h with
      | .ok h' => .ok { s with hostKeys := s.hostKeys.set i h' }
      | .fail h' => .fail { s with hostKeys := s.hostKeys.set i h' }
      | .ub => .ub

/-- `nc_server_config_user` (src/server_config.c:2129-2170, 620-636). -/
def cfgUser (path : List Anc) (op : Op) (s : Ssh) : Res Ssh :=
  if op = .create then
    match ownKey path with
    | .found k => .ok { s with users := s.users ++ [newUser k] }
    | .missing => .fail s
    | .bad => .ub
  else if op = .delete then
    match (keyOr path .user).bind (fun k => s.users.findIdx? (fun u => u.name == k)) with
    | none => .fail s
    | some i =>
      match s.users[i]? with
      | none => .fail s
      | some u =>
        match delKeys u with
        | .ok _ => .ok { s with users := swapDel s.users i }
        | .fail _ => .fail s
        | .ub => .ub
  else .ok s

/-- `nc_server_config_host_key` (src/server_config.c:1683-1725, 566-587); only a host key with an unexpected store violates the
assertion at line 569. -/
def cfgHostKey (path : List Anc) (op : Op) (s : Ssh) : Res Ssh :=
  if parentN path 1 .serverIdentity then
    if op = .create then
      match ownKey path with
      | .found k => .ok { s with hostKeys := s.hostKeys ++ [newHostKey k] }
      | .missing => .fail s
      | .bad => .ub
    else if op = .delete then
      match (keyOr path .hostKey).bind (fun k => s.hostKeys.findIdx? (fun h => h.name == k)) with
      | none => .fail s
      | some i =>
        match s.hostKeys[i]? with
        | none => .fail s
        | some h =>
          if h.store = .local ∨ h.store = .keystore then .ok { s with hostKeys := swapDel s.hostKeys i } else .ub
    else .ok s
  else .ok s

/-- Formats of public keys: only two are supported (src/server_config.c:1745-1755). -/
def pubSupported (v : Nat) : Bool := v == 0 || v == 1

/-- `nc_server_config_parse_netconf_server` for the endpoint (src/server_config.c:3846-3957). Which of the searches a callback makes: none for places it does not know (src/server_config.c:1857-1938, 1758-1785, 2222-2241). -/
def sshCb (spki : Nat → Bool) (path : List Anc) (v : Nat) (op : Op) (s : Ssh) : Res Ssh :=
  match path.head?.map Anc.label with
  | some .user => cfgUser path op s
  | some .hostKey => cfgHostKey path op s
  | some .publicKey =>
    if parentN path 3 .hostKey then withHostKey path s (hostCb spki path v op)
    else if parentN path 5 .clientAuthentication || parentN path 6 .clientAuthentication then withUser path s (userCb spki path v op)
    else .ok s
  | some .publicKeyFormat =>
    if !pubSupported v then .fail s
    else if parentN path 4 .serverIdentity then withHostKey path s (hostCb spki path v op)
    else if parentN path 6 .clientAuthentication then withUser path s (userCb spki path v op)
    else .ok s
  | some .privateKeyFormat => withHostKey path s (hostCb spki path v op)
  | some .cleartextPrivateKey => withHostKey path s (hostCb spki path v op)
  | some .centralKeystoreReference => if parentN path 3 .serverIdentity then withHostKey path s (hostCb spki path v op) else .ok s
  | some .centralTruststoreReference => if parentN path 1 .publicKeys then withUser path s (userCb spki path v op) else .ok s
  | some .useSystemKeys => withUser path s (userCb spki path v op)
  | some .publicKeys => if op = .delete then withUser path s (userCb spki path v op) else .ok s
  | some .password => withUser path s (userCb spki path v op)
  | some .useSystemAuth => withUser path s (userCb spki path v op)
  | some .noneMethod => withUser path s (userCb spki path v op)
  | _ => .ok s

/-- Several diffs of the endpoint, one after another (`nc_server_config_setup_diff`, src/server_config.c:4369-4421). -/
def diffs (spki : Nat → Bool) : List Tree → Ssh → Res Ssh
  | [], s => .ok s
  | t :: ts, s =>
    match parse (sshCb spki) .unknown [] s t with
    | .ok s1 => diffs spki ts s1
    | r => r

/-- Whole data of the endpoint, then diffs (`nc_server_config_setup_data`, src/server_config.c:4423-4502, which deletes all endpoints first). -/
def run (spki : Nat → Bool) (t : Tree) (ts : List Tree) : Res Ssh :=
  match parse (sshCb spki) .create [] ⟨[], []⟩ t with
  | .ok s => diffs spki ts s
  | r => r

/-! ## Use -/

/-- What public key authentication of the user does (src/session_server_ssh.c:1254-1273, 1494-1500): it is not offered, the keys come
from the system, are these keys, or those of a bag in the truststore. -/
inductive Auth where
  | off
  | system
  | keys (l : List PubKey)
  | bag (n : Nat)
  deriving DecidableEq, Repr

/-- The same for a user of the server; `none` means that memory is used that is no array of keys or no name, as in `strcmp(NULL, …)`
(src/session_server_ssh.c:178). -/
def User.auth (u : User) : Option Auth :=
  match u.store with
  | .local => if u.count = 0 then some .off else (u.keys?).map Auth.keys
  | .truststore =>
    match u.ptr with
    | .str n => some (.bag n)
    | _ => none
  | .system => some .system
  | .keystore => some .off

/-- The private key given to libssh for a host key (`nc_ssh_bind_add_hostkeys`, src/session_server_ssh.c:1824-1836): of the host key itself
or of a key in the keystore; `none` means that the name of the key is NULL. -/
def HostKey.priv (h : HostKey) : Option (Sum (Nat × Option Nat) Nat) :=
  if h.store = .local then some (.inl (h.privType, h.privData))
  else h.ksRef.map Sum.inr

end Verif.ConfUsers
