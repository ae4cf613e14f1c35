import Verif.Spec.ConfStore
import Verif.Model.ConfUsers

/-!
# What the SSH parameters of an endpoint should be

As for the stores (`Spec.ConfStore`): configurations are maps, diffs are lists of edits, `patch…` applies a diff to a configuration,
`…Tree` is the diff as it is given to the server. The nodes of a diff are in the order of the YANG modules.
-/

namespace Verif.ConfUsers
open Verif.ConfTree (Op Meta)
open Verif.ConfStore

/-! ## Public keys of a user -/

/-- The three cases of the choice in `public-keys`: keys given there (format and data), a bag of the truststore, keys of the system
(modules/ietf-truststore@2023-12-28.yang:253-287, modules/libnetconf2-netconf-server@2024-07-09.yang:353-358). -/
inductive KeysConf where
  | inline (m : Map (Nat × Nat))
  | bag (n : Nat)
  | system

/-- The same with a list of keys, to be created. -/
inductive KeysData where
  | inline (l : List (Nat × (Nat × Nat)))
  | bag (n : Nat)
  | system

/-- Keys in the SubjectPublicKeyInfo format are not valid for SSH. -/
def sshKeyOk (spki : Nat → Bool) (p : Nat × Nat) : Option (Nat × Nat) := if (fmtOk p.1 && !spki p.2) = true then some p else none

/-- Apply edits of keys. -/
def patchUserKeys (spki : Nat → Bool) : Map (Nat × Nat) → List PubEdit → Option (Map (Nat × Nat)) :=
  patchAll (sshKeyOk spki) (fun p c => sshKeyOk spki (c.fmt.getD p.1, c.data.getD p.2))

/-- The configuration created. -/
def KeysData.conf (spki : Nat → Bool) : KeysData → Option KeysConf
  | .inline l => (patchUserKeys spki (fun _ => none) (l.map (fun p => .create p.1 p.2))).map KeysConf.inline
  | .bag n => some (.bag n)
  | .system => some .system

/-- What is there before another case of the choice is chosen; a deleted container may carry any child nodes. -/
inductive KeysOld where
  | inline (rest : List Tree)
  | bag (n : Nat)
  | system

/-- Is this the case of the choice in the configuration. -/
def KeysOld.fits : KeysOld → KeysConf → Bool
  | .inline _, .inline _ => true
  | .bag n, .bag n' => n == n'
  | .system, .system => true
  | _, _ => false

/-- Is the new case another one. -/
def KeysOld.differs : KeysOld → KeysData → Bool
  | .inline _, .inline _ => false
  | .bag _, .bag _ => false
  | .system, .system => false
  | _, _ => true

/-- Edits of `public-keys`. -/
inductive KeysEdit where
  | keep
  | create (d : KeysData)
  | delete (rest : List Tree)
  | edit (es : List PubEdit)
  | reref (n : Nat)
  | switch (old : KeysOld) (d : KeysData)

/-- Apply them. -/
def KeysEdit.apply (spki : Nat → Bool) : KeysEdit → Option KeysConf → Option (Option KeysConf)
  | .keep, c => some c
  | .create d, none => (d.conf spki).map some
  | .delete _, some _ => some none
  | .edit es, some (.inline m) => (patchUserKeys spki m es).map (fun m' => some (.inline m'))
  | .reref n, some (.bag _) => some (some (.bag n))
  | .switch o d, some c => if (o.fits c && o.differs d) = true then (d.conf spki).map some else none
  | _, _ => none

/-- Nodes of `inline-definition` with the keys. -/
def inlineTree (l : List (Nat × (Nat × Nat))) (m : Meta := .absent) : Tree := .node .inlineDefinition 0 m (l.map (fun p => pubData p.1 p.2))

/-- The children of `public-keys` created. -/
def KeysData.trees : KeysData → List Tree
  | .inline l => [inlineTree l]
  | .bag n => [leaf .centralTruststoreReference n]
  | .system => [leaf .useSystemKeys 0]

/-- The children of `public-keys` if the case of the choice changes, in the order of the module. -/
def switchTrees : KeysOld → KeysData → List Tree
  | .inline rest, .bag n => [.node .inlineDefinition 0 .delete rest, leaf .centralTruststoreReference n .create]
  | .inline rest, .system => [.node .inlineDefinition 0 .delete rest, leaf .useSystemKeys 0 .create]
  | .bag n, .inline l => [inlineTree l .create, leaf .centralTruststoreReference n .delete]
  | .bag n, .system => [leaf .centralTruststoreReference n .delete, leaf .useSystemKeys 0 .create]
  | .system, .inline l => [inlineTree l .create, leaf .useSystemKeys 0 .delete]
  | .system, .bag n => [leaf .centralTruststoreReference n .create, leaf .useSystemKeys 0 .delete]
  | _, _ => []

/-- An edit of `public-keys` as data. -/
def KeysEdit.trees : KeysEdit → List Tree
  | .keep => []
  | .create d => [.node .publicKeys 0 .create d.trees]
  | .delete rest => [.node .publicKeys 0 .delete rest]
  | .edit es => [.node .publicKeys 0 .none [.node .inlineDefinition 0 .none (es.map pubTree)]]
  | .reref n => [.node .publicKeys 0 .none [leaf .centralTruststoreReference n .replace]]
  | .switch o d => [.node .publicKeys 0 .none (switchTrees o d)]

/-! ## Users -/

/-- Configuration of a user: public keys, password, keyboard-interactive authentication and the method none. -/
structure UserConf where
  keys : Option KeysConf
  password : Option Nat
  noneOk : Bool
  kbdint : Bool

/-- A user to create. -/
structure UserData where
  keys : Option KeysData
  password : Option Nat
  noneOk : Bool
  kbdint : Bool

/-- The configuration created. -/
def UserData.conf (spki : Nat → Bool) (d : UserData) : Option UserConf :=
  match d.keys with
  | none => some ⟨none, d.password, d.noneOk, d.kbdint⟩
  | some k => (k.conf spki).map (fun c => ⟨some c, d.password, d.noneOk, d.kbdint⟩)

/-- Edit of a node without value. -/
inductive Flag where
  | keep
  | on
  | off
  deriving DecidableEq

/-- Apply it. -/
def Flag.apply : Flag → Bool → Option Bool
  | .keep, b => some b
  | .on, false => some true
  | .off, true => some false
  | _, _ => none

/-- Change of a user. -/
structure UserChange where
  keys : KeysEdit
  password : LeafEdit
  noneOk : Flag
  kbdint : Flag

/-- Apply it. -/
def UserConf.change (spki : Nat → Bool) (c : UserConf) (e : UserChange) : Option UserConf :=
  match e.keys.apply spki c.keys, e.password.apply c.password, e.noneOk.apply c.noneOk, e.kbdint.apply c.kbdint with
  | some k, some p, some n, some b => some ⟨k, p, n, b⟩
  | _, _, _, _ => none

/-- Edits of users. -/
abbrev UserEdit := Edit UserData UserChange

/-- The node `keyboard-interactive`. -/
def kbdTree (m : Meta := .absent) : Tree := .node .keyboardInteractive 0 m [leaf .useSystemAuth 0]

/-- A user as data. -/
def userData (n : Nat) (d : UserData) (m : Meta := .absent) : Tree :=
  .node .user 0 m (leaf .name n ::
    ((match d.keys with
      | none => []
      | some k => [.node .publicKeys 0 .absent k.trees]) ++
    (optLeaf .password d.password ++
    ((if d.noneOk then [leaf .noneMethod 0] else []) ++
     (if d.kbdint then [kbdTree] else [])))))

/-- Edit of the method none as data. -/
def noneTrees : Flag → List Tree
  | .keep => []
  | .on => [leaf .noneMethod 0 .create]
  | .off => [leaf .noneMethod 0 .delete]

/-- Edit of keyboard-interactive authentication as data. -/
def kbdTrees : Flag → List Tree
  | .keep => []
  | .on => [kbdTree .create]
  | .off => [kbdTree .delete]

/-- An edit of a user as data. -/
def userTree : UserEdit → Tree
  | .create n d => userData n d .create
  | .delete n rest => .node .user 0 .delete (leaf .name n :: rest)
  | .change n e => .node .user 0 .none (leaf .name n ::
      (e.keys.trees ++ (leafTree .password e.password ++ (noneTrees e.noneOk ++ kbdTrees e.kbdint))))

/-- Apply edits of users. -/
def patchUsers (spki : Nat → Bool) : Map UserConf → List UserEdit → Option (Map UserConf) := patchAll (UserData.conf spki) (UserConf.change spki)

/-! ## Host keys -/

/-- Configuration of a host key: a key pair given there (public key optional) or a key of the keystore. -/
inductive HostConf where
  | inline (pubFmt pub : Option Nat) (privFmt priv : Nat)
  | ref (n : Nat)

/-- Is it valid: supported formats and no public key in the SubjectPublicKeyInfo format. -/
def HostConf.valid (spki : Nat → Bool) : HostConf → Bool
  | .inline f p pf _ => f.all fmtOk && p.all (fun d => !spki d) && privOk pf
  | .ref _ => true

/-- Change of a host key. -/
inductive HostChange where
  | leaves (pubFmt pub : LeafEdit) (privFmt priv : Option Nat)
  | reref (n : Nat)
  | toRef (rest : List Tree) (n : Nat)
  | toInline (old : Nat) (pubFmt pub : Option Nat) (privFmt priv : Nat)

/-- Apply it. -/
def HostConf.change (spki : Nat → Bool) : HostConf → HostChange → Option HostConf
  | .inline f p pf pd, .leaves ef ep epf epd =>
    match ef.apply f, ep.apply p with
    | some f', some p' =>
      if (HostConf.inline f' p' (epf.getD pf) (epd.getD pd)).valid spki then some (.inline f' p' (epf.getD pf) (epd.getD pd)) else none
    | _, _ => none
  | .inline .., .toRef _ n => some (.ref n)
  | .ref _, .reref n => some (.ref n)
  | .ref n, .toInline o f p pf pd => if (n == o && (HostConf.inline f p pf pd).valid spki) = true then some (.inline f p pf pd) else none
  | _, _ => none

/-- Edits of host keys. -/
abbrev HostEdit := Edit HostConf HostChange

/-- Children of `inline-definition`. -/
def pairTrees (f p : Option Nat) (pf pd : Nat) : List Tree :=
  optLeaf .publicKeyFormat f ++ (optLeaf .publicKey p ++ [leaf .privateKeyFormat pf, leaf .cleartextPrivateKey pd])

/-- The children of `public-key` of a host key. -/
def HostConf.trees : HostConf → List Tree
  | .inline f p pf pd => [.node .inlineDefinition 0 .absent (pairTrees f p pf pd)]
  | .ref r => [leaf .centralKeystoreReference r]

/-- A host key as data. -/
def hostData (n : Nat) (c : HostConf) (m : Meta := .absent) : Tree :=
  .node .hostKey 0 m [leaf .name n, .node .publicKey 0 .absent c.trees]

/-- Change of a host key as data. -/
def HostChange.trees : HostChange → List Tree
  | .leaves f p pf pd => [.node .inlineDefinition 0 .none (leafTree .publicKeyFormat f ++ (leafTree .publicKey p ++
      (replaced .privateKeyFormat pf ++ replaced .cleartextPrivateKey pd)))]
  | .reref n => [leaf .centralKeystoreReference n .replace]
  | .toRef rest n => [.node .inlineDefinition 0 .delete rest, leaf .centralKeystoreReference n .create]
  | .toInline o f p pf pd => [.node .inlineDefinition 0 .create (pairTrees f p pf pd), leaf .centralKeystoreReference o .delete]

/-- An edit of a host key as data. -/
def hostTree : HostEdit → Tree
  | .create n c => hostData n c .create
  | .delete n rest => .node .hostKey 0 .delete (leaf .name n :: rest)
  | .change n e => .node .hostKey 0 .none [leaf .name n, .node .publicKey 0 .none e.trees]

/-- Apply edits of host keys. -/
def patchHosts (spki : Nat → Bool) : Map HostConf → List HostEdit → Option (Map HostConf) :=
  patchAll (fun c => if c.valid spki then some c else none) (HostConf.change spki)

/-! ## SSH parameters of an endpoint -/

/-- Their configuration. -/
structure SshConf where
  hosts : Map HostConf
  users : Map UserConf

/-- A diff of them. -/
structure SshDiff where
  hosts : List HostEdit
  users : List UserEdit

/-- Apply it. -/
def patchSsh (spki : Nat → Bool) (c : SshConf) (d : SshDiff) : Option SshConf :=
  match patchHosts spki c.hosts d.hosts, patchUsers spki c.users d.users with
  | some h, some u => some ⟨h, u⟩
  | _, _ => none

/-- A diff as data. -/
def sshTree (d : SshDiff) : Tree :=
  .node .sshServerParameters 0 .none
    [.node .serverIdentity 0 .none (d.hosts.map hostTree),
     .node .clientAuthentication 0 .none [.node .users 0 .none (d.users.map userTree)]]

/-- Whole data. -/
structure SshData where
  hosts : List (Nat × HostConf)
  users : List (Nat × UserData)

/-- Their meaning, if they are valid. -/
def SshData.conf (spki : Nat → Bool) (d : SshData) : Option SshConf :=
  patchSsh spki ⟨fun _ => none, fun _ => none⟩ ⟨d.hosts.map (fun p => .create p.1 p.2), d.users.map (fun p => .create p.1 p.2)⟩

/-- The data without operations. -/
def SshData.tree (d : SshData) : Tree :=
  .node .sshServerParameters 0 .absent
    [.node .serverIdentity 0 .absent (d.hosts.map (fun p => hostData p.1 p.2)),
     .node .clientAuthentication 0 .absent [.node .users 0 .absent (d.users.map (fun p => userData p.1 p.2))]]

/-- Apply several diffs. -/
def patchSshAll (spki : Nat → Bool) : SshConf → List SshDiff → Option SshConf
  | c, [] => some c
  | c, d :: ds => match patchSsh spki c d with
    | some c' => patchSshAll spki c' ds
    | none => none

/-! ## What the server does -/

/-- Public key authentication is as configured: not offered without keys, otherwise with exactly the keys configured. -/
def AuthAs (a : Option Auth) : Option KeysConf → Prop
  | none => a = some .off
  | some (.inline m) => ∃ l, HoldsPubs l m ∧ a = some (if l = [] then .off else .keys l)
  | some (.bag n) => a = some (.bag n)
  | some .system => a = some .system

/-- A user of the server authenticates as configured. -/
def UserAs (u : User) (c : UserConf) : Prop :=
  AuthAs u.auth c.keys ∧ u.password = c.password ∧ u.noneOk = c.noneOk ∧ u.kbdint = c.kbdint

/-- A host key of the server is as configured: the private key given to libssh is. -/
def HostAs (h : HostKey) : HostConf → Prop
  | .inline _ _ pf pd => h.priv = some (.inl (pf, some pd))
  | .ref n => h.priv = some (.inr n)

/-- The endpoint works as configured. -/
def SshAs (s : Ssh) (c : SshConf) : Prop := Holds HostKey.name HostAs s.hostKeys c.hosts ∧ Holds User.name UserAs s.users c.users

/-- How the user `n` of the endpoint is authenticated by public keys. -/
def authOf (s : Ssh) (n : Nat) : Option (Option Auth) := (s.users.find? (fun u => u.name == n)).map User.auth

/-- The order of host keys after an edit: new ones are the last, the order of the others stays
(`ordered-by user`, modules/ietf-ssh-server@2023-12-28.yang:163-171). -/
def hostOrder (ns : List Nat) : HostEdit → List Nat
  | .create k _ => ns ++ [k]
  | .delete k _ => ns.filter (fun n => n != k)
  | .change _ _ => ns

/-- An edit that removes a host key. -/
def isDelete : HostEdit → Bool
  | .delete _ _ => true
  | _ => false

/-! ## Changes that are not followed -/

/-- Changes of users after which the server does not do what is configured, now or after further changes: keyboard-interactive
authentication turned off, public keys of the truststore or of the system removed, keys given in the configuration replaced by
others, keys of the truststore replaced by keys given in the configuration, and keys of the system replaced by no keys. -/
def UserConf.lost (c : UserConf) (e : UserChange) : Bool :=
  e.kbdint == .off ||
  (match e.keys, c.keys with
    | .delete _, some (.bag _) => true
    | .delete _, some .system => true
    | .switch (.inline _) _, _ => true
    | .switch (.bag _) (.inline _), _ => true
    | .switch .system (.inline []), _ => true
    | _, _ => false)

/-- Changes of host keys that are not followed: a key of the keystore replaced by a private key without public key. -/
def HostChange.lost : HostChange → Bool
  | .toInline _ _ none _ _ => true
  | _ => false

/-- Apply a diff without changes that are not followed. -/
def patchSafe (spki : Nat → Bool) (c : SshConf) (d : SshDiff) : Option SshConf :=
  match patchAll (fun c => if HostConf.valid spki c then some c else none) (fun c e => if e.lost then none else HostConf.change spki c e) c.hosts d.hosts,
        patchAll (UserData.conf spki) (fun c e => if UserConf.lost c e then none else UserConf.change spki c e) c.users d.users with
  | some h, some u => some ⟨h, u⟩
  | _, _ => none

/-- Apply several such diffs. -/
def patchSafeAll (spki : Nat → Bool) : SshConf → List SshDiff → Option SshConf
  | c, [] => some c
  | c, d :: ds => match patchSafe spki c d with
    | some c' => patchSafeAll spki c' ds
    | none => none

end Verif.ConfUsers
