import Verif.Model.ConfTree

/-!
# Keystore and truststore of the server (src/server_config_ks.c, src/server_config_ts.c)

Configuration data and diffs are trees of named nodes. Names, keys of list entries and values of leaves are numbers (only their
equality matters). The arrays of the server are lists; removing an element moves the last one to its place (that this does not
corrupt the array in memory is C55). Running out of memory and more than 65535 entries are not modelled.
-/

namespace Verif.ConfStore
open Verif.ConfTree (Op Meta current)

/-- Names of the nodes (src/server_config_ks.c:390-411, src/server_config_ts.c:545-566, src/server_config.c:3846-3957). -/
inductive Label where
  | truststore
  | certificateBags
  | certificateBag
  | certificate
  | certData
  | publicKeyBags
  | publicKeyBag
  | publicKey
  | publicKeyFormat
  | keystore
  | asymmetricKeys
  | asymmetricKey
  | privateKeyFormat
  | cleartextPrivateKey
  | name
  | sshServerParameters
  | serverIdentity
  | hostKey
  | centralKeystoreReference
  | clientAuthentication
  | users
  | user
  | publicKeys
  | inlineDefinition
  | centralTruststoreReference
  | useSystemKeys
  | password
  | noneMethod
  | keyboardInteractive
  | useSystemAuth
  | tlsServerParameters
  | caCerts
  | eeCerts
  | helloParams
  | tlsVersions
  | tlsVersion
  | tcpServerParameters
  | endpoint
  | ssh
  | tls
  | localAddress
  | localPort
  | keepalives
  | idleTime
  | maxProbes
  | probeInterval
  | idleTimeout
  | netconfClient
  | tcpClientParameters
  | remoteAddress
  | remotePort
  | connectionType
  | persistent
  | periodic
  | period
  | anchorTime
  | reconnectStrategy
  | startWith
  | maxWait
  | maxAttempts
  | other
  deriving DecidableEq, Repr

/-- A data tree (`struct lyd_node` of libyang, src/server_config.c:4143): name, value, metadata `yang:operation`, children. -/
inductive Tree where
  | node (label : Label) (val : Nat) (m : Meta) (children : List Tree)
  deriving Repr

/-- The value of a node (`lyd_get_value`, src/server_config_ts.c:353). -/
def Tree.val : Tree → Nat
  | .node _ v _ _ => v

/-- What the callbacks look at in a node and its parents: the name and the value of the first child, which is the key of a list
entry (src/server_config_ts.c:49-63). -/
structure Anc where
  label : Label
  key : Option Nat
  deriving DecidableEq, Repr

/-- Result of a callback: success, failure (with what was done before) or a violated assertion
(`assert(!strcmp(LYD_NAME(node), "name"))`, e.g. src/server_config_ts.c:62). -/
inductive Res (σ : Type) where
  | ok (s : σ)
  | fail (s : σ)
  | ub
  deriving DecidableEq, Repr

mutual
/-- `nc_server_config_parse_tree` (src/server_config.c:4143-4213) for one module with callback `cb`, which gets the node and its
parents (the node first), the value of the node and the operation. -/
def parse {σ : Type} (cb : List Anc → Nat → Op → σ → Res σ) (parent : Op) (path : List Anc) (s : σ) : Tree → Res σ
  | .node l v m ch =>
    if current m parent = .unknown then .fail s
    else if current m parent = .none then parseList cb .none (⟨l, (ch.head?).map Tree.val⟩ :: path) s ch
    else
      match cb (⟨l, (ch.head?).map Tree.val⟩ :: path) v (current m parent) s with
      | .ok s' =>
        if current m parent = .delete then .ok s'
        else parseList cb (current m parent) (⟨l, (ch.head?).map Tree.val⟩ :: path) s' ch
      | r => r
/-- The loop over the children (src/server_config.c:4206-4211). -/
def parseList {σ : Type} (cb : List Anc → Nat → Op → σ → Res σ) (parent : Op) (path : List Anc) (s : σ) : List Tree → Res σ
  | [] => .ok s
  | t :: ts =>
    match parse cb parent path s t with
    | .ok s' => parseList cb parent path s' ts
    | r => r
end

/-! ## Structures -/

/-- `struct nc_certificate` (src/session_p.h:88-91). -/
structure Cert where
  name : Nat
  data : Option Nat
  deriving DecidableEq, Repr

/-- `struct nc_certificate_bag` (src/session_p.h:93-97). -/
structure CertBag where
  name : Nat
  certs : List Cert
  deriving DecidableEq, Repr

/-- `struct nc_public_key` (src/session_p.h:125-129); the type is 0 for NC_PUBKEY_FORMAT_SSH and 1 for NC_PUBKEY_FORMAT_X509. -/
structure PubKey where
  name : Nat
  type : Nat
  data : Option Nat
  deriving DecidableEq, Repr

/-- `struct nc_public_key_bag` (src/session_p.h:131-135). -/
structure PubBag where
  name : Nat
  keys : List PubKey
  deriving DecidableEq, Repr

/-- `struct nc_truststore` (src/session_p.h:137-143). -/
structure Ts where
  certBags : List CertBag
  pubBags : List PubBag
  deriving DecidableEq, Repr

/-- `struct nc_asymmetric_key` (src/session_p.h:102-112). -/
structure AsymKey where
  name : Nat
  pubType : Nat
  pubData : Option Nat
  privType : Nat
  privData : Option Nat
  certs : List Cert
  deriving DecidableEq, Repr

/-- `struct nc_keystore` (src/session_p.h:148-154), asymmetric keys. -/
structure Ks where
  keys : List AsymKey
  deriving DecidableEq, Repr

/-! ## Arrays -/

/-- Remove the element at `i`, the last one takes its place (e.g. src/server_config_ts.c:222-235). -/
def swapDel {α : Type} (l : List α) (i : Nat) : List α :=
  match l.getLast? with
  | none => l
  | some x => if i < l.length then (l.set i x).dropLast else l

/-- Outcome of a search for the structure belonging to a node (src/server_config_ts.c:39-75): found at an index, not found, or a
violated assertion. -/
inductive Look (α : Type) where
  | found (a : α)
  | missing
  | bad
  deriving DecidableEq, Repr

/-- The key of the closest list entry (the node itself or a parent) with the given name (src/server_config_ts.c:49-63). -/
def keyOf (path : List Anc) (l : Label) : Look Nat :=
  match path.find? (fun a => a.label == l) with
  | none => .missing
  | some a =>
    match a.key with
    | none => .bad
    | some k => .found k

/-- `nc_server_config_get_certificate_bag` (src/server_config_ts.c:39-75). -/
def getCertBag (path : List Anc) (s : Ts) : Look Nat :=
  match keyOf path .certificateBag with
  | .missing => .missing
  | .bad => .bad
  | .found k =>
    match s.certBags.findIdx? (fun b => b.name == k) with
    | some i => .found i
    | none => .missing

/-- `nc_server_config_get_certificate` (src/server_config_ts.c:84-123): indices of the bag and of the certificate. -/
def getCert (path : List Anc) (s : Ts) : Look (Nat × Nat) :=
  match getCertBag path s with
  | .missing => .missing
  | .bad => .bad
  | .found i =>
    match keyOf path .certificate with
    | .missing => .missing
    | .bad => .bad
    | .found k =>
      match (s.certBags[i]?).bind (fun b => b.certs.findIdx? (fun c => c.name == k)) with
      | some j => .found (i, j)
      | none => .missing

/-- `nc_server_config_get_public_key_bag` (src/server_config_ts.c:132-168). -/
def getPubBag (path : List Anc) (s : Ts) : Look Nat :=
  match keyOf path .publicKeyBag with
  | .missing => .missing
  | .bad => .bad
  | .found k =>
    match s.pubBags.findIdx? (fun b => b.name == k) with
    | some i => .found i
    | none => .missing

/-- The key of the closest list entry `public-key`, leaves of that name have no children (src/server_config_ts.c:191-209). -/
def pubKeyKey (path : List Anc) : Look Nat :=
  match path.find? (fun a => a.label == .publicKey && a.key.isSome) with
  | none => .missing
  | some a =>
    match a.key with
    | none => .bad
    | some k => .found k

/-- `nc_server_config_get_public_key` (src/server_config_ts.c:177-220). -/
def getPubKey (path : List Anc) (s : Ts) : Look (Nat × Nat) :=
  match getPubBag path s with
  | .missing => .missing
  | .bad => .bad
  | .found i =>
    match pubKeyKey path with
    | .missing => .missing
    | .bad => .bad
    | .found k =>
      match (s.pubBags[i]?).bind (fun b => b.keys.findIdx? (fun c => c.name == k)) with
      | some j => .found (i, j)
      | none => .missing

/-- Is the operation creating or replacing (src/server_config_ts.c:362). -/
def setting (op : Op) : Bool := op == .create || op == .replace

/-- The key of the node itself, which is needed to create an entry (src/server_config_ts.c:345-354). -/
def ownKey (path : List Anc) : Look Nat :=
  match path.head? with
  | none => .bad
  | some a =>
    match a.key with
    | none => .bad
    | some k => .found k

/-- The name of the parent of the node (`equal_parent_name(node, 1, ...)`, src/server_config.c:519-536). -/
def parentIs (path : List Anc) (l : Label) : Bool :=
  match path with
  | _ :: p :: _ => p.label == l
  | _ => false

/-! ## Truststore -/

/-- `nc_server_config_ts_truststore` (src/server_config_ts.c:332-343). -/
def tsTruststore (op : Op) (s : Ts) : Res Ts := if op = .delete then .ok ⟨[], []⟩ else .ok s

/-- `nc_server_config_ts_certificate_bags` (src/server_config_ts.c:252-272, 296-312). -/
def tsCertBags (op : Op) (s : Ts) : Res Ts := if op = .delete then .ok { s with certBags := [] } else .ok s

/-- `nc_server_config_ts_public_key_bags` (src/server_config_ts.c:274-294, 314-330). -/
def tsPubBags (op : Op) (s : Ts) : Res Ts := if op = .delete then .ok { s with pubBags := [] } else .ok s

/-- `nc_server_config_ts_certificate_bag` (src/server_config_ts.c:345-376). -/
def tsCertBag (path : List Anc) (op : Op) (s : Ts) : Res Ts :=
  if setting op then
    match ownKey path with
    | .found k => .ok { s with certBags := s.certBags ++ [⟨k, []⟩] }
    | .missing => .fail s
    | .bad => .ub
  else
    match getCertBag path s with
    | .found i => .ok { s with certBags := swapDel s.certBags i }
    | .missing => .fail s
    | .bad => .ub

/-- `nc_server_config_ts_certificate` (src/server_config_ts.c:378-412). -/
def tsCert (path : List Anc) (op : Op) (s : Ts) : Res Ts :=
  match getCertBag path s with
  | .missing => .fail s
  | .bad => .ub
  | .found i =>
    if setting op then
      match ownKey path with
      | .found k => .ok { s with certBags := s.certBags.modify i (fun b => { b with certs := b.certs ++ [⟨k, none⟩] }) }
      | .missing => .fail s
      | .bad => .ub
    else
      match getCert path s with
      | .found (i, j) => .ok { s with certBags := s.certBags.modify i (fun b => { b with certs := swapDel b.certs j }) }
      | .missing => .fail s
      | .bad => .ub

/-- `nc_server_config_ts_cert_data` (src/server_config_ts.c:414-430): nothing happens on deletion. -/
def tsCertData (path : List Anc) (v : Nat) (op : Op) (s : Ts) : Res Ts :=
  if setting op then
    match getCert path s with
    | .found (i, j) =>
      .ok { s with certBags := s.certBags.modify i (fun b => { b with certs := b.certs.modify j (fun c => { c with data := some v }) }) }
    | .missing => .fail s
    | .bad => .ub
  else .ok s

/-- `nc_server_config_ts_public_key_bag` (src/server_config_ts.c:432-463). -/
def tsPubBag (path : List Anc) (op : Op) (s : Ts) : Res Ts :=
  if setting op then
    match ownKey path with
    | .found k => .ok { s with pubBags := s.pubBags ++ [⟨k, []⟩] }
    | .missing => .fail s
    | .bad => .ub
  else
    match getPubBag path s with
    | .found i => .ok { s with pubBags := swapDel s.pubBags i }
    | .missing => .fail s
    | .bad => .ub

/-- `nc_server_config_ts_public_key` (src/server_config_ts.c:465-516): the list entry or the leaf inside of it. -/
def tsPubKey (path : List Anc) (v : Nat) (op : Op) (s : Ts) : Res Ts :=
  match getPubBag path s with
  | .missing => .fail s
  | .bad => .ub
  | .found i =>
    if parentIs path .publicKeyBag then
      if setting op then
        match ownKey path with
        | .found k => .ok { s with pubBags := s.pubBags.modify i (fun b => { b with keys := b.keys ++ [⟨k, 0, none⟩] }) }
        | .missing => .fail s
        | .bad => .ub
      else
        match getPubKey path s with
        | .found (i, j) => .ok { s with pubBags := s.pubBags.modify i (fun b => { b with keys := swapDel b.keys j }) }
        | .missing => .fail s
        | .bad => .ub
    else
      match getPubKey path s with
      | .found (i, j) =>
        .ok { s with pubBags := s.pubBags.modify i (fun b => { b with keys := b.keys.modify j (fun c => { c with data := some v }) }) }
      | .missing => .fail s
      | .bad => .ub

/-- The type for the identity of a public key format: 0 and 1 for the supported ones (src/server_config_ts.c:530-537). -/
def pubType (v : Nat) (old : Nat) : Nat := if v = 0 then 0 else if v = 1 then 1 else old

/-- `nc_server_config_ts_public_key_format` (src/server_config_ts.c:518-540): an unsupported format is only logged. -/
def tsPubFormat (path : List Anc) (v : Nat) (s : Ts) : Res Ts :=
  match getPubKey path s with
  | .found (i, j) =>
    .ok { s with pubBags := s.pubBags.modify i (fun b => { b with keys := b.keys.modify j (fun c => { c with type := pubType v c.type }) }) }
  | .missing => .fail s
  | .bad => .ub

/-- `nc_server_config_parse_truststore` (src/server_config_ts.c:542-574). -/
def tsCb (path : List Anc) (v : Nat) (op : Op) (s : Ts) : Res Ts :=
  match path.head?.map Anc.label with
  | some .truststore => tsTruststore op s
  | some .certificateBags => tsCertBags op s
  | some .certificateBag => tsCertBag path op s
  | some .certificate => tsCert path op s
  | some .certData => tsCertData path v op s
  | some .publicKeyBags => tsPubBags op s
  | some .publicKeyBag => tsPubBag path op s
  | some .publicKey => tsPubKey path v op s
  | some .publicKeyFormat => tsPubFormat path v s
  | _ => .ok s

/-- `nc_server_config_fill_truststore` (src/server_config_ts.c:576-602): `none` if the container is not in the data or only
implicit. -/
def fillTs (t : Option Tree) (op : Op) (s : Ts) : Res Ts :=
  match t with
  | none => .ok s
  | some t => parse tsCb op [] s t

/-! ## Keystore -/

/-- `nc_server_config_get_asymmetric_key` (src/server_config_ks.c:39-75). -/
def getKey (path : List Anc) (s : Ks) : Look Nat :=
  match keyOf path .asymmetricKey with
  | .missing => .missing
  | .bad => .bad
  | .found k =>
    match s.keys.findIdx? (fun b => b.name == k) with
    | some i => .found i
    | none => .missing

/-- `nc_server_config_get_certificate` (src/server_config_ks.c:84-123). -/
def getKeyCert (path : List Anc) (s : Ks) : Look (Nat × Nat) :=
  match getKey path s with
  | .missing => .missing
  | .bad => .bad
  | .found i =>
    match keyOf path .certificate with
    | .missing => .missing
    | .bad => .bad
    | .found k =>
      match (s.keys[i]?).bind (fun b => b.certs.findIdx? (fun c => c.name == k)) with
      | some j => .found (i, j)
      | none => .missing

/-- `nc_server_config_ks_keystore`, `nc_server_config_ks_asymmetric_keys` (src/server_config_ks.c:140-192). -/
def ksAll (op : Op) (s : Ks) : Res Ks := if op = .delete then .ok ⟨[]⟩ else .ok s

/-- `nc_server_config_ks_asymmetric_key` (src/server_config_ks.c:194-226). -/
def ksKey (path : List Anc) (op : Op) (s : Ks) : Res Ks :=
  if setting op then
    match ownKey path with
    | .found k => .ok { s with keys := s.keys ++ [⟨k, 0, none, 0, none, []⟩] }
    | .missing => .fail s
    | .bad => .ub
  else
    match getKey path s with
    | .found i => .ok { s with keys := swapDel s.keys i }
    | .missing => .fail s
    | .bad => .ub

/-- Change of one key, found by the position of the node (src/server_config_ks.c:238-240). -/
def ksMod (path : List Anc) (f : AsymKey → AsymKey) (s : Ks) : Res Ks :=
  match getKey path s with
  | .found i => .ok { s with keys := s.keys.modify i f }
  | .missing => .fail s
  | .bad => .ub

/-- `nc_server_config_ks_public_key_format` (src/server_config_ks.c:228-252): the operation is ignored. -/
def ksPubFormat (path : List Anc) (v : Nat) (s : Ks) : Res Ks := ksMod path (fun k => { k with pubType := pubType v k.pubType }) s

/-- `nc_server_config_ks_public_key` (src/server_config_ks.c:254-273): the operation is ignored. -/
def ksPubKey (path : List Anc) (v : Nat) (s : Ks) : Res Ks := ksMod path (fun k => { k with pubData := some v }) s

/-- `nc_server_config_get_private_key_type` (src/server_config.c:460-475): numbers 0 to 3 stand for the supported formats. -/
def privSupported (v : Nat) : Bool := v < 4

/-- `nc_server_config_ks_private_key_format` (src/server_config_ks.c:275-302): the operation is ignored. -/
def ksPrivFormat (path : List Anc) (v : Nat) (s : Ks) : Res Ks :=
  match getKey path s with
  | .found i => if privSupported v then .ok { s with keys := s.keys.modify i (fun k => { k with privType := v }) } else .fail s
  | .missing => .fail s
  | .bad => .ub

/-- `nc_server_config_ks_cleartext_private_key` (src/server_config_ks.c:304-326). -/
def ksPrivKey (path : List Anc) (v : Nat) (op : Op) (s : Ks) : Res Ks :=
  ksMod path (fun k => { k with privData := if setting op then some v else if op = .delete then none else k.privData }) s

/-- `nc_server_config_ks_certificate` (src/server_config_ks.c:328-364). -/
def ksCert (path : List Anc) (op : Op) (s : Ks) : Res Ks :=
  match getKey path s with
  | .missing => .fail s
  | .bad => .ub
  | .found i =>
    if setting op then
      match ownKey path with
      | .found k => .ok { s with keys := s.keys.modify i (fun b => { b with certs := b.certs ++ [⟨k, none⟩] }) }
      | .missing => .fail s
      | .bad => .ub
    else
      match getKeyCert path s with
      | .found (i, j) => .ok { s with keys := s.keys.modify i (fun b => { b with certs := swapDel b.certs j }) }
      | .missing => .fail s
      | .bad => .ub

/-- `nc_server_config_ks_cert_data` (src/server_config_ks.c:366-385): nothing happens on deletion. -/
def ksCertData (path : List Anc) (v : Nat) (op : Op) (s : Ks) : Res Ks :=
  if setting op then
    match getKeyCert path s with
    | .found (i, j) =>
      .ok { s with keys := s.keys.modify i (fun b => { b with certs := b.certs.modify j (fun c => { c with data := some v }) }) }
    | .missing => .fail s
    | .bad => .ub
  else .ok s

/-- `nc_server_config_parse_keystore` (src/server_config_ks.c:387-419). -/
def ksCb (path : List Anc) (v : Nat) (op : Op) (s : Ks) : Res Ks :=
  match path.head?.map Anc.label with
  | some .keystore => ksAll op s
  | some .asymmetricKeys => ksAll op s
  | some .asymmetricKey => ksKey path op s
  | some .publicKeyFormat => ksPubFormat path v s
  | some .publicKey => ksPubKey path v s
  | some .privateKeyFormat => ksPrivFormat path v s
  | some .cleartextPrivateKey => ksPrivKey path v op s
  | some .certificate => ksCert path op s
  | some .certData => ksCertData path v op s
  | _ => .ok s

/-- `nc_server_config_fill_keystore` (src/server_config_ks.c:421-447). -/
def fillKs (t : Option Tree) (op : Op) (s : Ks) : Res Ks :=
  match t with
  | none => .ok s
  | some t => parse ksCb op [] s t

/-- What `nc_server_config_setup_data` does with the truststore (src/server_config.c:4458, 4468). -/
def setupTs (t : Option Tree) (s : Ts) : Res Ts :=
  match tsTruststore .delete s with
  | .ok s1 => fillTs t .create s1
  | r => r

/-- What `nc_server_config_setup_data` does with the keystore (src/server_config.c:4457, 4461). -/
def setupKs (t : Option Tree) (s : Ks) : Res Ks :=
  match ksAll .delete s with
  | .ok s1 => fillKs t .create s1
  | r => r

/-- Several calls of `nc_server_config_setup_diff` (src/server_config.c:4369-4421), which calls the function
for the truststore with the whole diff (src/server_config.c:4387). -/
def diffsTs : List Tree → Ts → Res Ts
  | [], s => .ok s
  | t :: ts, s =>
    match fillTs (some t) .unknown s with
    | .ok s1 => diffsTs ts s1
    | r => r

/-- The same for the keystore (src/server_config.c:4380). -/
def diffsKs : List Tree → Ks → Res Ks
  | [], s => .ok s
  | t :: ts, s =>
    match fillKs (some t) .unknown s with
    | .ok s1 => diffsKs ts s1
    | r => r

end Verif.ConfStore
