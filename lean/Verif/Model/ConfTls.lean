import Verif.Model.ConfUsers
import Verif.Model.Ctn

/-!
# Certificates and versions of a TLS endpoint (src/server_config.c)

The callbacks for the nodes below `tls-server-parameters` of one endpoint (listening or Call Home), without cipher suites (C57), the
reference to another endpoint (References) and the locks of Call Home clients. Trees are those of `ConfStore`. The structure has unions:
the format of the public key shares its memory with the name of a key in the keystore, the public key itself with the name of a
certificate there, and the arrays of certificates with the names of bags in the truststore; this is modelled. Running out of memory and
more than 65535 entries are not modelled.
-/

namespace Verif.ConfTls
open Verif.ConfTree (Op Meta)
open Verif.ConfStore (Label Tree Anc Res Look Cert swapDel keyOf ownKey setting privSupported parse)
open Verif.ConfUsers (Store parentN pubSupported keyOr)

/-! ## Identity of the server -/

/-- The memory shared by `pubkey_type` (four bytes) and `key_ref` (eight bytes, src/session_p.h:258-275): a number, where 0 is also the
pointer NULL, a pointer to a name, or a pointer with four bytes overwritten. -/
inductive Slot where
  | num (v : Nat)
  | str (v : Nat)
  | mixed
  deriving DecidableEq, Repr

/-- The first part of `struct nc_server_tls_opts` (src/session_p.h:256-275); `slot1` is `pubkey_data` and `cert_ref`, which are both
texts that can be freed. -/
structure Ident where
  store : Store
  slot0 : Slot
  slot1 : Option Nat
  privType : Nat
  privData : Option Nat
  certData : Option Nat
  deriving DecidableEq, Repr

/-- A new structure: everything zero (`calloc`, src/server_config.c:1279-1296). -/
def newIdent : Ident := ⟨.local, .num 0, none, 0, none, none⟩

/-- Writing `pubkey_type` (src/server_config.c:1785). -/
def Slot.write (v : Nat) : Slot → Slot
  | .num _ => .num v
  | _ => .mixed

/-- May `free(opts->key_ref)` be called (src/server_config.c:2956, 2960). -/
def Slot.freeable : Slot → Bool
  | .num v => v == 0
  | .str _ => true
  | .mixed => false

/-- `nc_server_config_public_key` for TLS (src/server_config.c:1926-1950, 1832-1838): nothing happens on deletion. -/
def idPublicKey (spki : Nat → Bool) (v : Nat) (op : Op) (i : Ident) : Res Ident :=
  if !spki v then .fail i
  else if setting op then .ok { i with store := .local, slot1 := some v }
  else .ok i

/-- `nc_server_config_public_key_format` for TLS (src/server_config.c:1745-1755, 1780-1788). -/
def idPubFormat (v : Nat) (op : Op) (i : Ident) : Res Ident :=
  if !pubSupported v then .fail i
  else if setting op then .ok { i with slot0 := i.slot0.write v }
  else .ok i

/-- `nc_server_config_private_key_format` for TLS (src/server_config.c:1961-2018): the operation is ignored. -/
def idPrivFormat (v : Nat) (i : Ident) : Res Ident :=
  if privSupported v then .ok { i with privType := v } else .fail i

/-- `nc_server_config_cleartext_private_key` for TLS (src/server_config.c:2020-2074). -/
def idPrivKey (v : Nat) (op : Op) (i : Ident) : Res Ident :=
  if setting op then .ok { i with privData := some v } else .ok { i with privData := none }

/-- `nc_server_config_cert_data` for the identity (src/server_config.c:2897-2907): nothing happens on deletion. -/
def idCertData (v : Nat) (op : Op) (i : Ident) : Res Ident :=
  if setting op then .ok { i with certData := some v } else .ok i

/-- `nc_server_config_asymmetric_key` (src/server_config.c:2933-2971). -/
def idKeyRef (v : Nat) (op : Op) (i : Ident) : Res Ident :=
  if !i.slot0.freeable then .ub
  else if setting op then .ok { i with store := .keystore, slot0 := .str v }
  else .ok { i with slot0 := .num 0 }

/-- `nc_server_config_certificate` for the identity (src/server_config.c:3126-3138). -/
def idCertRef (v : Nat) (op : Op) (i : Ident) : Res Ident :=
  if setting op then .ok { i with store := .keystore, slot1 := some v } else .ok { i with slot1 := none }

/-- The callbacks of `nc_server_config_parse_netconf_server` that change the identity (src/server_config.c:3846-3957). There are none
for `inline-definition` and for `central-keystore-reference` of TLS (src/server_config.c:2077-2117). -/
def idCb (spki : Nat → Bool) (path : List Anc) (v : Nat) (op : Op) (i : Ident) : Res Ident :=
  match path.head?.map Anc.label with
  | some .publicKey => if parentN path 3 .serverIdentity then idPublicKey spki v op i else .ok i
  | some .publicKeyFormat => if parentN path 3 .serverIdentity then idPubFormat v op i else .ok i
  | some .privateKeyFormat => idPrivFormat v i
  | some .cleartextPrivateKey => idPrivKey v op i
  | some .certData => if parentN path 3 .serverIdentity then idCertData v op i else .ok i
  | some .asymmetricKey => idKeyRef v op i
  | some .certificate => if parentN path 1 .centralKeystoreReference then idCertRef v op i else .ok i
  | _ => .ok i

/-! ## Trusted certificates -/

/-- Where the pointer shared by `certs` and `ts_ref` points to (src/session_p.h:223-232): nowhere, to an array, to a name, or to an array with
entries that were never initialised. -/
inductive Ptr where
  | null
  | certs (l : List Cert)
  | str (v : Nat)
  | junk
  deriving DecidableEq, Repr

/-- `struct nc_cert_grouping` (src/session_p.h:223-232). -/
structure Grp where
  store : Store
  ptr : Ptr
  count : Nat
  deriving DecidableEq, Repr

/-- A new one: everything zero (src/server_config.c:1279-1296). -/
def newGrp : Grp := ⟨.local, .null, 0⟩

/-- The entries read through `certs` and `cert_count` (e.g. src/server_config.c:408-413), `none` if this is not an array with so many entries. -/
def Grp.certs? (g : Grp) : Option (List Cert) :=
  if g.count = 0 then some []
  else
    match g.ptr with
    | .certs l => if g.count ≤ l.length then some (l.take g.count) else none
    | _ => none

/-- A new certificate (src/server_config.c:3082-3104, 538-562): the memory the pointer points to is resized. -/
def addCert (k : Nat) (g : Grp) : Grp :=
  match g.certs? with
  | some l => { g with ptr := .certs (l ++ [⟨k, none⟩]), count := g.count + 1 }
  | none => { g with ptr := .junk, count := g.count + 1 }

/-- `nc_server_config_get_cert` (src/server_config.c:366-417) in the array found. -/
def getCert (path : List Anc) (g : Grp) : Look Nat :=
  match keyOr path .certificate with
  | none => .missing
  | some k =>
    match g.certs? with
    | none => .bad
    | some l =>
      match l.findIdx? (fun c => c.name == k) with
      | some i => .found i
      | none => .missing

/-- `nc_server_config_del_cert` (src/server_config.c:741-754). -/
def delCert (i : Nat) (g : Grp) : Grp :=
  match g.certs? with
  | some l => if g.count = 1 then { g with ptr := .null, count := 0 } else { g with ptr := .certs (swapDel l i), count := g.count - 1 }
  | none => g

/-- Change of the data through the pointer found (src/server_config.c:2914-2921). -/
def setData (i : Nat) (d : Option Nat) (g : Grp) : Grp :=
  match g.certs? with
  | some l => { g with ptr := .certs (l.modify i (fun c => { c with data := d })) }
  | none => g

/-- `nc_server_config_del_certs` (src/server_config.c:756-776): the number of certificates is reset only if they are stored here. -/
def delCerts (g : Grp) : Res Grp :=
  match g.store with
  | .local =>
    match g.certs? with
    | some _ => .ok ⟨.local, .null, 0⟩
    | none => .ub
  | .truststore => .ok ⟨.local, .null, g.count⟩
  | _ => .ok { g with store := .local }

/-- `nc_server_config_certificate` for trusted certificates (src/server_config.c:3139-3168). -/
def grpCertificate (path : List Anc) (op : Op) (g : Grp) : Res Grp :=
  if setting op then
    match ownKey path with
    | .found k => .ok (addCert k g)
    | .missing => .fail g
    | .bad => .ub
  else
    match getCert path g with
    | .found i => .ok (delCert i g)
    | .missing => .fail g
    | .bad => .ub

/-- `nc_server_config_cert_data` for trusted certificates (src/server_config.c:2908-2922). -/
def grpCertData (path : List Anc) (v : Nat) (op : Op) (g : Grp) : Res Grp :=
  match getCert path g with
  | .found i => .ok (setData i (if setting op then some v else none) g)
  | .missing => .fail g
  | .bad => .ub

/-- `nc_server_config_truststore_reference` for trusted certificates (src/server_config.c:2241-2262): the pointer is freed as it is. -/
def grpTsRef (v : Nat) (op : Op) (g : Grp) : Res Grp :=
  if setting op then .ok { g with store := .truststore, ptr := .str v }
  else if op = .delete then .ok { g with ptr := .null }
  else .ok g

/-- The callbacks that change the certificates of one container, `ca-certs` or `ee-certs`, called `l`
(src/server_config.c:3846-3957, 3010-3080). -/
def grpCb (l : Label) (path : List Anc) (v : Nat) (op : Op) (g : Grp) : Res Grp :=
  match path.head?.map Anc.label with
  | some .certificate => if parentN path 2 l then grpCertificate path op g else .ok g
  | some .certData => if parentN path 3 l then grpCertData path v op g else .ok g
  | some .centralTruststoreReference => if parentN path 1 l then grpTsRef v op g else .ok g
  | some .caCerts => if l = .caCerts ∧ op = .delete then delCerts g else .ok g
  | some .eeCerts => if l = .eeCerts ∧ op = .delete then delCerts g else .ok g
  | _ => .ok g

/-! ## The endpoint -/

/-- `struct nc_server_tls_opts` (src/session_p.h:256-285), the parts described above and the mask of TLS versions. -/
structure Tls where
  id : Ident
  ca : Grp
  ee : Grp
  versions : BitVec 32
  deriving DecidableEq, Repr

/-- A new one (src/server_config.c:1279-1296). -/
def newTls : Tls := ⟨newIdent, newGrp, newGrp, 0⟩

/-- `nc_server_config_tls_version` (src/server_config.c:3347-3399): versions are numbered 0 (1.0) to 3 (1.3), bits as in src/session.h:64-69. -/
def tlsVersion (v : Nat) (op : Op) (m : BitVec 32) : Res (BitVec 32) :=
  if 4 ≤ v then .fail m
  else if op = .create then .ok (m ||| (1#32 <<< v))
  else if op = .delete ∧ m &&& (1#32 <<< v) ≠ 0 then .ok (m &&& ~~~(1#32 <<< v))
  else .ok m

/-- Change of a part of the structure (src/server_config.c:341-363). -/
def lift {τ : Type} (r : Res τ) (put : τ → Tls) : Res Tls :=
  match r with
  | .ok x => .ok (put x)
  | .fail x => .fail (put x)
  | .ub => .ub

/-- Which of the two arrays the node is for: `ca-certs` (`false`) or `ee-certs` (`true`)
(src/server_config.c:392-406, 2245-2249, 2908, 3139-3153). -/
def isEe (path : List Anc) : Option Bool :=
  if path.any (fun a => a.label == .eeCerts) then some true
  else if path.any (fun a => a.label == .caCerts) then some false
  else none

/-- `nc_server_config_client_authentication` on deletion (src/server_config.c:2973-3008). -/
def delAuth (s : Tls) : Res Tls :=
  match delCerts s.ca with
  | .ok g =>
    match delCerts s.ee with
    | .ok g' => .ok { s with ca := g, ee := g' }
    | .fail _ => .fail s
    | .ub => .ub
  | .fail _ => .fail s
  | .ub => .ub

/-- `nc_server_config_parse_netconf_server` for the endpoint (src/server_config.c:3846-3957). -/
def tlsCb (spki : Nat → Bool) (path : List Anc) (v : Nat) (op : Op) (s : Tls) : Res Tls :=
  match path.head?.map Anc.label with
  | some .clientAuthentication => if op = .delete then delAuth s else .ok s
  | some .tlsVersion => lift (tlsVersion v op s.versions) (fun m => { s with versions := m })
  | _ =>
    match isEe path with
    | some true => lift (grpCb .eeCerts path v op s.ee) (fun g => { s with ee := g })
    | some false => lift (grpCb .caCerts path v op s.ca) (fun g => { s with ca := g })
    | none => lift (idCb spki path v op s.id) (fun i => { s with id := i })

/-- Several diffs of the endpoint, one after another (`nc_server_config_setup_diff`, src/server_config.c:4369-4421). -/
def diffs (spki : Nat → Bool) : List Tree → Tls → Res Tls
  | [], s => .ok s
  | t :: ts, s =>
    match parse (tlsCb spki) .unknown [] s t with
    | .ok s1 => diffs spki ts s1
    | r => r

/-- Whole data of the endpoint, then diffs (`nc_server_config_setup_data`, src/server_config.c:4423-4502, which deletes all endpoints first). -/
def run (spki : Nat → Bool) (t : Tree) (ts : List Tree) : Res Tls :=
  match parse (tlsCb spki) .create [] newTls t with
  | .ok s => diffs spki ts s
  | r => r

/-! ## Use -/

/-- The key and certificate the server presents: given here (type and data of the private key, certificate) or names of a key and a
certificate in the keystore (src/session_server_tls.c:666-708). -/
inductive Shown where
  | own (privType : Nat) (priv cert : Option Nat)
  | ref (key cert : Nat)
  deriving DecidableEq, Repr

/-- The same for an endpoint; `none` means that a pointer is followed that is no name, as in `strcmp(NULL, …)`
(src/session_server_tls.c:677-690, 48-63). -/
def Ident.shown (i : Ident) : Option Shown :=
  match i.store with
  | .local => some (.own i.privType i.privData i.certData)
  | _ =>
    match i.slot0, i.slot1 with
    | .str k, some c => some (.ref k c)
    | _, _ => none

/-- The certificates clients are checked against: these, or those of a bag in the truststore (src/session_server_tls.c:711-740, 519-545). -/
inductive Trust where
  | certs (l : List Cert)
  | bag (n : Nat)
  deriving DecidableEq, Repr

/-- The same for one of the arrays; `none` means that memory is used that is no array of certificates or no name
(src/session_server_tls.c:719-730, 85-90). -/
def Grp.trust (g : Grp) : Option Trust :=
  match g.store with
  | .local => (g.certs?).map Trust.certs
  | _ =>
    match g.ptr with
    | .str n => some (.bag n)
    | _ => none

/-- Is the version in the mask (src/session.h:64-69). -/
def has (m : BitVec 32) (v : Nat) : Bool := m.getLsbD v

/-- The lowest and the highest version given to OpenSSL (`nc_server_tls_set_tls_versions_wrap`, src/session_openssl.c:246-282); `none` if it
is not called for the limit. -/
def opensslRange (m : BitVec 32) : Option Nat × Option Nat :=
  (if has m 0 then some 0 else if has m 1 then some 1 else if has m 2 then some 2 else if has m 3 then some 3 else none,
   if has m 3 then some 3 else if has m 2 then some 2 else if has m 1 then some 1 else if has m 0 then some 0 else none)

/-- The lowest and the highest version given to Mbed TLS (`nc_server_tls_set_tls_versions_wrap`, src/session_mbedtls.c:418-441). -/
def mbedRange (m : BitVec 32) : Option Nat × Option Nat :=
  (if has m 2 then some 2 else if has m 3 then some 3 else none, if has m 3 then some 3 else if has m 2 then some 2 else none)

/-- Is the version within the limits that were set (src/session_openssl.c:246-282). -/
def within (r : Option Nat × Option Nat) (v : Nat) : Bool := r.1.all (fun a => decide (a ≤ v)) && r.2.all (fun b => decide (v ≤ b))

/-- The versions the server accepts: without configured versions the limits are those of the library
(src/session_server_tls.c:866-871), `lib` tells which versions it supports by default. -/
def accepts (range : BitVec 32 → Option Nat × Option Nat) (lib : Nat → Bool) (m : BitVec 32) (v : Nat) : Bool :=
  if m = 0 then lib v else lib v && within (range m) v

/-! ## cert-to-name -/

/-- One entry of a diff of cert-to-name entries: created, deleted, or with changed leaves (src/server_config.c:3267-3345). -/
inductive CtnNode where
  | create (id mapType : Nat) (name fingerprint : Option Nat)
  | delete (id : Nat)
  | change (id : Nat) (mapType : Option Nat) (name : ConfTree.Op × Nat) (fingerprint : ConfTree.Op × Nat)
  deriving DecidableEq, Repr

/-- `nc_server_config_cert_to_name` and `nc_server_config_fingerprint` for one entry (src/server_config.c:3178-3345); there are no callbacks for
`map-type` and `name` (src/server_config.c:3846-3957). The operation `none` stands for a leaf that is not in the diff. Map types are
numbers, 0 is `specified`, which needs a name (src/server_config.c:3202-3211), and there are six of them. -/
def ctnNode (l : List Ctn.Ctn) : CtnNode → Option (List Ctn.Ctn)
  | .create id mt name fp =>
    if 6 ≤ mt then none
    else if mt = 0 ∧ name = none then none
    else
      match fp with
      | none => some (Ctn.create l id (if mt = 0 then name else none) mt)
      | some f => Ctn.setFp (Ctn.create l id (if mt = 0 then name else none) mt) id (some f)
  | .delete id => Ctn.delete l id
  | .change id _ _ fp =>
    match fp.1 with
    | .none => some l
    | .delete => Ctn.setFp l id none
    | _ => Ctn.setFp l id (some fp.2)

/-- The entries of a diff (src/server_config.c:4206-4211). -/
def ctnNodes : List CtnNode → List Ctn.Ctn → Option (List Ctn.Ctn)
  | [], l => some l
  | e :: es, l =>
    match ctnNode l e with
    | some l' => ctnNodes es l'
    | none => none

end Verif.ConfTls
