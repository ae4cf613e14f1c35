/-!
# Giving the host keys to libssh (src/session_server_ssh.c:49-157, 1806-1860)

For each SSH session that is accepted, the server writes its private keys one after the other to a temporary file, lets libssh read it and removes it. Simplifications: a
private key is a number; libssh reads only files that are complete; other files in the directory of temporary files have other names.
-/

namespace Verif.HostKeys

/-- A temporary file (src/session_server_ssh.c:61-76): its permissions and the private key in it, if one was written. -/
structure File where
  mode : BitVec 9
  key : Option Nat
  deriving DecidableEq, Repr

/-- A key in the keystore (src/session_p.h:103-113): its private key and whether its public key is in the SubjectPublicKeyInfo format. -/
structure StoreKey where
  name : Nat
  priv : Option Nat
  spki : Bool
  deriving DecidableEq, Repr

/-- A host key (src/session_p.h:190-198): stored locally or a name in the keystore. -/
inductive HostKey where
  | stored (priv : Option Nat)
  | ref (name : Nat)
  deriving DecidableEq, Repr

/-- What calls do for one host key (src/session_server_ssh.c:70-117, 1842-1847): creating the file, the stream, counting all bytes as written, having them in the file,
memory for the path, removing the file. -/
structure Env where
  create : Bool
  stream : Bool
  written : Bool
  flushed : Bool
  dup : Bool
  unlink : Bool
  deriving DecidableEq, Repr

/-- Files, the mask of the process and the keys libssh has for each type (src/session_server_ssh.c:69-71, 1842). -/
structure St where
  files : List File
  umask : BitVec 9
  slots : Nat → Option Nat

/-- `nc_server_ssh_ks_ref_get_key` (src/session_server_ssh.c:127-157): the first key with the name. -/
def storeKey (ks : List StoreKey) (n : Nat) : Option StoreKey :=
  match ks.find? (fun k => k.name == n) with
  | none => none
  | some k => if k.spki = true then none else some k

/-- The key of a host key (src/session_server_ssh.c:1826-1834): `none` is an error. -/
def privOf (ks : List StoreKey) : HostKey → Option (Option Nat)
  | .stored p => some p
  | .ref n => (storeKey ks n).map (·.priv)

/-- `nc_server_ssh_privkey_data_to_tmp_file` (src/session_server_ssh.c:58-118): the file and the state; the new file is the first one. -/
def tmpFile (e : Env) (priv : Option Nat) (s : St) : Option File × St :=
  match priv with
  | none => (none, s)
  | some k =>
    let s1 := { s with umask := 0o177#9 }
    let f : File := ⟨0o600#9 &&& ~~~s1.umask, none⟩
    let s2 := { s1 with umask := s.umask }
    if e.create = false then (none, s2)
    else if e.stream = false then (none, { s2 with files := f :: s2.files })
    else
      let f := { f with key := if (e.written && e.flushed) = true then some k else none }
      if e.written = false then (none, if e.unlink = true then s2 else { s2 with files := f :: s2.files })
      else if e.dup = false then (none, { s2 with files := f :: s2.files })
      else (some f, { s2 with files := f :: s2.files })

/-- `ssh_bind_options_set` with SSH_BIND_OPTIONS_HOSTKEY (src/session_server_ssh.c:1842): the key replaces one of the same type. -/
def setKey (typeOf : Nat → Option Nat) (f : File) (slots : Nat → Option Nat) : Option (Nat → Option Nat) :=
  match f.key with
  | none => none
  | some k =>
    match typeOf k with
    | none => none
    | some t => some (fun t' => if t' = t then some k else slots t')

/-- One host key (src/session_server_ssh.c:1822-1857): `false` is an error. -/
def addOne (typeOf : Nat → Option Nat) (ks : List StoreKey) (e : Env) (h : HostKey) (s : St) : Bool × St :=
  match privOf ks h with
  | none => (false, s)
  | some p =>
    match tmpFile e p s with
    | (none, s1) => (false, s1)
    | (some f, s1) =>
      let s2 := if e.unlink = true then { s1 with files := s1.files.tail } else s1
      match setKey typeOf f s.slots with
      | none => (false, s2)
      | some sl => (true, { s2 with slots := sl })

/-- `nc_ssh_bind_add_hostkeys` (src/session_server_ssh.c:1814-1860). -/
def addKeys (typeOf : Nat → Option Nat) (ks : List StoreKey) (e : Nat → Env) : Nat → List HostKey → St → Bool × St
  | _, [], s => (true, s)
  | i, h :: hs, s =>
    match addOne typeOf ks (e i) h s with
    | (false, s1) => (false, s1)
    | (true, s1) => addKeys typeOf ks e (i + 1) hs s1

end Verif.HostKeys
