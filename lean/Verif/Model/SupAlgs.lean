import Verif.Model.AlgList

/-
Listing the SSH algorithms that are supported (src/server_config.c:4529-4666)
and preparing a context for the server (src/session_server.c:176-255).  What
libyang does is given: a call succeeds or not, and if it succeeds it does what
it is documented to.
-/
namespace Verif.SupAlgs

/-- C strings, src/server_config.c:4529-4530. -/
abbrev Text := List Char

/-- Adding the leaf-list nodes of one loop, src/server_config.c:4551-4560 and
src/server_config.c:4563-4572: `mem` and `yang` tell for the n-th node whether
`asprintf` and `lyd_new_term` succeed.  `none`: failed. -/
def addAlgs (mem yang : Nat → Bool) (pre : Text) : List Text → Nat → Option (List Text)
  | [], _ => some []
  | a :: as, n =>
    if mem n = false then none
    else if yang n = false then none
    else
      match addAlgs mem yang pre as (n + 1) with
      | none => none
      | some r => some ((pre ++ ':' :: a) :: r)

/-- `nc_server_config_oper_get_algs`, src/server_config.c:4529-4583: the values
of the nodes `supported-algorithm` in the container made; `none`: failed and
nothing is given. -/
def operGetAlgs (memPath yangPath : Bool) (mem₁ yang₁ mem₂ yang₂ : Nat → Bool) (mod : Text)
    (ln2 own : List Text) : Option (List Text) :=
  if memPath = false then none
  else if yangPath = false then none
  else
    match addAlgs mem₁ yang₁ "libnetconf2-netconf-server".toList ln2 0 with
    | none => none
    | some l =>
      match addAlgs mem₂ yang₂ mod own 0 with
      | none => none
      | some r => some (l ++ r)

/-- Host key algorithms of the module of the library, src/server_config.c:4589-4594. -/
def hostkeyLn2 : List Text :=
  ["openssh-ssh-ed25519-cert-v01".toList, "openssh-ecdsa-sha2-nistp521-cert-v01".toList,
   "openssh-ecdsa-sha2-nistp384-cert-v01".toList, "openssh-ecdsa-sha2-nistp256-cert-v01".toList,
   "openssh-rsa-sha2-512-cert-v01".toList, "openssh-rsa-sha2-256-cert-v01".toList,
   "openssh-ssh-rsa-cert-v01".toList, "openssh-ssh-dss-cert-v01".toList]

/-- Host key algorithms of IANA, src/server_config.c:4597-4600. -/
def hostkeyIana : List Text :=
  ["ssh-ed25519".toList, "ecdsa-sha2-nistp521".toList, "ecdsa-sha2-nistp384".toList, "ecdsa-sha2-nistp256".toList,
   "rsa-sha2-512".toList, "rsa-sha2-256".toList, "ssh-rsa".toList, "ssh-dss".toList]

/-- Key exchange algorithms of the module of the library, src/server_config.c:4612-4614. -/
def kexLn2 : List Text := ["libssh-curve25519-sha256".toList]

/-- Key exchange algorithms of IANA, src/server_config.c:4617-4621. -/
def kexIana : List Text :=
  ["diffie-hellman-group-exchange-sha1".toList, "curve25519-sha256".toList, "ecdh-sha2-nistp256".toList,
   "ecdh-sha2-nistp384".toList, "ecdh-sha2-nistp521".toList, "diffie-hellman-group18-sha512".toList,
   "diffie-hellman-group16-sha512".toList, "diffie-hellman-group-exchange-sha256".toList,
   "diffie-hellman-group14-sha256".toList]

/-- Encryption algorithms of the module of the library, src/server_config.c:4633-4635. -/
def encLn2 : List Text := ["openssh-chacha20-poly1305".toList, "openssh-aes256-gcm".toList, "openssh-aes128-gcm".toList]

/-- Encryption algorithms of IANA, src/server_config.c:4638-4641. -/
def encIana : List Text :=
  ["aes256-ctr".toList, "aes192-ctr".toList, "aes128-ctr".toList, "aes256-cbc".toList, "aes192-cbc".toList,
   "aes128-cbc".toList, "blowfish-cbc".toList, "triple-des-cbc".toList, "none".toList]

/-- MAC algorithms of the module of the library, src/server_config.c:4653-4655. -/
def macLn2 : List Text :=
  ["openssh-hmac-sha2-256-etm".toList, "openssh-hmac-sha2-512-etm".toList, "openssh-hmac-sha1-etm".toList]

/-- MAC algorithms of IANA, src/server_config.c:4658-4660. -/
def macIana : List Text := ["hmac-sha2-256".toList, "hmac-sha2-512".toList, "hmac-sha1".toList]

/-- The four kinds, src/server_config.c:4585-4666. -/
inductive Kind where
  | hostkey
  | kex
  | encryption
  | mac
deriving DecidableEq, Repr

/-- Module of the identities of IANA, src/server_config.c:4604, src/server_config.c:4625,
src/server_config.c:4645, src/server_config.c:4664. -/
def Kind.modName : Kind → Text
  | .hostkey => "iana-ssh-public-key-algs".toList
  | .kex => "iana-ssh-key-exchange-algs".toList
  | .encryption => "iana-ssh-encryption-algs".toList
  | .mac => "iana-ssh-mac-algs".toList

/-- First list given by `nc_server_config_oper_get_hostkey_algs` and the others,
src/server_config.c:4585-4666. -/
def Kind.ln2 : Kind → List Text
  | .hostkey => hostkeyLn2
  | .kex => kexLn2
  | .encryption => encLn2
  | .mac => macLn2

/-- Second list given, src/server_config.c:4585-4666. -/
def Kind.iana : Kind → List Text
  | .hostkey => hostkeyIana
  | .kex => kexIana
  | .encryption => encIana
  | .mac => macIana

/-- `nc_server_config_oper_get_hostkey_algs`, `nc_server_config_oper_get_kex_algs`,
`nc_server_config_oper_get_encryption_algs`, `nc_server_config_oper_get_mac_algs`,
src/server_config.c:4585-4666. -/
def operAlgs (k : Kind) (memPath yangPath : Bool) (mem₁ yang₁ mem₂ yang₂ : Nat → Bool) : Option (List Text) :=
  operGetAlgs memPath yangPath mem₁ yang₁ mem₂ yang₂ k.modName k.ln2 k.iana

/-- Implemented modules of a context with their enabled features,
src/session_server.c:215-247. -/
abbrev Ctx := List (Text × List Text)

/-- `ietf_netconf_features`, src/session_server.c:182. -/
def netconfFeatures : List Text :=
  ["writable-running".toList, "candidate".toList, "rollback-on-error".toList, "validate".toList, "startup".toList,
   "url".toList, "xpath".toList, "confirmed-commit".toList]

/-- `ly_ctx_get_module_implemented`, src/session_server.c:215, with the enabled
features. -/
def implemented (m : Text) : Ctx → Option (List Text)
  | [] => none
  | (n, f) :: r => if n = m then some f else implemented m r

/-- `ly_ctx_load_module` that succeeds, src/session_server.c:232: the module is
implemented with exactly the features given. -/
def setModule (m : Text) (fs : List Text) : Ctx → Ctx
  | [] => [(m, fs)]
  | (n, f) :: r => if n = m then (n, fs) :: r else (n, f) :: setModule m fs r

/-- The name `ietf-netconf`, src/session_server.c:215. -/
def ietfNetconf : Text := "ietf-netconf".toList

/-- The name `ietf-netconf-monitoring`, src/session_server.c:239. -/
def ietfMonitoring : Text := "ietf-netconf-monitoring".toList

/-- Enabling features of or adding `ietf-netconf`, src/session_server.c:215-237;
`ok`: loading succeeds.  Gives the context, also after a failure. -/
def ensureNetconf (ok : Bool) (c : Ctx) : Bool × Ctx :=
  match implemented ietfNetconf c with
  | some fs =>
    if netconfFeatures.all (fun f => f ∈ fs) then (true, c)
    else if ok then (true, setModule ietfNetconf netconfFeatures c) else (false, c)
  | none => if ok then (true, setModule ietfNetconf netconfFeatures c) else (false, c)

/-- Adding `ietf-netconf-monitoring`, src/session_server.c:239-247. -/
def ensureMonitoring (ok : Bool) (c : Ctx) : Bool × Ctx :=
  match implemented ietfMonitoring c with
  | some _ => (true, c)
  | none => if ok then (true, setModule ietfMonitoring [] c) else (false, c)

/-- `nc_server_init_ctx`, src/session_server.c:176-255, with `*ctx` before and
after.  `fresh`: what `ly_ctx_new` gives (the internal modules) or `none` if it
fails; `ok₁` and `ok₂`: loading the first and the second module succeeds.  A
context made here is destroyed after a failure. -/
def initCtx (fresh : Option Ctx) (ok₁ ok₂ : Bool) (ctx : Option Ctx) : Bool × Option Ctx :=
  match ctx with
  | none =>
    match fresh with
    | none => (false, none)
    | some c =>
      if ok₁ then
        if ok₂ then (true, some (setModule ietfMonitoring [] (setModule ietfNetconf netconfFeatures c)))
        else (false, none)
      else (false, none)
  | some c =>
    match ensureNetconf ok₁ c with
    | (false, c) => (false, some c)
    | (true, c) => let (r, c) := ensureMonitoring ok₂ c; (r, some c)

end Verif.SupAlgs
