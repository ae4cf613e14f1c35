import Verif.Spec.ConfTls
import Verif.Spec.Login
import Verif.Model.ServerId

/-!
# The identity of the server, by the configuration alone

Only configurations (`TlsConf`, `SshConf`, keystores) are mentioned, not what the server keeps in memory.
-/

namespace Verif.ServerId
open Verif.ConfStore (Map Ks KeyConf KeyData KsDiff ksDataConf ksDataTree patchKsAll ksTree setupKs diffsKs)
open Verif.ConfTls (IdConf TlsConf TlsData TlsDiff Tls patchTlsAll patchSafeAll tlsTree)
open Verif.ConfUsers (HostConf SshConf SshData SshDiff Ssh)

/-- The configured format and data of the private key and the data of the certificate of a TLS endpoint: given there, or those of the key and the certificate
of the keystore that are named there. -/
inductive TlsIdIs (kc : Map KeyConf) : IdConf → Nat → Nat → Nat → Prop
  | inline (f p : Option Nat) (pf pd c : Nat) : TlsIdIs kc (.inline f p pf pd (some c)) pf pd c
  | ref (k c d : Nat) (key : KeyConf) (hk : kc k = some key) (hc : key.certs c = some d) : TlsIdIs kc (.ref k c) key.privFmt key.priv d

/-- The configured format and data of the private key of a host key: given there, or those of a key of the keystore, which must not be for TLS only. -/
inductive HostIs (v : Vals) (kc : Map KeyConf) : HostConf → Nat → Nat → Prop
  | inline (f p : Option Nat) (pf pd : Nat) : HostIs v kc (.inline f p pf pd) pf pd
  | ref (n : Nat) (key : KeyConf) (hk : kc n = some key) (hs : ∀ d, key.pub = some d → v.spki d = false) : HostIs v kc (.ref n) key.privFmt key.priv

/-- The server has set up data of the keystore and then diffs; `c` is the configuration after all of them. -/
def KsSetUp (s : Ks) (c : Map KeyConf) : Prop :=
  ∃ (s0 s1 : Ks) (l : List (Nat × KeyData)) (ds : List KsDiff) (c0 : Map KeyConf), ksDataConf l = some c0 ∧ patchKsAll c0 ds = some c ∧
    setupKs (some (ksDataTree l)) s0 = .ok s1 ∧ diffsKs (ds.map ksTree) s1 = .ok s

/-- The same, with no leaf of a public key removed, which is not followed. -/
def KsSafe (s : Ks) (c : Map KeyConf) : Prop :=
  ∃ (s0 s1 : Ks) (l : List (Nat × KeyData)) (ds : List KsDiff) (c0 : Map KeyConf), ksDataConf l = some c0 ∧ patchKsAll c0 ds = some c ∧
    (∀ d ∈ ds, d.noPubDelete) ∧ setupKs (some (ksDataTree l)) s0 = .ok s1 ∧ diffsKs (ds.map ksTree) s1 = .ok s

/-- The server has set up data of a TLS endpoint and then diffs; `c` is the configuration after all of them. -/
def TlsSetUp (spki : Nat → Bool) (s : Tls) (c : TlsConf) : Prop :=
  ∃ (d : TlsData) (ds : List TlsDiff) (c0 : TlsConf), d.conf spki = some c0 ∧ patchTlsAll spki c0 ds = some c ∧
    ConfTls.run spki d.tree (ds.map tlsTree) = .ok s

/-- The same without the changes that are not followed (`IdConf.lost`, `CertsEdit.lost`). -/
def TlsSafe (spki : Nat → Bool) (s : Tls) (c : TlsConf) : Prop :=
  ∃ (d : TlsData) (ds : List TlsDiff) (c0 : TlsConf), d.conf spki = some c0 ∧ patchSafeAll spki c0 ds = some c ∧
    ConfTls.run spki d.tree (ds.map tlsTree) = .ok s

/-- The server has set up data of an SSH endpoint and then diffs; `c` is the configuration after all of them. -/
def SshSetUp (spki : Nat → Bool) (s : Ssh) (c : SshConf) : Prop :=
  ∃ (d : SshData) (ds : List SshDiff) (c0 : SshConf), d.conf spki = some c0 ∧ ConfUsers.patchSshAll spki c0 ds = some c ∧
    ConfUsers.run spki d.tree (ds.map ConfUsers.sshTree) = .ok s

/-- The same without the changes that are not followed (`UserConf.lost`, `HostChange.lost`). -/
def SshSafe (spki : Nat → Bool) (s : Ssh) (c : SshConf) : Prop :=
  ∃ (d : SshData) (ds : List SshDiff) (c0 : SshConf), d.conf spki = some c0 ∧ ConfUsers.patchSafeAll spki c0 ds = some c ∧
    ConfUsers.run spki d.tree (ds.map ConfUsers.sshTree) = .ok s

/-- No call for a temporary file fails. -/
def EnvGood (e : Nat → HostKeys.Env) : Prop :=
  ∀ i, (e i).create = true ∧ (e i).stream = true ∧ (e i).written = true ∧ (e i).flushed = true ∧ (e i).dup = true

end Verif.ServerId
