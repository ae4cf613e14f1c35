import Verif.Spec.ConfUsers
import Verif.Spec.SshAuth
import Verif.Model.Login

/-!
# Who may log in over SSH, by the configuration alone

Only configurations (`SshConf`, `TsConf`) and the requests of the client are mentioned, not what the server keeps in memory.
-/

namespace Verif.Login
open Verif.ConfStore (Map TsConf TsData TsDiff Ts Tree tsTree patchTsAll setupTs diffsTs)
open Verif.ConfUsers (SshConf UserConf KeysConf SshData SshDiff Ssh patchSshAll patchSafeAll sshTree)
open Verif.SshAuth (AuthMsg Method Env Text PasswordMatches AnswersMatch)

/-- The configuration of the user `n`: of the first endpoint that has such a user, along the references. -/
def UserConfIs (cs : List SshConf) (n : Nat) (uc : UserConf) : Prop :=
  ∃ pre c post, cs = pre ++ c :: post ∧ c.users n = some uc ∧ ∀ d ∈ pre, d.users n = none

/-- The key is one of these. -/
def KeyIn (v : Vals) (m : Map (Nat × Nat)) (key : Nat) : Prop := ∃ k f d, m k = some (f, d) ∧ v.key d = some key

/-- The key is configured: given with the user, in the bag of the truststore named there (with keys for SSH only), or in the files of the system. -/
def KeyConfigured (v : Vals) (e : Env) (ts : TsConf) (user : Text) (key : Nat) : Option KeysConf → Prop
  | none => False
  | some (.inline m) => KeyIn v m key
  | some (.bag b) => ∃ m, ts.pubBags b = some m ∧ KeyIn v m key ∧ ∀ k f d, m k = some (f, d) → v.spki d = false
  | some .system => ∃ ks, e.systemKeys user = some ks ∧ some key ∈ ks

/-- The request proves that it comes from the user: by the none method if that is allowed, the configured password, the private key of a configured
key, or right answers if keyboard-interactive authentication is configured. -/
def Proves (v : Vals) (e : Env) (ts : TsConf) (uc : UserConf) (m : AuthMsg) : Prop :=
  match m.method with
  | .none => uc.noneOk = true
  | .password => ∃ p, uc.password = some p ∧ PasswordMatches e (v.text p) m.password
  | .publickey => KeyConfigured v e ts m.user m.key uc.keys ∧ m.sig = .valid
  | .interactive => uc.kbdint = true ∧ AnswersMatch e m.user m.answers
  | .other => False

/-- The method is configured for the user. -/
def Demands (uc : UserConf) : Method → Prop
  | .none => uc.noneOk = true
  | .password => ∃ p, uc.password = some p
  | .publickey => ∃ k, uc.keys = some k ∧ ∀ m, k = .inline m → ∃ n p, m n = some p
  | .interactive => uc.kbdint = true
  | .other => False

/-- The server has set up data of an endpoint and then diffs, `c` is the configuration after all of them. -/
def SshSetUp (v : Vals) (s : Ssh) (c : SshConf) : Prop :=
  ∃ (d : SshData) (ds : List SshDiff) (c0 : SshConf), d.conf v.spki = some c0 ∧ patchSshAll v.spki c0 ds = some c ∧
    ConfUsers.run v.spki d.tree (ds.map sshTree) = .ok s

/-- The same without the changes that are not followed (`UserConf.lost`, `HostChange.lost`). -/
def SshSafe (v : Vals) (s : Ssh) (c : SshConf) : Prop :=
  ∃ (d : SshData) (ds : List SshDiff) (c0 : SshConf), d.conf v.spki = some c0 ∧ patchSafeAll v.spki c0 ds = some c ∧
    ConfUsers.run v.spki d.tree (ds.map sshTree) = .ok s

/-- The server has set up data of the truststore and then diffs, `c` is the configuration after all of them. -/
def TsSetUp (s : Ts) (c : TsConf) : Prop :=
  ∃ (s0 s1 : Ts) (d : TsData) (ds : List TsDiff) (c0 : TsConf), d.conf = some c0 ∧ patchTsAll c0 ds = some c ∧
    setupTs (some d.tree) s0 = .ok s1 ∧ diffsTs (ds.map tsTree) s1 = .ok s

end Verif.Login
