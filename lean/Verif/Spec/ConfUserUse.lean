import Verif.Spec.Login
import Verif.Model.ConfUserUse

/-!
# What the application wants that configures SSH users by function calls
-/

namespace Verif.ConfUserUse
open Verif.ConfUtil (Text)
open Verif.Login (Vals KeyIn)
open Verif.ConfStore (TsConf)
open Verif.SshAuth (Env AuthMsg Method PasswordMatches AnswersMatch)

/-- Public keys of a user: given by name, a bag of the truststore, those of the system. -/
inductive Keys where
  | inline (m : Text → Option Text)
  | bag (b : Text)
  | system

/-- What a user authenticates with. -/
structure Want where
  keys : Option Keys
  password : Option Text
  kbdint : Bool

/-- A user for whom nothing was said. -/
def Want.empty : Want := ⟨none, none, false⟩

/-- The user in a call. -/
def Call.user : Call → Text
  | .pubkey u _ _ | .authkey u | .tsRef u _ | .password u _ | .interactive u | .delPubkey u _ | .delAuthkey u | .delPassword u | .delInteractive u
  | .delUser u => u

/-- What is wanted for its user after a call: the last call for public keys decides where they come from. -/
def Call.apply (w : Option Want) : Call → Option Want
  | .pubkey _ k d =>
    let x := w.getD .empty
    let m := match x.keys with | some (.inline m) => m | _ => fun _ => none
    some { x with keys := some (.inline (fun j => if j = k then some d else m j)) }
  | .authkey _ => some { w.getD .empty with keys := some .system }
  | .tsRef _ b => some { w.getD .empty with keys := some (.bag b) }
  | .password _ h => some { w.getD .empty with password := some h }
  | .interactive _ => some { w.getD .empty with kbdint := true }
  | .delPubkey _ k => w.map (fun x => { x with keys := match x.keys with
      | some (.inline m) => some (.inline (fun j => if j = k then none else m j))
      | y => y })
  | .delAuthkey _ => w.map (fun x => { x with keys := match x.keys with | some .system => none | y => y })
  | .delPassword _ => w.map (fun x => { x with password := none })
  | .delInteractive _ => w.map (fun x => { x with kbdint := false })
  | .delUser _ => none

/-- What is wanted for a user after the calls. -/
def wanted (cs : List Call) (u : Text) : Option Want := cs.foldl (fun w c => if c.user = u then c.apply w else w) none

/-- The texts put between apostrophes. -/
def Call.names : Call → List Text
  | .pubkey u k _ | .delPubkey u k => [u, k]
  | .authkey u | .tsRef u _ | .password u _ | .interactive u | .delAuthkey u | .delPassword u | .delInteractive u | .delUser u => [u]

/-- They can be put there. -/
def Call.good (c : Call) : Prop := ∀ x ∈ c.names, '\'' ∉ x

/-- The key is one of those wanted: `C` gives the numbers of texts. -/
def KeyOf (v : Vals) (e : Env) (ts : TsConf) (C : Text → Nat) (user : Text) (key : Nat) : Option Keys → Prop
  | none => False
  | some (.inline m) => ∃ k d, m k = some d ∧ v.key (C d) = some key
  | some (.bag b) => ∃ m, ts.pubBags (C b) = some m ∧ KeyIn v m key ∧ ∀ k f d, m k = some (f, d) → v.spki d = false
  | some .system => ∃ ks, e.systemKeys user = some ks ∧ some key ∈ ks

/-- The request proves that it comes from the user. -/
def Want.Proves (v : Vals) (e : Env) (ts : TsConf) (C : Text → Nat) (w : Want) (m : AuthMsg) : Prop :=
  match m.method with
  | .password => ∃ h, w.password = some h ∧ PasswordMatches e h m.password
  | .publickey => KeyOf v e ts C m.user m.key w.keys ∧ m.sig = .valid
  | .interactive => w.kbdint = true ∧ AnswersMatch e m.user m.answers
  | _ => False

/-- The method is wanted for the user. -/
def Want.Demands (w : Want) : Method → Prop
  | .password => ∃ h, w.password = some h
  | .publickey => ∃ k, w.keys = some k ∧ ∀ m, k = .inline m → ∃ n d, m n = some d
  | .interactive => w.kbdint = true
  | _ => False

/-- All keys given by the application are in the format of SSH, which `nc_server_config_util_get_ssh_pubkey_file` makes of a file (`KeyUtil`). -/
def SshKeys (v : Vals) (C : Text → Nat) (cs : List Call) : Prop := ∀ u k d, .pubkey u k d ∈ cs → v.spki (C d) = false

/-- What is to be deleted is there. -/
def Call.possible (w : Option Want) : Call → Prop
  | .delPubkey _ k => ∃ x m d, w = some x ∧ x.keys = some (.inline m) ∧ m k = some d
  | .delAuthkey _ => ∃ x, w = some x ∧ x.keys = some .system
  | .delPassword _ => ∃ x h, w = some x ∧ x.password = some h
  | .delInteractive _ => ∃ x, w = some x ∧ x.kbdint = true
  | .delUser _ => ∃ x, w = some x
  | _ => True

end Verif.ConfUserUse
