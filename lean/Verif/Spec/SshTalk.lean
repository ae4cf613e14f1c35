import Verif.Model.SshTalk
import Verif.Spec.SshAuth

/-!
# Client and server agreeing on an authentication
-/

namespace Verif.SshTalk
open Verif.ClientSsh (Key KeyFiles)
open Verif.SshAuth (Env Conn AuthMsg PasswordMatches AuthorizedKey AnswersMatch UserPassword Client Store)

/-- The request sent in a step of the client, if any. -/
def sent (me : Me) : ClientSsh.Ev → Option AuthMsg
  | .none _ => some me.none
  | .password p _ => some (me.password p)
  | .kbd _ => some me.kbd
  | .tryKey k _ => some (me.tryKey k)
  | .sign k _ => some (me.sign k)
  | .passphrase _ => none

/-- The server after all the requests of the client. -/
def served (e : Env) (lu : Bool) (so : SshAuth.Opts) (me : Me) (evs : List ClientSsh.Ev) : Conn :=
  (SshAuth.run e lu so ((evs.filterMap (sent me)).map (fun m => .msg (.auth m) false)) SshAuth.fresh).2

/-- The server has authenticated its client as this user. -/
def LetIn (c : Conn) (user : List Char) : Prop := c.main.authenticated = true ∧ c.main.username = some user

/-- Every key pair whose public key can be read has a readable private key. -/
def PairsReadable (keys : List Key) (kf : KeyFiles) : Prop := ∀ k ∈ keys, kf.pub k = .ok → kf.priv k k.crypt = .ok

/-- A password is there and right for the user (`none` is a system user). -/
def GoodPassword (e : Env) (me : Me) (co : ClientSsh.Opts) (c : Option Client) : Prop :=
  ∃ p w, co.password = some p ∧ UserPassword e me.user c w ∧ PasswordMatches e w p

/-- One of the key pairs is readable and authorized for the user. -/
def GoodKey (e : Env) (me : Me) (co : ClientSsh.Opts) (kf : KeyFiles) (c : Option Client) : Prop :=
  ∃ k ∈ co.keys, kf.pub k = .ok ∧ kf.priv k k.crypt = .ok ∧ me.privKey k = me.pubKey k ∧ AuthorizedKey e me.user c (me.pubKey k)

/-- The method is not disabled, and preferred enough to be used (0 will do only for keyboard-interactive). -/
def Usable (pref : ClientSsh.Method → Int) : ClientSsh.Method → Prop
  | .kbd => 0 ≤ pref .kbd
  | m => 0 < pref m

/-- The client has what a configured user needs: for every method configured for the user one that may be used, and a right credential. -/
structure Ready (may : ClientSsh.Method → Prop) (e : Env) (me : Me) (co : ClientSsh.Opts) (kf : KeyFiles) (c : Client) : Prop where
  password : c.password ≠ none → may .pw ∧ GoodPassword e me co (some c)
  key : c.store ≠ .local [] → may .key ∧ GoodKey e me co kf (some c)
  kbd : c.kbdint = true → may .kbd ∧ AnswersMatch e me.user me.answers
  any : c.password ≠ none ∨ c.store ≠ .local [] ∨ c.kbdint = true ∨ c.none = true

/-- One right credential of a system user, with a method that may be used. -/
def OneGood (may : ClientSsh.Method → Prop) (e : Env) (me : Me) (co : ClientSsh.Opts) (kf : KeyFiles) : Prop :=
  (may .pw ∧ GoodPassword e me co none) ∨ (may .key ∧ GoodKey e me co kf none) ∨ (may .kbd ∧ AnswersMatch e me.user me.answers)

/-- The client does not mind the host key, or knows it. -/
def HostTrusted (co : ClientSsh.Opts) (h : ClientSsh.Host) : Prop := co.mode = .skip ∨ (h.data = true ∧ h.known = .ok)

/-- Full statement of C237: the client is told success exactly if the server has let it in as its user. -/
def SshAgree : Prop := ∀ (e : Env) (lu : Bool) (so : SshAuth.Opts) (me : Me) (co : ClientSsh.Opts) (kf : KeyFiles) (h : ClientSsh.Host),
  (login e lu so me co kf h).1 = .ok ↔ LetIn (served e lu so me (login e lu so me co kf h).2) me.user

/-- Full statement of C238 for configured users: the methods need only be not disabled. -/
def SshUserIn : Prop := ∀ (e : Env) (so : SshAuth.Opts) (me : Me) (co : ClientSsh.Opts) (kf : KeyFiles) (h : ClientSsh.Host) (c : Client),
  SshAuth.UserIs so me.user c → HostTrusted co h → Ready (fun m => 0 ≤ co.pref m) e me co kf c →
    (login e true so me co kf h).1 = .ok ∧ LetIn (served e true so me (login e true so me co kf h).2) me.user

/-- Full statement of C238 for users of the system: one right credential is enough. -/
def SshSystemIn : Prop := ∀ (e : Env) (so : SshAuth.Opts) (me : Me) (co : ClientSsh.Opts) (kf : KeyFiles) (h : ClientSsh.Host),
  HostTrusted co h → OneGood (Usable co.pref) e me co kf →
    (login e false so me co kf h).1 = .ok ∧ LetIn (served e false so me (login e false so me co kf h).2) me.user

end Verif.SshTalk
