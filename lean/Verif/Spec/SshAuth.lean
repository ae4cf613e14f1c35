import Verif.Model.SshAuth

/-!
# What SSH authentication means, without the code
-/

namespace Verif.SshAuth

/-- An offered password is right for the stored one. -/
def PasswordMatches (e : Env) (stored offered : Text) : Prop :=
  (stored = [] ∧ offered = []) ∨ stored = '$' :: '0' :: '$' :: offered ∨
    (stored ≠ [] ∧ (∀ t, stored ≠ '$' :: '0' :: '$' :: t) ∧ e.crypt offered stored = some stored)

/-- A password hash of a system user who may log in with it: found in the user databases and the account has not expired. -/
def SystemPassword (e : Env) (user p : Text) : Prop :=
  ∃ entry, e.passwd user = some entry ∧
    ((entry.pass ≠ ['x'] ∧ p = entry.pass) ∨
      (entry.pass = ['x'] ∧ ∃ sh, e.shadow user = some sh ∧ sh.pass = some p ∧ (sh.expire < 0 ∨ e.today < sh.expire)))

/-- A locked password. -/
def Locked (p : Text) : Prop := ∃ t, p = '!' :: t ∨ p = '*' :: t

/-- What crypt(3) promises: a setting with `!` or `*` in front does not hash to itself. -/
def CryptContract (e : Env) : Prop := ∀ p s, Locked s → e.crypt p s ≠ some s

/-- The usable password of a user; `none` is a system user. -/
def UserPassword (e : Env) (user : Text) (c : Option Client) (p : Text) : Prop :=
  (∃ cl, c = some cl ∧ cl.password = some p) ∨ (c = none ∧ SystemPassword e user p ∧ p ≠ ['*'] ∧ p ≠ ['!'] ∧ p ≠ "*NP*".toList)

/-- A key is authorized for a user. -/
def AuthorizedKey (e : Env) (user : Text) (c : Option Client) (key : Nat) : Prop :=
  (c = none ∧ ∃ ks, e.systemKeys user = some ks ∧ some key ∈ ks) ∨
    ∃ cl, c = some cl ∧
      ((cl.store = .system ∧ ∃ ks, e.systemKeys user = some ks ∧ some key ∈ ks) ∨ (∃ ks, cl.store = .local ks ∧ some key ∈ ks) ∨
        ∃ ks, cl.store = .truststore (some ks) ∧ some key ∈ ks)

/-- The answers of a keyboard-interactive exchange are right. -/
def AnswersMatch (e : Env) (user : Text) (answers : List Text) : Prop :=
  (∃ f, e.kbd = .callback f ∧ f user answers = true) ∨ (∃ f, e.kbd = .pam f ∧ f user answers = true) ∨
    (∃ a p, e.kbd = .system ∧ answers = [a] ∧ UserPassword e user none p ∧ PasswordMatches e p a)

/-- The request proves the identity of its user by its method. -/
def Verified (e : Env) (c : Option Client) (m : AuthMsg) : Prop :=
  (m.method = .none ∧ ∃ cl, c = some cl ∧ cl.none = true) ∨
  (m.method = .password ∧ ∃ p, UserPassword e m.user c p ∧ PasswordMatches e p m.password) ∨
  (m.method = .publickey ∧ AuthorizedKey e m.user c m.key ∧ m.sig = .valid) ∨
  (m.method = .interactive ∧ (∀ cl, c = some cl → cl.kbdint = true) ∧ AnswersMatch e m.user m.answers)

/-- A method is configured for a client. -/
def Configured (c : Client) : Method → Prop
  | .none => c.none = true
  | .password => ∃ p, c.password = some p
  | .publickey => c.store ≠ .local []
  | .interactive => c.kbdint = true
  | .other => False

/-- The client configured for a user: the first one of that name. -/
def UserIs (o : Opts) (user : Text) (c : Client) : Prop :=
  ∃ pre post, o.chain.flatten = pre ++ c :: post ∧ c.name = user ∧ ∀ d ∈ pre, d.name ≠ user

/-- libssh never hands over a request with a wrong signature. -/
def NoWrongSig (evs : List Ev) : Prop := ∀ m b, Ev.msg (.auth m) b ∈ evs → m.sig ≠ .wrong

/-- The authentication requests among the events. -/
def authMsgs : List Ev → List AuthMsg
  | [] => []
  | .msg (.auth m) _ :: evs => m :: authMsgs evs
  | _ :: evs => authMsgs evs

end Verif.SshAuth
