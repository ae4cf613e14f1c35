import Verif.Model.CtxFill

/-! # Notions for the properties of filling the context of a client session -/

namespace Verif.CtxFill
open Verif.ModSel (Text strGt strstr cpbltModule)

/-- Nothing implemented is lost. -/
def Keeps (c c' : List Mod) : Prop := ∀ x ∈ c, x.impl = true → x ∈ c'

/-- What is relied on of libyang: a module parsed or made implemented is implemented in the context, in the revision of its text, and nothing implemented
is lost. -/
structure LibOk (env : Env) : Prop where
  parse : ∀ c t c' m, env.parse c t = some (c', m) → m.name = t.name ∧ m.rev = t.rev ∧ (⟨t.name, t.rev, true⟩ : Mod) ∈ c' ∧ Keeps c c'
  setImpl : ∀ c m c', env.setImpl c m = some c' → (⟨m.name, m.rev, true⟩ : Mod) ∈ c' ∧ Keeps c c'

/-- No other module becomes implemented. -/
structure LibOnly (env : Env) : Prop where
  parse : ∀ c t c' m, env.parse c t = some (c', m) → ∀ x ∈ c', x.impl = true → x ∈ c ∨ x = ⟨t.name, t.rev, true⟩
  setImpl : ∀ c m c', env.setImpl c m = some c' → ∀ x ∈ c', x.impl = true → x ∈ c ∨ x = ⟨m.name, m.rev, true⟩

/-- The text is that of the module asked for. -/
def fits (name : Text) (rev : Option Text) (t : Src) : Prop := t.name = name ∧ (rev = none ∨ t.rev = rev)

/-- All sources give the module asked for, or nothing. -/
structure Honest (env : Env) : Prop where
  localFile : ∀ name rev t b, env.localFile name rev = some (t, b) → t.name = name ∧ (b = true → fits name rev t)
  server : ∀ n name rev t, env.server n name rev = .text t → fits name rev t
  user : ∀ f name rev t fr, env.user = some f → f name rev = some (t, fr) → fits name rev t

/-- A module in the context can be made implemented, unless another revision is implemented. -/
def SetOk (env : Env) : Prop :=
  ∀ c m, m ∈ c → (∀ x ∈ c, x.impl = true → x.name = m.name → x = m) → (env.setImpl c m).isSome = true

/-- At most one revision of a module is implemented (RFC 7950, 5.6.5). -/
def One (c : List Mod) : Prop := ∀ x ∈ c, ∀ y ∈ c, x.impl = true → y.impl = true → x.name = y.name → x = y

/-- libyang keeps to that. -/
structure LibOne (env : Env) : Prop where
  parse : ∀ c t c' m, One c → env.parse c t = some (c', m) → One c'
  setImpl : ∀ c m c', One c → env.setImpl c m = some c' → One c'

/-- The user's callback, if there is one, gives data to be freed by `free`. -/
def UserLibc (env : Env) : Prop := ∀ f name rev t fr, env.user = some f → f name rev = some (t, fr) → fr = .libc

/-- Every module is in a local file with its revision, libyang accepts all of them unless another revision is implemented. -/
structure Available (env : Env) : Prop where
  localFile : ∀ name rev, ∃ t, env.localFile name rev = some (t, true)
  parse : ∀ c t, (∀ x ∈ c, x.impl = true → x.name ≠ t.name) → (env.parse c t).isSome = true
  compile : ∀ c, env.compile c = true
  mountOk : env.mountOk = true

/-- Every module is in a local file with its revision, or given by the server whenever it is asked, or given by the callback of the user with data for `free`;
libyang accepts all of them unless another revision is implemented. -/
structure Provided (env : Env) : Prop where
  source : ∀ name rev, (∃ t, env.localFile name rev = some (t, true)) ∨ (env.localFile name rev = none ∧ ∀ n, ∃ t, env.server n name rev = .text t) ∨
    (env.localFile name rev = none ∧ (∀ n, env.server n name rev = .nothing) ∧ ∃ f t, env.user = some f ∧ f name rev = some (t, .libc))
  parse : ∀ c t, (∀ x ∈ c, x.impl = true → x.name ≠ t.name) → (env.parse c t).isSome = true
  compile : ∀ c, env.compile c = true
  mountOk : env.mountOk = true

/-- The yang-library capability of a server that has a revision in it. -/
def ylRevision (cpblts : List Text) : Option Text :=
  ((cpblts.filter (fun c => "urn:ietf:params:netconf:capability:yang-library:".toList.isPrefixOf c)).getLast?.bind (strstr "revision=".toList)).map
    (fun r => (r.drop 9).take 10)

/-- Modules loaded before the list of the server is gone through. -/
def early : List Text :=
  ["ietf-netconf".toList, "ietf-netconf-monitoring".toList, "ietf-yang-library".toList, "ietf-datastores".toList, "ietf-netconf-nmda".toList]

/-- All modules that the server implements are implemented in the context. -/
def Complete (mods : List SMod) (c : List Mod) : Prop := ∀ m ∈ mods, m.impl = true → ∃ x ∈ c, x.impl = true ∧ x.name = m.name

/-- The modules of the server as far as it tells them: by yang-library data if it announces the library (with its revision) and gives data, by the
capabilities otherwise. -/
def announced (env : Env) (cpblts : List Text) (n : Nat) : List SMod :=
  match ylRevision cpblts, env.oper n with
  | some _, .data l => l
  | _, _ => fromCpblts cpblts

/-- The same surroundings without the files that have no revision in their name where one is asked for. -/
def dropUnknown (env : Env) : Env :=
  { env with localFile := fun name rev => match env.localFile name rev with | some (t, b) => if rev.isSome && !b then none else some (t, b) | none => none }

end Verif.CtxFill
