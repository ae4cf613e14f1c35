/-!
# Modules of a server as seen by the client (src/session_client.c:334-350, 588-660, 905-1093)

Strings are lists of characters; `strcmp` compares them character by character.
-/

namespace Verif.ModSel

/-- A string. (src/session_client.c:335) -/
abbrev Text := List Char

/-- `struct module_info` (src/session_client.c:334-344) without features: name, revision (may be NULL), submodules with name and revision. -/
structure Mod where
  name : Text
  rev : Option Text
  subs : List (Text × Option Text)
  deriving DecidableEq, Repr

/-- `strcmp(a, b) > 0` (src/session_client.c:609). -/
def strGt : Text → Text → Bool
  | [], _ => false
  | _ :: _, [] => true
  | a :: x, b :: y => if a = b then strGt x y else decide (b.toNat < a.toNat)

/-- Outcome: undefined behaviour (NULL given to `strcmp`) or a value. (src/session_client.c:609) -/
inductive Res (α : Type) where
  | ub
  | ok (a : α)
  deriving DecidableEq, Repr

/-- The comparison of the remembered revision with a listed one (src/session_client.c:609-611). -/
def better (rev new : Option Text) : Res (Option Text) :=
  match rev, new with
  | some r, some r' => .ok (if strGt r r' then some r' else some r)
  | _, _ => .ub

/-- The loop over the modules (src/session_client.c:604-613); `u` is the index, `m` is `match`. -/
def choose (name : Text) : List Mod → (u m : Nat) → Option Text → Res (Nat × Option Text)
  | [], _, m, rev => .ok (m, rev)
  | x :: xs, u, m, rev =>
    if x.name ≠ name then choose name xs (u + 1) m rev
    else if m = 0 then choose name xs (u + 1) (u + 1) x.rev
    else
      match better rev x.rev with
      | .ok r => choose name xs (u + 1) (u + 1) r
      | .ub => .ub

/-- The revision of the module, with `match` (src/session_client.c:600-620). -/
def modRev (mods : List Mod) (name : Text) (req : Option Text) : Res (Nat × Option Text) :=
  match req with
  | none => choose name mods 0 0 none
  | some r => if r = [] then choose name mods 0 0 (some []) else .ok (1, some r)

/-- The revision of a submodule that is requested without revision (src/session_client.c:625-641): the last one of that name in the module with
index `match - 1`; the error is `some none`, and `none` means that nothing is known. -/
def subRev (mods : List Mod) (m : Nat) (sub : Text) : Option (Option Text) :=
  match m with
  | 0 => none
  | m + 1 =>
    match mods[m]? with
    | none => none
    | some x => if x.subs = [] then none else some ((x.subs.filter (fun s => s.1 == sub)).getLast?.bind (·.2))

/-- `strstr`: the rest of the text from the first occurrence on (src/session_client.c:1045). -/
def strstr (needle : Text) : Text → Option Text
  | [] => if needle = [] then some [] else none
  | c :: t => if needle.isPrefixOf (c :: t) then some (c :: t) else strstr needle t

/-- Text up to the next `&` or the end (src/session_client.c:1052-1056). -/
def upToAmp (t : Text) : Text := t.takeWhile (· ≠ '&')

/-- The loop over the features (src/session_client.c:1077-1093): `cur` is the feature read so far. -/
def splitFeatures : Text → (cur : Text) → List Text
  | [], cur => [cur]
  | c :: t, cur => if c = '&' then [cur] else if c = ',' then cur :: splitFeatures t [] else splitFeatures t (cur ++ [c])

/-- Module information of one capability (src/session_client.c:1044-1094). -/
structure CpbltMod where
  name : Text
  rev : Option Text
  features : List Text
  deriving DecidableEq, Repr

/-- One iteration of `build_module_info_cpblts` (src/session_client.c:1044-1094); `none` for a capability that is skipped. -/
def cpbltModule (cpblt : Text) : Option CpbltMod :=
  match strstr "module=".toList cpblt with
  | none => none
  | some m => some {
      name := upToAmp (m.drop 7)
      rev := (strstr "revision=".toList m).map (fun p => upToAmp (p.drop 9))
      features := match strstr "features=".toList m with
        | none => []
        | some p => splitFeatures (p.drop 9) [] }

/-- `build_module_info_cpblts` (src/session_client.c:1034-1098). -/
def cpbltModules (cpblts : List Text) : List CpbltMod := cpblts.filterMap cpbltModule

/-! ## yang-library data -/

/-- A module of `modules-state` (src/session_client.c:938): its leaves and its submodule list instances. -/
structure YlMod where
  name : Text
  revision : Text
  implement : Bool
  features : List Text
  subs : List (Text × Text)
  deriving DecidableEq, Repr

/-- An element of the result array (src/session_client.c:334-344); `none` is uninitialised memory. -/
structure Info where
  name : Text
  rev : Option Text
  implemented : Bool
  features : Option (List Text)
  subs : Option (List (Text × Option Text))
  deriving DecidableEq, Repr

/-- A child of a module entry (src/session_client.c:949); list instances have no value. -/
inductive YlChild where
  | name (v : Text)
  | revision (v : Text)
  | conformance (implement : Bool)
  | feature (v : Text)
  | submodule (name rev : Text)
  deriving DecidableEq, Repr

/-- The children of a module in schema order (src/session_client.c:949). -/
def YlMod.children (m : YlMod) : List YlChild :=
  [.name m.name, .revision m.revision] ++ m.features.map .feature ++ [.conformance m.implement] ++ m.subs.map (fun s => .submodule s.1 s.2)

/-- Whether `lyd_get_value` gives a non-empty string (src/session_client.c:954-957). -/
def YlChild.hasValue : YlChild → Bool
  | .name v => !v.isEmpty
  | .revision v => !v.isEmpty
  | .conformance _ => true
  | .feature v => !v.isEmpty
  | .submodule _ _ => false

/-- The first loop over the children (src/session_client.c:949-977), with the number of submodules found. -/
def ylStep (acc : Info × Nat) (c : YlChild) : Info × Nat :=
  if !c.hasValue then acc
  else
    match c with
    | .name v => ({ acc.1 with name := v }, acc.2)
    | .revision v => ({ acc.1 with rev := some v }, acc.2)
    | .conformance b => ({ acc.1 with implemented := b }, acc.2)
    | .feature v => ({ acc.1 with features := some (acc.1.features.getD [] ++ [v]) }, acc.2)
    | .submodule _ _ => (acc.1, acc.2 + 1)

/-- One module (src/session_client.c:944-997): the second loop writes every submodule to index 0. -/
def ylModule (m : YlMod) : Info :=
  let (i, n) := m.children.foldl ylStep (⟨[], none, false, some [], some []⟩, 0)
  if n = 0 then i else { i with subs := some (m.subs.getLast?.map (fun s => (s.1, some s.2))).toList }

/-- Result array: the initialised elements, and whether a zeroed element follows them (src/session_client.c:941, 1007). -/
structure Infos where
  elems : List Info
  terminated : Bool
  deriving DecidableEq, Repr

/-- `build_module_info_yl` with the data of the server (src/session_client.c:941-1021); `ntf` is the notification capability. The element after the
former terminator and its follower come uninitialised from `realloc`. -/
def ylModules (mods : List YlMod) (ntf : Bool) : Infos :=
  let l := mods.map ylModule
  if ntf ∧ ¬ mods.any (fun m => m.name == "notifications".toList) ∧ ¬ mods.any (fun m => m.name == "nc-notifications".toList) then
    ⟨l ++ [⟨"notifications".toList, some "2008-07-14".toList, true, some [], some []⟩, ⟨"nc-notifications".toList, some "2008-07-14".toList, true, none, none⟩], false⟩
  else ⟨l, true⟩

end Verif.ModSel
