/-!
# Path of the authorized keys (src/session_server_ssh.c:225-356)
-/

namespace Verif.AuthPath

/-- A C string. (src/session_server_ssh.c:279) -/
abbrev Text := List Char

/-- `strstr(t, n) != NULL` (src/session_server_ssh.c:293). -/
def hasSub (n : Text) : Text → Bool
  | [] => n.isEmpty
  | c :: t => n.isPrefixOf (c :: t) || hasSub n t

/-- A growing buffer (src/session_server_ssh.c:281): allocated size and content; the index is the length of the content. -/
structure Buf where
  size : Nat
  text : Text
  deriving DecidableEq, Repr

/-- The enlargement loop (src/session_server_ssh.c:248-251); `fuel` bounds the iterations. -/
def enlarge (need : Nat) : (fuel size : Nat) → Nat
  | 0, size => size
  | fuel + 1, size => if need ≥ size then enlarge need fuel (size + 16) else size

/-- `nc_server_ssh_str_append` (src/session_server_ssh.c:235-269); `none` is a write behind the buffer (with the terminating zero). -/
def append (b : Buf) (s : Text) : Option Buf :=
  let size := enlarge (s.length + b.text.length) (s.length + b.text.length + 1) b.size
  if b.text.length + s.length + 1 ≤ size then some ⟨size, b.text ++ s⟩ else none

/-- Outcomes of the expansion: memory error, refused format, path. (src/session_server_ssh.c:279) -/
inductive Res where
  | ub
  | err
  | ok (p : Text)
  deriving DecidableEq, Repr

/-- The user data used by the tokens (src/session_server_ssh.c:295, 303, 323-329). -/
structure User where
  home : Text
  name : Text
  uid : Text
  deriving DecidableEq, Repr

/-- The loop over the characters (src/session_server_ssh.c:315-349). -/
def loop (u : User) : Text → (percent : Bool) → Buf → Res
  | [], _, b => .ok b.text
  | c :: t, true, b =>
    match (if c = '%' then some ['%'] else if c = 'h' then some u.home else if c = 'u' then some u.name else if c = 'U' then some u.uid else none) with
    | none => .err
    | some s =>
      match append b s with
      | none => .ub
      | some b => loop u t false b
  | c :: t, false, b =>
    if c = '%' then loop u t true b
    else
      match append b [c] with
      | none => .ub
      | some b => loop u t false b

/-- `nc_server_ssh_get_system_keys_path` with a format (src/session_server_ssh.c:278-356); `none` is a user without passwd entry. -/
def keysPath (fmt : Text) (u : Option User) : Res :=
  if hasSub "%h".toList fmt || hasSub "%U".toList fmt || hasSub "%u".toList fmt || hasSub "%%".toList fmt then
    match u with
    | none => .err
    | some u => loop u fmt false ⟨0, []⟩
  else .ok fmt

end Verif.AuthPath
