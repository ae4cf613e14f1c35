import Verif.Model.Compat

/-!
# Notions for the properties of the replacements of system functions
-/

namespace Verif.Compat

/-- A line that the replacement of `getline` reads at once: not too long, without zero bytes (compat/compat.c:261-274). -/
def Short (l : Text) : Prop := l.length < 255 ∧ '\n' ∉ l ∧ '\x00' ∉ l

/-- A file: lines with their ends, and possibly a last one without (compat/compat.c:259). -/
def fileOf (ls : List Text) (last : Text) : Text := (ls.map (· ++ ['\n'])).flatten ++ last

/-- The result of a function with the `getline` of the system (src/session_server_ssh.c:366). -/
def asRead {α : Type} : Option α → Read α
  | none => .err
  | some a => .ok a

/-- The same for the functions on key files (src/server_config_util.c:564, 760). -/
def resRead {α : Type} : KeyUtil.Res α → Read α
  | .ok a => .ok a
  | .err => .err
  | .ub => .ub

/-- A point of time in ns (compat/compat.c:47-48). -/
def Ts.ns (t : Ts) : Int := t.sec * 1000000000 + t.nsec

/-- The time of an instant on a clock, for instants with the times of both (src/session.c:58). -/
def Clock.at (c : Clock) (i : Int × Int) : Int :=
  match c with
  | .real => i.1
  | .mono => i.2

end Verif.Compat
