import Verif.Model.ConnRes

/-! # What becomes of the sockets and the memory of a connection -/

namespace Verif.ConnRes

/-- What is allocated belongs to the rest of the program. -/
def Others (live : List Tok) : Prop := ∀ t ∈ live, ∃ n, t = .other n

/-- A result leaves exactly `live` behind if there is no session, and closing a session leaves exactly `live` behind; nothing is freed twice. -/
def Clean (lib : Lib) (live : List Tok) : Out → Prop
  | none => False
  | some (none, l) => l = live
  | some (some s, l) => freeAll (s.frees lib) l = some live

/-- If there is a session, closing it leaves exactly `live` behind. -/
def Closes (lib : Lib) (live : List Tok) (o : Out) : Prop := ∀ s l, o = some (some s, l) → freeAll (s.frees lib) l = some live

/-- If there is no session, exactly `live` is left behind. -/
def Releases (live : List Tok) (o : Out) : Prop := ∀ l, o = some (none, l) → l = live

/-- If there is no session, the socket is not left open. -/
def ClosesSock (o : Out) : Prop := ∀ l, o = some (none, l) → Tok.sock ∉ l

/-- Nothing is freed or closed twice. -/
def Once (o : Out) : Prop := o ≠ none

/-- There is a session. -/
def Up (o : Out) : Prop := ∃ s l, o = some (some s, l)

end Verif.ConnRes
