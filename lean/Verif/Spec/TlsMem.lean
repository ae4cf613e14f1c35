import Verif.Model.TlsMem

/-! # What the Mbed TLS wrappers may leave allocated -/

namespace Verif.TlsMem

/-- Nothing is allocated at addresses that were never used. -/
def Heap.Sound (h : Heap) : Prop := ∀ i, h.top ≤ i → h.cell i = .dead

/-- Compared with `h`, exactly the structures of `ret` are allocated in addition in `h'`; each of them is initialised and not linked to others, every
other structure is as it was, and no memory of the library was lost. -/
def Leaves (h : Heap) (ret : List Nat) (h' : Heap) : Prop :=
  h'.Sound ∧ h'.lost = h.lost ∧ ret.Nodup ∧ (∀ i, i ∈ ret → h.top ≤ i) ∧
  (∀ i, i ∉ ret → h'.cell i = h.cell i) ∧ (∀ i, i ∈ ret → ∃ o, h'.cell i = .init o none)

/-- A function ends without undefined behaviour, with a result and a heap as wanted. -/
def Gives {α : Type} (x : Option (α × Heap)) (P : α → Heap → Prop) : Prop := ∃ a h, x = some (a, h) ∧ P a h

/-- The structures two pointers point to. -/
def both : Option (Ptr × Ptr) → List Nat
  | none => []
  | some (p, q) => p.toList ++ q.toList

/-- The calls of a handshake: one for each certificate of the chain, that of the peer last; the texts of Mbed TLS for verification errors are not empty
and fit the buffer. -/
def Handshake (calls : List Call) : Prop :=
  ∃ pre last, calls = pre ++ [last] ∧ last.depth = 0 ∧ (∀ c, c ∈ pre → c.depth ≠ 0) ∧
    ∀ c, c ∈ calls → ∀ info, c.verdict = .printed info → info ≠ 0 ∧ info ≤ 256

end Verif.TlsMem
