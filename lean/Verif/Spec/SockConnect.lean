import Verif.Model.SockConnect

/-! # Notions for the properties of connecting to a host -/

namespace Verif.SockConnect

/-- Sockets have different numbers, all used before. -/
def WF (w : World) : Prop :=
  (∀ x ∈ w.socks, x.1 < w.next) ∧ (∀ x ∈ w.socks, ∀ y ∈ w.socks, x.1 = y.1 → x = y)

/-- The address answers: it can be connected to at once. -/
def answers (x : Nat × Ans) : Prop := x.2.setup = .started ∧ x.2.wait = .up

/-- The address leaves the connection open: neither success nor failure within the timeout. -/
def hangs (x : Nat × Ans) : Prop := x.2.setup = .started ∧ x.2.wait = .timeout

/-- The addresses of an attempt. -/
def Attempt.list (a : Attempt) : List Nat := (a.addrs.getD []).map Prod.fst

/-- The endpoint has no socket but the pending one. -/
def Holds (w : World) (p : Option Nat) : Prop :=
  WF w ∧ (∀ x ∈ w.socks, p = some x.1) ∧ (∀ f, p = some f → ∃ a, (f, a) ∈ w.socks)

/-- Two attempts differ only in what comes after the first address of the host. -/
def sameFirst (a b : Attempt) : Prop :=
  a.pend = b.pend ∧ a.last = b.last ∧ (a.addrs.getD []).head? = (b.addrs.getD []).head?

/-- The first address of the host leaves every connection open: no attempt on it succeeds. -/
def firstHangs (a : Attempt) : Prop :=
  (∃ x rest, a.addrs = some (x :: rest) ∧ hangs x) ∧ a.pend.1 ≠ .up

end Verif.SockConnect
