import Verif.Model.TlsIo

namespace Verif.Props

open Verif.TlsIo

/-- What an error means for the connection: it may go away by itself, or not. -/
def Transient (e : Errno) : Prop := e = .ewouldblock ∨ e = .eagain ∨ e = .eintr

/-- C79, partial: moved data are reported as they are, and errors that go away as such. -/
theorem mbedtls_io_partial (r : Except Errno Nat) (h : ∀ e, r = .error e → Transient e) :
    (∀ n, r = .ok n → ioStep r = .count n) ∧ (∀ e, r = .error e → ioStep r = .want) := by
  refine ⟨?_, ?_⟩
  · rintro n rfl; rfl
  · rintro e rfl
    simp [ioStep]

example : ioStep (.ok 5) = .count 5 ∧ ioStep (.error .eintr) = .want := by decide

/-- C79 is false with mbedTLS: every error, a lost connection too, is reported as one that goes away. -/
theorem mbedtls_io_false : (∀ e, ioStep (.error e) = .want) ∧ ∃ e, ¬ Transient e ∧ ioStep (.error e) = .want :=
  ⟨fun e => by cases e <;> rfl, .econnreset, by simp [Transient], rfl⟩

end Verif.Props
