/-!
# Socket functions given to mbedTLS (src/session_mbedtls.c:840-900)
-/

namespace Verif.TlsIo

/-- The `errno` values told apart (src/session_mbedtls.c:857-864, 888-895). -/
inductive Errno where
  | ewouldblock | eagain | eintr | epipe | econnreset | other
  deriving DecidableEq, Repr

/-- What mbedTLS is told: data moved (0 is the end of the stream for receiving), try again, connection lost, or failed (src/session_mbedtls.c:856-867, 887-898). -/
inductive Io where
  | count (n : Nat)
  | want
  | connReset
  | failed
  deriving DecidableEq, Repr

/-- `nc_server_tls_send` and `nc_server_tls_recv` (src/session_mbedtls.c:847-868, 878-899): the condition `(errno == EWOULDBLOCK) || (errno = EAGAIN) || …`
contains an assignment; its value EAGAIN is not 0. The result of `send`/`recv` is a count or an error. -/
def ioStep (r : Except Errno Nat) : Io :=
  match r with
  | .ok n => .count n
  | .error e =>
    let assigned : Errno := .eagain                                 -- the value of `errno = EAGAIN`
    if e = .ewouldblock ∨ assigned = .eagain ∨ assigned = .eintr then .want
    else if assigned = .epipe ∨ assigned = .econnreset then .connReset
    else .failed

end Verif.TlsIo
