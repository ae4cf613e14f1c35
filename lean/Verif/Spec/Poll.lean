/-!
# Results of `nc_ps_poll` and reasons for the end of a session as applications see them

The values of the public headers (src/session_server.h:336-347 and src/netconf.h:54-63), written down apart from the model.
-/

namespace Verif.Spec

/-- Bits of the result of `nc_ps_poll`: nothing happened in time. -/
def bitTimeout : Nat := 0x2
/-- An RPC was processed. -/
def bitRpc : Nat := 0x4
/-- An RPC could not be parsed. -/
def bitBadRpc : Nat := 0x8
/-- The reply was an error. -/
def bitReplyError : Nat := 0x10
/-- A session ended. -/
def bitTerm : Nat := 0x20
/-- It ended neither closed nor killed. -/
def bitSessError : Nat := 0x40
/-- Another error. -/
def bitError : Nat := 0x80

/-- Reasons for the end of a session: it has not ended. -/
def whyNone : Nat := 0
/-- Closed by the client. -/
def whyClosed : Nat := 1
/-- Killed by another session. -/
def whyKilled : Nat := 2
/-- The connection was lost. -/
def whyDropped : Nat := 3
/-- The client was idle. -/
def whyTimeout : Nat := 4
/-- Anything else. -/
def whyOther : Nat := 6

end Verif.Spec
