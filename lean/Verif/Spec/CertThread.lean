import Verif.Model.CertThread

/-!
# What an application expects of starting and stopping the thread (src/session_server.h:627-650)

All of it is said of what happened, the last event first.
-/

namespace Verif.CertThread

/-- The first start with a callback and memory since the last stop, by its answer of `pthread_create` (src/session_server.h:627-650). -/
def pending : List Ev → Option Bool
  | .start c m k :: p => if c = true ∧ m = true ∧ pending p = none then some k else pending p
  | .stop _ :: _ => none
  | _ :: p => pending p
  | [] => none

/-- Threads created so far (src/session_server.h:627-643). -/
def started : List Ev → Nat
  | .start c m k :: p => if c = true ∧ m = true ∧ k = true ∧ pending p = none then started p + 1 else started p
  | _ :: p => started p
  | [] => 0

/-- No stop after a start that failed to create the thread, without a stop between them (src/session_server.h:645-650). -/
def Defined : List Ev → Prop
  | .stop _ :: p => pending p ≠ some false ∧ Defined p
  | _ :: p => Defined p
  | [] => True

/-- All stops wait (src/session_server.h:645-650). -/
def Waiting : List Ev → Prop
  | .stop w :: p => w = true ∧ Waiting p
  | _ :: p => Waiting p
  | [] => True

/-- Threads do not end by themselves and can be created (src/session_server.h:627-643). -/
def NoError : List Ev → Prop
  | .fail _ :: _ => False
  | .start _ _ k :: p => k = true ∧ NoError p
  | _ :: p => NoError p
  | [] => True

end Verif.CertThread
