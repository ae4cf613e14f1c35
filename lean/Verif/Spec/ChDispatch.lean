import Verif.Model.ChDispatch

/-!
# Which threads call a client (src/session_server_ch.h:94-122)

All of it is said of what happened, the last event first.
-/

namespace Verif.ChDispatch

/-- The callbacks set last; a call without one of the callbacks is refused (src/session_server_ch.h:109-122). -/
def dataOf : List Ev → Option Data
  | .set (some a) (some r) x (some n) y :: _ => some ⟨a, r, x, n, y⟩
  | _ :: p => dataOf p
  | [] => none

/-- The client is configured (src/session_server_ch.h:50-56). -/
def configured (c : Nat) : List Ev → Bool
  | .create d _ :: p => d == c || configured c p
  | .delete d :: p => !(d == c) && configured c p
  | _ :: p => configured c p
  | [] => false

/-- The threads dispatched for the client since it was created: one when it was created, if callbacks were set, then those the application asked for
(src/session_server_ch.h:94-122). -/
def calls (c : Nat) : List Ev → List Data
  | .create d ok :: p => if d = c then (if ok then (dataOf p).toList else []) else calls c p
  | .dispatch d x ok :: p => if d = c ∧ configured c p = true ∧ ok = true then calls c p ++ [x] else calls c p
  | .delete d :: p => if d = c then [] else calls c p
  | _ :: p => calls c p
  | [] => []

/-- The threads dispatched for clients of this name deleted since, but the last one of each (src/server_config.c:926-930). -/
def orphans (c : Nat) : List Ev → List Data
  | .delete d :: p => if d = c then orphans c p ++ (calls c p).dropLast else orphans c p
  | _ :: p => orphans c p
  | [] => []

/-- A client is created only if it is not configured (the names are keys of a list, src/server_config.c:3482-3508). -/
def Keyed : List Ev → Prop
  | .create c _ :: p => configured c p = false ∧ Keyed p
  | _ :: p => Keyed p
  | [] => True

/-- Only clients with a thread are deleted (src/server_config.c:919). -/
def Safe : List Ev → Prop
  | .delete c :: p => (configured c p = true → calls c p ≠ []) ∧ Safe p
  | _ :: p => Safe p
  | [] => True

/-- The application dispatches threads only for clients without one (src/session_server_ch.h:94-107). -/
def Once : List Ev → Prop
  | .dispatch c _ _ :: p => calls c p = [] ∧ Once p
  | _ :: p => Once p
  | [] => True

/-- Callbacks were set before any client was created, and there was a thread for each (src/session_server_ch.h:109-122). -/
def Automatic : List Ev → Prop
  | .create _ ok :: p => ok = true ∧ dataOf p ≠ none ∧ Automatic p
  | _ :: p => Automatic p
  | [] => True

/-- The callbacks of the threads that run for a client (src/session_server.c:2989). -/
def threadsOf (w : World) (c : Nat) : List Data := (w.threads.filter (fun t => t.client == c)).map Thread.data

end Verif.ChDispatch
