/-!
# A poll structure used by several threads (src/session_server.c:1260-1290, 2013-2152)

`nc_ps_poll` keeps a pointer to the array element (`cur_ps_session`) while it processes an RPC after it gave up the lock of the structure.
Elements are memory blocks with an identity.
-/

namespace Verif.PsConc

/-- An allocated `struct nc_ps_session` and its session (src/session_p.h:784-792). -/
structure Elem where
  block : Nat
  sess : Nat
  deriving DecidableEq, Repr

/-- The array, the number of blocks allocated so far and the elements that polling threads hold outside of the lock (src/session_server.c:2059, 2117). -/
structure State where
  elems : List Elem
  next : Nat
  held : List Elem
  deriving DecidableEq, Repr

/-- A new poll structure (src/session_server.c:1188-1199). -/
def init : State := ⟨[], 0, []⟩

/-- One atomic section of a thread (under the lock of the structure, or the end of an RPC). (src/session_server.c:1225, 1288, 2059-2117, 2120-2149) -/
inductive Act where
  | add (s : Nat)
  | del (s : Nat)
  | select (i : Nat)
  | finish (k : Nat)
  deriving DecidableEq, Repr

/-- The effect (src/session_server.c:1237-1283, 2059-2145); `none` is an access to freed memory. -/
def step (st : State) : Act → Option State
  /- src/session_server.c:1237-1254 -/
  | .add s => some { st with elems := st.elems ++ [⟨st.next, s⟩], next := st.next + 1 }
  /- src/session_server.c:1270-1283 -/
  | .del s =>
    match st.elems.findIdx? (fun e => e.sess == s), st.elems.getLast? with
    | some i, some l => some { st with elems := (st.elems.set i l).dropLast }
    | _, _ => some st
  /- a poll finds an RPC on the session at an index; a session with the RPC lock taken is skipped (src/session_server.c:2059-2083, 2117) -/
  | .select i =>
    match st.elems[i]? with
    | some e => if st.held.any (fun h => h.sess == e.sess) then some st else some { st with held := st.held ++ [e] }
    | none => some st
  /- the RPC was processed and the state of the element is written (src/session_server.c:2125-2145) -/
  | .finish k =>
    match st.held[k]? with
    | some e => if e ∈ st.elems then some { st with held := st.held.eraseIdx k } else none
    | none => some st

end Verif.PsConc
