/-!
# Call Home binds of the client (src/session_client.c:1802-1890)
-/

namespace Verif.ClientBind

/-- A bind with its auxiliary data (src/session_p.h `struct nc_bind`, `struct nc_client_bind_aux`; src/session_client.c:1828-1833); `sock` identifies the socket. -/
structure Bind where
  addr : String
  port : Nat
  ti : Nat
  sock : Nat
  deriving DecidableEq, Repr

/-- The array and the closed sockets in order (src/session_client.c:1845-1886). -/
structure State where
  binds : List Bind
  closed : List Nat
  deriving DecidableEq, Repr

/-- `nc_client_ch_add_bind_listen` for a socket that could be created (src/session_client.c:1802-1837). -/
def addBind (st : State) (b : Bind) : State := { st with binds := st.binds ++ [b] }

/-- The filter of `nc_client_ch_del_bind`; address NULL, port 0 and transport 0 match everything (src/session_client.c:1863-1865). -/
def selected (addr : Option String) (port ti : Nat) (b : Bind) : Bool :=
  (match addr with
   | none => true
   | some a => b.addr == a) &&
  (port == 0 || b.port == port) && (ti == 0 || b.ti == ti)

/-- The filtered loop (src/session_client.c:1862-1886): the last bind replaces a deleted one and the index advances. `fuel` bounds the iterations. -/
def delLoop (sel : Bind → Bool) : (fuel i : Nat) → State → Bool → State × Bool
  | 0, _, st, ret => (st, ret)
  | fuel + 1, i, st, ret =>
    match st.binds[i]? with
    | none => (st, ret)
    | some b =>
      if sel b then
        match st.binds.getLast? with
        | some l => delLoop sel fuel (i + 1) ⟨(st.binds.set i l).dropLast, st.closed ++ [b.sock]⟩ true
        | none => (st, ret)
      else delLoop sel fuel (i + 1) st ret

/-- `nc_client_ch_del_bind` (src/session_client.c:1839-1890); the result is `true` for 0. -/
def delBind (st : State) (addr : Option String) (port ti : Nat) : State × Bool :=
  if addr = none ∧ port = 0 ∧ ti = 0 then (⟨[], st.closed ++ st.binds.map (·.sock)⟩, !st.binds.isEmpty)
  else delLoop (selected addr port ti) (st.binds.length + 1) 0 st false

end Verif.ClientBind
