import Verif.Model.Endpoints

/-!
# Endpoint references (src/server_config.c:2670-2800)
-/

namespace Verif.References

open Verif.Endpoints (Ti)

/-- The fields of an endpoint used by the check (src/session_p.h:508-524). -/
structure Ep where
  name : Nat
  ti : Ti
  ref : Option Nat
  deriving DecidableEq, Repr

/-- `nc_server_get_referenced_endpt` (src/session_server.c:115-129): index of the first endpoint with that name. -/
def lookup (eps : List Ep) (n : Nat) : Option Nat := eps.findIdx? (fun e => e.name == n)

/-- `nc_server_config_check_endpt_reference_cycle` (src/server_config.c:2670-2690): `some true` is the return value 1, `some false` is 0;
`none` means that more than `fuel` calls are needed. -/
def cycle (eps : List Ep) (original : Nat) : (fuel : Nat) → (next : Ep) → Option Bool
  | 0, _ => none
  | fuel + 1, next =>
    match next.ref with
    | none => some false
    | some r =>
      if original = r then some true
      else
        match lookup eps r with
        | none => some true
        | some j =>
          match eps[j]? with
          | none => some true
          | some e => cycle eps original fuel e

/-- The check of the listening endpoint at index `i` (src/server_config.c:2706-2746). -/
def checkListen (eps : List Ep) (fuel : Nat) (i : Nat) (e : Ep) : Option Bool :=
  match e.ref with
  | none => some false
  | some r =>
    match lookup eps r with
    | none => some true
    | some j =>
      match eps[j]? with
      | none => some true
      | some d =>
        if i = j then some true
        else if e.ti ≠ d.ti then some true
        else if d.ti ≠ .ssh ∧ d.ti ≠ .tls then some true
        else cycle eps e.name fuel d

/-- The check of a Call Home endpoint (src/server_config.c:2756-2784). -/
def checkCh (eps : List Ep) (fuel : Nat) (e : Ep) : Option Bool :=
  match e.ref with
  | none => some false
  | some r =>
    match lookup eps r with
    | none => some true
    | some j =>
      match eps[j]? with
      | none => some true
      | some d =>
        if e.ti ≠ d.ti then some true
        else if d.ti ≠ .ssh ∧ d.ti ≠ .tls then some true
        else cycle eps d.name fuel d

/-- The two loops: the first check that fails (or does not finish) decides (src/server_config.c:2703, 2752-2755). -/
def firstBad : List (Option Bool) → Option Bool
  | [] => some false
  | none :: _ => none
  | some true :: _ => some true
  | some false :: l => firstBad l

/-- `nc_server_config_check_endpt_references` (src/server_config.c:2697-2800) for listening endpoints `eps` and Call Home endpoints `chs`. -/
def check (eps chs : List Ep) (fuel : Nat) : Option Bool :=
  firstBad (eps.mapIdx (checkListen eps fuel) ++ chs.map (checkCh eps fuel))

end Verif.References
