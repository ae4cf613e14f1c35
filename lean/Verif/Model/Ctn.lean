/-!
# cert-to-name entries (src/server_config.c:419-458, 778-806, 3178-3360)
-/

namespace Verif.Ctn

/-- `struct nc_ctn` (src/session_p.h:245-251): the map type and the texts are numbers. -/
structure Ctn where
  id : Nat
  fingerprint : Option Nat
  mapType : Nat
  name : Option Nat
  deriving DecidableEq, Repr

/-- Going to the last entry with an id not greater than the new one and replacing or inserting there
(src/server_config.c:3239-3252). -/
def place (id : Nat) (name : Option Nat) (mt : Nat) : List Ctn → List Ctn
  | [] => [⟨id, none, mt, name⟩]
  | h :: t =>
    match t with
    | n :: _ =>
      if n.id ≤ id then h :: place id name mt t
      else if h.id = id then { h with name := name, mapType := mt } :: t
      else h :: ⟨id, none, mt, name⟩ :: t
    | [] =>
      if h.id = id then [{ h with name := name, mapType := mt }]
      else [h, ⟨id, none, mt, name⟩]

/-- `nc_server_config_create_cert_to_name` (src/server_config.c:3178-3265) for valid input. -/
def create (l : List Ctn) (id : Nat) (name : Option Nat) (mt : Nat) : List Ctn :=
  match l with
  | [] => [⟨id, none, mt, name⟩]                                   -- 3229-3231
  | h :: _ => if h.id > id then ⟨id, none, mt, name⟩ :: l else place id name mt l

/-- `nc_server_config_get_ctn` (src/server_config.c:446-454): the index of the entry with the id. -/
def get (l : List Ctn) (id : Nat) : Option Nat := l.findIdx? (fun c => c.id == id)

/-- Deleting an entry: lookup and `nc_server_config_del_ctn` (src/server_config.c:778-806, 3293-3299); `none` is an error. -/
def delete (l : List Ctn) (id : Nat) : Option (List Ctn) := (get l id).map l.eraseIdx

/-- Setting (`some`) or deleting (`none`) the fingerprint (src/server_config.c:3326-3338); the result `none` is an error. -/
def setFp (l : List Ctn) (id : Nat) (fp : Option Nat) : Option (List Ctn) :=
  (get l id).map fun i => l.modify i fun c => { c with fingerprint := fp }

end Verif.Ctn
