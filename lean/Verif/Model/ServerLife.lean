/-!
# Settings of a server and their end (src/session_server.c:798-983, src/session_server_ssh.c:971-1040, src/session_server_tls.c:660-664)

The settings made by functions (not by configuration data) in `server_opts`, which is never reset as a whole: `nc_server_init` and `nc_server_destroy` change single members.
Callbacks, data and texts are numbers. What the library does with the data of the application is a log. Simplification: memory and locks are there.
-/

namespace Verif.ServerLife

/-- A callback with its data and whether there is a function to free it (src/session_p.h:482-485, 492-494). -/
structure Clb where
  clb : Option Nat := none
  data : Option Nat := none
  free : Bool := false
  deriving DecidableEq, Repr

/-- What happens to data of the application (src/session_server.c:884, 911, src/session.c:1181, src/session_server_ssh.c:1319): a callback is called with it, or it is freed. -/
inductive Ev where
  | call (clb : Nat) (data : Option Nat)
  | free (data : Nat)
  deriving DecidableEq, Repr

/-- The members of `server_opts` that functions set (src/session_p.h:475-497, 586) and the log. -/
structure Srv where
  wdBasic : Nat := 0
  wdAlso : Nat := 0
  caps : List Nat := []
  content : Clb := {}
  inter : Clb := {}
  verify : Option Nat := none
  pam : Option Nat := none
  keyPath : Option Nat := none
  nextId : Nat := 0
  log : List Ev := []
  deriving DecidableEq, Repr

/-- `nc_server_init` (src/session_server.c:798-869). -/
def init (s : Srv) : Srv := { s with nextId := 1 }

/-- Freeing data (src/session_server.c:883-885, 910-912). -/
def freeData (c : Clb) (log : List Ev) : List Ev :=
  match c.data with
  | some d => if c.free = true then log ++ [.free d] else log
  | none => log

/-- `nc_server_destroy` (src/session_server.c:871-921), without the configuration. -/
def destroy (s : Srv) : Srv :=
  let s1 := { s with caps := [] }
  let s2 := { s1 with log := freeData s1.content s1.log }
  let s3 := { s2 with keyPath := none, pam := none }
  let s4 := { s3 with log := freeData s3.inter s3.log }
  { s4 with inter := { s4.inter with data := none, free := false } }

/-- Capability announced: one of the same name is there already (`add_cpblt`, src/session.c:1024-1058); here texts without `?`. -/
def addCap (l : List Nat) (c : Nat) : List Nat := if l.contains c = true then l else l ++ [c]

/-- What a server announces of its settings (src/session.c:1122-1200, Hello has all of it). -/
structure Hello where
  wdBasic : Nat
  wdAlso : Nat
  caps : List Nat
  contentId : Option (Nat × Option Nat)
  deriving DecidableEq, Repr

/-- The `<hello>` of the server (src/session.c:1122-1200). -/
def hello (s : Srv) : Hello := ⟨s.wdBasic, s.wdAlso, s.caps.foldl addCap [], s.content.clb.map (fun c => (c, s.content.data))⟩

/-- A function called by the application, or a client connecting (src/session_server.c:798-983, src/session_server_ssh.c:971-1040, 1318-1319, src/session_server_tls.c:660-664). -/
inductive Op where
  | init
  | destroy
  | withDefaults (basic also : Nat)
  | capability (c : Nat)
  | contentId (clb data : Option Nat) (free : Bool)
  | interactive (clb data : Option Nat) (free : Bool)
  | verify (clb : Option Nat)
  | pam (name : Nat)
  | keyPath (path : Nat)
  | client
  | clientInteractive
  deriving DecidableEq, Repr

/-- Calling a callback if it is set (src/session.c:1180-1181, src/session_server_ssh.c:1318-1319). -/
def callClb (c : Clb) (log : List Ev) : List Ev :=
  match c.clb with
  | some f => log ++ [.call f c.data]
  | none => log

/-- One operation (src/session_server.c:798-983, src/session_server_ssh.c:971-1040, src/session.c:1180, src/session_server_tls.c:660-664). Wrong modes are refused
(src/session_server.c:926-932): NC_WD_ALL_TAG is 2, all modes together are 7 (src/netconf.h:100-106). -/
def step (s : Srv) : Op → Srv
  | .init => init s
  | .destroy => destroy s
  | .withDefaults b a => if (b = 0 ∨ b = 2) ∨ (a ≠ 0 ∧ a &&& 7 = 0) then s else { s with wdBasic := b, wdAlso := a }
  | .capability c => { s with caps := s.caps ++ [c] }
  | .contentId c d f => { s with content := ⟨c, d, f⟩ }
  | .interactive c d f => { s with inter := ⟨c, d, f⟩ }
  | .verify c => { s with verify := c }
  | .pam n => { s with pam := some n }
  | .keyPath p => { s with keyPath := some p }
  | .client => { s with log := callClb s.content s.log, nextId := s.nextId + 1 }
  | .clientInteractive => { s with log := callClb s.inter s.log }

/-- A program (src/session_server.c:798-983). -/
def run (ops : List Op) (s : Srv) : Srv := ops.foldl step s

end Verif.ServerLife
