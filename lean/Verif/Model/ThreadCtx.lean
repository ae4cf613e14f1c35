/-!
# Thread contexts of the client (session_client.c)

A context is a memory block with a 32-bit reference count.  Context 0 is the static one of the main thread, which is thread 0.  `none` as the result of an operation is
undefined behaviour: access to a freed context.  Simplification: only the reference count of a context is modelled; `malloc` gives a fresh address.
-/

namespace Verif.ThreadCtx

/-- The contexts with their reference counts (`none`: not allocated), the thread-specific values, the next fresh address and the freed contexts in order
(src/session_p.h:381-392, src/session_client.c:66-67). -/
structure St where
  refc : Nat → Option Nat
  cur : Nat → Option Nat
  fresh : Nat
  freed : List Nat

/-- Change of a function at one argument (src/session_client.c:225, assignment of a value). -/
def upd {α : Type} (f : Nat → α) (a : Nat) (v : α) : Nat → α := fun x => if x = a then v else f x

/-- The state before any call: only the static context, with count 0 (src/session_client.c:69-95). -/
def init : St := ⟨upd (fun _ => none) 0 (some 0), fun _ => none, 1, []⟩

/-- `nc_client_context_free` (src/session_client.c:97-137). -/
def release (c : Nat) (s : St) : Option St :=
  match s.refc c with
  | none => none
  | some r =>
    let r' := (r + (2 ^ 32 - 1)) % 2 ^ 32
    if r' ≠ 0 then some { s with refc := upd s.refc c (some r') }
    else if c ≠ 0 then some { s with refc := upd s.refc c none, freed := s.freed ++ [c] }
    else some { s with refc := upd s.refc c (some r') }

/-- `nc_client_context_location` (src/session_client.c:149-195). -/
def location (t : Nat) (s : St) : Nat × St :=
  match s.cur t with
  | some c => (c, s)
  | none =>
    if t = 0 then (0, { s with cur := upd s.cur t (some 0) })
    else (s.fresh, { s with refc := upd s.refc s.fresh (some 1), cur := upd s.cur t (some s.fresh), fresh := s.fresh + 1 })

/-- Increase of the reference count (src/session_client.c:224). -/
def acquire (c : Nat) (s : St) : Option St :=
  match s.refc c with
  | none => none
  | some r => some { s with refc := upd s.refc c (some ((r + 1) % 2 ^ 32)) }

/-- `nc_client_set_thread_context` with a context (src/session_client.c:205-226). -/
def setCtx (t c : Nat) (s : St) : Option St :=
  let (old, s) := location t s
  if old = c then some s
  else
    match release old s with
    | none => none
    | some s =>
      match acquire c s with
      | none => none
      | some s => some { s with cur := upd s.cur t (some c) }

/-- The end of a thread: the destructor of the key is called unless the value is NULL (src/session_client.c:139-147, 97). -/
def exit (t : Nat) (s : St) : Option St :=
  match s.cur t with
  | none => some s
  | some c => release c { s with cur := upd s.cur t none }

/-- Operations: any use of the context or `nc_client_get_thread_context`, `nc_client_set_thread_context`, end of a thread (src/session_client.c:200, 206, 98). -/
inductive Op | use (t : Nat) | set (t c : Nat) | exit (t : Nat)
  deriving DecidableEq, Repr

/-- One operation (src/session_client.c:200, 206, 98). -/
def step (s : St) : Op → Option St
  | .use t => some (location t s).2
  | .set t c => setCtx t c s
  | .exit t => ThreadCtx.exit t s

/-- A sequence of operations (src/session_client.c:200, 206, 98). -/
def run : List Op → St → Option St
  | [], s => some s
  | o :: os, s => match step s o with
    | none => none
    | some s' => run os s'

/-! ## Two threads at the same time -/

/-- Parts of `new->refcount++` in a thread (src/session_client.c:224): reading the count and writing the increased one. -/
inductive Part | load (t : Nat) | store (t : Nat)
  deriving DecidableEq, Repr

/-- Runs the parts of increments of one count by several threads, without any lock or atomic operation (src/session_client.c:224); `regs` holds what a thread has read. -/
def incs : List Part → (Nat → Nat) → Nat → Nat
  | [], _, r => r
  | .load t :: ps, regs, r => incs ps (upd regs t r) r
  | .store t :: ps, regs, _ => incs ps regs ((regs t + 1) % 2 ^ 32)

end Verif.ThreadCtx
