/-
Settings of a client kept as texts: certificates, trusted CAs, user name, file
of known hosts and search path of schemas.  Memory is modelled by blocks, so
that using freed memory and freeing twice are seen (`none`).  The settings of
one thread (or of threads sharing a context) are modelled; which context a
thread has is in `Model/ThreadCtx`.
-/
namespace Verif.ClientOpts

/-- The texts kept, src/session_p.h:352-358 (`nc_client_tls_opts`),
src/session_p.h:321-350 (`nc_client_ssh_opts`; keys are not modelled) and
src/session_client.c:283-298 (`schema_searchpath`).  The flag tells the
settings for Call Home, `tls_ch_opts` and `ssh_ch_opts`. -/
inductive Slot where
  | cert (ch : Bool)
  | key (ch : Bool)
  | caFile (ch : Bool)
  | caDir (ch : Bool)
  | user (ch : Bool)
  | hosts (ch : Bool)
  | search
deriving DecidableEq, Repr

/-- Pointers of the settings and the blocks of the heap that are allocated
(`strdup` at src/session_client_tls.c:68 and the like); `next` is a block never
used so far. -/
structure State where
  ptr : Slot → Option Nat
  mem : Nat → Option (List Char)
  next : Nat

/-- Settings of a new context: all pointers NULL, src/session_client.c:69-95 and
src/session_client.c:158-191. -/
def State.new : State := ⟨fun _ => none, fun _ => none, 0⟩

/-- An argument of a setter, src/session_client_tls.c:60-61: NULL, a text in
memory of the caller, or a pointer to a block of the library (as the getters
give, src/session_client_tls.c:93-107). -/
inductive Arg where
  | null
  | text (t : List Char)
  | block (b : Nat)
deriving DecidableEq, Repr

/-- `free` of what a setting points to, src/session_client_tls.c:65.  The
pointer stays as it is.  `none`: the block is not allocated. -/
def release (a : Slot) (s : State) : Option State :=
  match s.ptr a with
  | none => some s
  | some b =>
    match s.mem b with
    | none => none
    | some _ => some { s with mem := fun c => if c = b then none else s.mem c }

/-- Storing NULL, src/session_client_tls.c:75. -/
def clear (a : Slot) (s : State) : State :=
  { s with ptr := fun c => if c = a then none else s.ptr c }

/-- Reading the text of an argument, done by `strdup`,
src/session_client_tls.c:68.  `none`: freed memory is read. -/
def Arg.read : Arg → State → Option (List Char)
  | .null, _ => none
  | .text t, _ => some t
  | .block b, s => s.mem b

/-- `opts->x = strdup(arg)`, src/session_client_tls.c:68; `ok` tells whether
there is memory.  Gives whether it succeeded. -/
def store (a : Slot) (x : Arg) (ok : Bool) (s : State) : Option (Bool × State) :=
  match x.read s with
  | none => none
  | some t =>
    if ok then
      some (true, { ptr := fun c => if c = a then some s.next else s.ptr c
                    mem := fun c => if c = s.next then some t else s.mem c
                    next := s.next + 1 })
    else some (false, clear a s)

/-- `if (arg) opts->x = strdup(arg) else opts->x = NULL`,
src/session_client_tls.c:71-76. -/
def storeOpt (a : Slot) (x : Arg) (ok : Bool) (s : State) : Option (Bool × State) :=
  match x with
  | .null => some (true, clear a s)
  | .text t => store a (.text t) ok s
  | .block b => store a (.block b) ok s

/-- The two assignments of a setter of two texts, with the return after a
failed first one, src/session_client_tls.c:131-143. -/
def storeTwo (a b : Slot) (x y : Arg) (ok₁ ok₂ : Bool) (s : State) : Option (Bool × State) :=
  match storeOpt a x ok₁ s with
  | none => none
  | some (false, s) => some (false, s)
  | some (true, s) => storeOpt b y ok₂ s

/-- Both `free` and then the assignments, src/session_client_tls.c:128-143. -/
def replaceTwo (a b : Slot) (x y : Arg) (ok₁ ok₂ : Bool) (s : State) : Option (Bool × State) :=
  match release a s with
  | none => none
  | some s =>
    match release b s with
    | none => none
    | some s => storeTwo a b x y ok₁ ok₂ s

/-- `free` and assignment of one text, src/session_client.c:286-295,
src/session_client_ssh.c:1228-1236, src/session_client_ssh.c:796-804. -/
def replaceOne (a : Slot) (x : Arg) (ok : Bool) (s : State) : Option (Bool × State) :=
  match release a s with
  | none => none
  | some s => storeOpt a x ok s

/-- A call: `nc_client_tls_set_cert_key_paths`, `nc_client_tls_set_trusted_ca_paths`
and those for Call Home (src/session_client_tls.c:60-91, src/session_client_tls.c:121-159),
`nc_client_ssh_set_username` (src/session_client_ssh.c:1226-1251),
`nc_client_ssh_set_knownhosts_path` (src/session_client_ssh.c:794-819),
`nc_client_set_schema_searchpath` (src/session_client.c:283-298),
`nc_client_destroy` (src/session_client.c:1999-2010).  The flags tell whether
the first and second `strdup` have memory. -/
inductive Call where
  | certKey (ch : Bool) (cert key : Arg) (ok₁ ok₂ : Bool)
  | ca (ch : Bool) (file dir : Arg) (ok₁ ok₂ : Bool)
  | user (ch : Bool) (name : Arg) (ok : Bool)
  | hosts (ch : Bool) (path : Arg) (ok : Bool)
  | search (path : Arg) (ok : Bool)
  | destroy
deriving Repr

/-- `free` and NULL, for the members of one structure,
src/session_client_tls.c:46-50 and src/session_client_ssh.c:215-220.  (All
`free` come before the NULLs in the code; the pointers are different members,
so the order does not matter.) -/
def wipe : List Slot → State → Option State
  | [], s => some s
  | a :: as, s =>
    match release a s with
    | none => none
    | some s => wipe as (clear a s)

/-- The settings in the order `nc_client_destroy` frees them,
src/session_client.c:2003-2007 with src/session_client_ssh.c:223-228 and
src/session_client_tls.c:53-58. -/
def destroyOrder : List Slot :=
  [.search, .user false, .hosts false, .user true, .hosts true,
   .cert false, .key false, .caFile false, .caDir false,
   .cert true, .key true, .caFile true, .caDir true]

/-- One call: whether it succeeded and the settings after it; `none` is
undefined behaviour.  src/session_client_tls.c:60-79 (no certificate is
refused), src/session_client_tls.c:121-147 (neither file nor directory is
refused), src/session_client_ssh.c:1226-1239, src/session_client_ssh.c:794-807,
src/session_client.c:283-298, src/session_client.c:1999-2010. -/
def call : Call → State → Option (Bool × State)
  | .certKey ch c k ok₁ ok₂, s =>
    if c = .null then some (false, s)
    else replaceTwo (.cert ch) (.key ch) c k ok₁ ok₂ s
  | .ca ch f d ok₁ ok₂, s =>
    if f = .null ∧ d = .null then some (false, s)
    else replaceTwo (.caFile ch) (.caDir ch) f d ok₁ ok₂ s
  | .user ch n ok, s => replaceOne (.user ch) n ok s
  | .hosts ch p ok, s => replaceOne (.hosts ch) p ok s
  | .search p ok, s => replaceOne .search p ok s
  | .destroy, s =>
    match wipe destroyOrder s with
    | none => none
    | some s => some (true, s)

/-- Calls one after the other, src/session_client_tls.c:60-159. -/
def calls : List Call → State → Option State
  | [], s => some s
  | c :: cs, s =>
    match call c s with
    | none => none
    | some (_, s) => calls cs s

/-- What the getter of a setting gives, src/session_client_tls.c:93-107,
src/session_client_ssh.c:1253-1257, src/session_client.c:300-304: a pointer. -/
def got (a : Slot) (s : State) : Arg :=
  match s.ptr a with
  | none => .null
  | some b => .block b

/-- The text read through the pointer a getter gives,
src/session_client_tls.c:93-107. -/
def shown (a : Slot) (s : State) : Option (List Char) :=
  match s.ptr a with
  | none => none
  | some b => s.mem b

end Verif.ClientOpts
