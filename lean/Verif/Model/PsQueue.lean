/-!
# The lock of a poll structure (src/session_server.c:1032-1186)

A thread takes an 8-bit ticket, puts it at the end of a ring buffer and may enter when its ticket is at the head.
All accesses happen under `ps->lock`, so each event below is atomic; `pthread_mutex_lock` is assumed to succeed.
-/

namespace Verif.PsQueue

/-- `NC_PS_QUEUE_SIZE`: default of `MAX_PSPOLL_THREAD_COUNT` (CMakeLists.txt:99, src/config.h.in:76). -/
def qsize : Nat := 6

/-- The ring buffer fields of `struct nc_pollsession` (src/session_p.h:802-804). Only indices below `qsize` are used. -/
structure Ring where
  queue : Nat → Nat
  beg : Nat
  len : Nat

/-- Writing one slot (src/session_server.c:1053, 1072). -/
def upd (q : Nat → Nat) (k v : Nat) : Nat → Nat := fun j => if j = k then v else q j

/-- `nc_ps_queue_add_id` (src/session_server.c:1032-1054) for a queue that is not full: the ticket and the new ring. -/
def addId (r : Ring) : Nat × Ring :=
  let id := if r.len ≠ 0 then (r.queue ((r.beg + r.len - 1) % qsize) + 1) % 256 else 0
  let last := (r.beg + (r.len + 1) - 1) % qsize
  (id, ⟨upd r.queue last id, r.beg, r.len + 1⟩)

/-- The loop of `nc_ps_queue_remove_id` (src/session_server.c:1061-1083): `n` iterations left, `i` the loop
variable, `found` as in the code; the result is the final `found` and the ring contents. -/
def removeLoop (beg id : Nat) : (n i found : Nat) → (q : Nat → Nat) → Nat × (Nat → Nat)
  | 0, _, f, q => (f, q)
  | n + 1, i, f, q =>
    let k := (beg + i) % qsize
    if f ≠ 0 then
      removeLoop beg id n (i + 1) f (if f = 2 then upd q (if k ≠ 0 then k - 1 else qsize - 1) (q k) else q)
    else if q k = id then removeLoop beg id n (i + 1) (if i = 0 then 1 else 2) q
    else removeLoop beg id n (i + 1) 0 q

/-- `nc_ps_queue_remove_id` (src/session_server.c:1056-1094). -/
def removeId (r : Ring) (id : Nat) : Ring :=
  let (f, q) := removeLoop r.beg id r.len 0 0 r.queue
  if f = 0 then { r with queue := q }
  else ⟨q, if f = 1 then (r.beg + 1) % qsize else r.beg, r.len - 1⟩

/-- `ps->queue[ps->queue_begin]` (src/session_server.c:1122, 1163). -/
def head (r : Ring) : Nat := r.queue r.beg

/-- What a thread inside `nc_ps_lock` .. `nc_ps_unlock` does (src/session_server.c:1121-1147): it owns the structure,
sleeps on the condition variable, or has been woken and will test its turn. -/
inductive TSt where
  | owner
  | asleep
  | awake
  deriving DecidableEq, Repr

/-- One call of `nc_ps_lock` in progress or successful and not yet unlocked; `call` numbers the calls. (src/session_server.c:1096-1147) -/
structure Thr where
  call : Nat
  id : Nat
  st : TSt
  deriving DecidableEq, Repr

/-- The system: ring, the present threads in order of their calls, number of calls made so far. (src/session_p.h:794-805) -/
structure Sys where
  ring : Ring
  thr : List Thr
  calls : Nat

/-- A new poll structure (`calloc`, src/session_server.c:1193). -/
def init : Sys := ⟨⟨fun _ => 0, 0, 0⟩, [], 0⟩

/-- Events: a call of `nc_ps_lock`; the condition wait of a call returns 0 after it was woken; it wakes up spuriously;
it times out; the owner calls `nc_ps_unlock`. (src/session_server.c:1096-1186) -/
inductive Ev where
  | enter
  | wake (c : Nat)
  | spurious (c : Nat)
  | timeout (c : Nat)
  | unlock (c : Nat)
  deriving DecidableEq, Repr

/-- The thread of call `c`. (src/session_server.c:1096-1186) -/
def find (s : Sys) (c : Nat) : Option Thr := s.thr.find? (·.call == c)

/-- Changing the state of the thread of call `c`. (src/session_server.c:1121-1147) -/
def setSt (l : List Thr) (c : Nat) (st : TSt) : List Thr := l.map fun t => if t.call = c then { t with st := st } else t

/-- The outcome an event has for its caller. (src/session_server.c:1096-1186) -/
inductive Out where
  | none
  | acquired
  | failed
  | released
  | error
  deriving DecidableEq, Repr

/-- One event (src/session_server.c:1096-1186).  Events that are not possible change nothing. -/
def step (s : Sys) : Ev → Out × Sys
  | .enter =>
    if s.ring.len = qsize then (.failed, { s with calls := s.calls + 1 })        -- 1110-1114
    else
      let (id, r) := addId s.ring
      if head r = id then (.acquired, ⟨r, s.thr ++ [⟨s.calls, id, .owner⟩], s.calls + 1⟩)
      else (.none, ⟨r, s.thr ++ [⟨s.calls, id, .asleep⟩], s.calls + 1⟩)
  | .wake c =>
    match find s c with
    | some t =>
      if t.st = .awake then
        if head s.ring = t.id then (.acquired, { s with thr := setSt s.thr c .owner })
        else (.none, { s with thr := setSt s.thr c .asleep })
      else (.none, s)
    | none => (.none, s)
  | .spurious c =>
    match find s c with
    | some t => if t.st = .asleep then (.none, { s with thr := setSt s.thr c .awake }) else (.none, s)
    | none => (.none, s)
  | .timeout c =>
    match find s c with
    | some t =>
      if t.st = .owner then (.none, s)
      else if head s.ring = t.id then (.acquired, { s with thr := setSt s.thr c .owner })   -- 1132-1133
      else (.failed, { s with ring := removeId s.ring t.id, thr := s.thr.filter (·.call != c) })
    | none => (.none, s)
  | .unlock c =>
    match find s c with
    | some t =>
      if t.st = .owner then
        if head s.ring ≠ t.id then (.error, { s with thr := s.thr.filter (·.call != c) })   -- 1163-1169
        else
          (.released, { s with
            ring := removeId s.ring t.id
            thr := (s.thr.filter (·.call != c)).map fun t => if t.st = .asleep then { t with st := .awake } else t })
      else (.none, s)
    | none => (.none, s)

/-- A whole execution. (src/session_server.c:1096-1186) -/
def run (s : Sys) : List Ev → Sys
  | [] => s
  | e :: es => run (step s e).2 es

end Verif.PsQueue
