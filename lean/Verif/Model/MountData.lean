/-!
# Contexts and schema-mount data of client sessions on one SSH connection (src/session_client.c:228-281, 1204-1266, src/session_client_ssh.c:1872-1933, src/session.c:934-953, 1009-1011)

A session has a context of its own, which is destroyed with it, or one of the application's. The data about mounted schemas, if any, are kept in the session and found by a callback of the
context, which is given the session. The sessions of the connection are in the order of their ring.

Simplified: one thread, so that all other sessions of the ring are past their handshake when one is freed. A further session whose channel cannot be opened is freed without a context
(src/session_client_ssh.c:1899-1905) and has no event here.
-/

namespace Verif.MountData

/-- A context: one of the application or the `k`-th one made by the library (src/session_client.c:256-278). -/
inductive Ctx where
  | app (k : Nat)
  | lib (k : Nat)
  deriving DecidableEq, Repr

/-- A session (src/session_p.h:738-752): `shared` is `NC_SESSION_SHAREDCTX`, `ext` are its `opts.client.ext_data`, numbered in the order in which they are received. -/
structure Sess where
  id : Nat
  shared : Bool
  ctx : Ctx
  ext : Option Nat
  deriving DecidableEq, Repr

/-- All that is followed (src/session_client.c:252-281, 1258-1261, src/session.c:934-953, 1009-1011): the ring, how many sessions, contexts and data there were, the callback data of the contexts made by the
library, contexts destroyed and data freed. -/
structure St where
  ring : List Sess
  sessions : Nat
  ctxs : Nat
  datas : Nat
  clb : List (Nat × Nat)
  destroyed : List Nat
  freed : List Nat
  deriving DecidableEq, Repr

/-- `nc_client_session_new_ctx` for the next session (src/session_client.c:252-281): its structure, and the state with the new context, if none is given. -/
def newSess (s : St) : Option Ctx → Sess × St
  | some c => (⟨s.sessions, true, c, none⟩, { s with sessions := s.sessions + 1 })
  | none => (⟨s.sessions, false, .lib s.ctxs, none⟩, { s with sessions := s.sessions + 1, ctxs := s.ctxs + 1, clb := s.clb ++ [(s.ctxs, s.sessions)] })

/-- The first session of the connection (src/session_client_ssh.c:1835-1839). -/
def first (c : Option Ctx) : St :=
  let r := newSess ⟨[], 0, 0, 0, [], [], []⟩ c
  { r.2 with ring := [r.1] }

/-- The ring with a session after `x` (src/session_client_ssh.c:1889-1897). -/
def ins (l : List Sess) (x : Nat) (n : Sess) : List Sess := l.flatMap fun y => if y.id = x then [y, n] else [y]

/-- The session after `x` in the ring, `none` if it is the only one (src/session.c:938-939). -/
def succ (l : List Sess) (x : Nat) : Option Sess := ((l.dropWhile fun y => y.id ≠ x).tail ++ l.takeWhile fun y => y.id ≠ x).head?

/-- A session gets data (src/session.c:943, src/session_client.c:1260). -/
def setExt (l : List Sess) (i : Nat) (e : Option Nat) : List Sess := l.map fun y => if y.id = i then { y with ext := e } else y

/-- The context destroyed with a session, if any (src/session.c:1009-1011). -/
def destroys (x : Sess) : List Nat :=
  match x.shared, x.ctx with
  | false, .lib k => [k]
  | _, _ => []

/-- `nc_session_free` of `x` (src/session.c:934-953, 1009-1011): `none` is a failed assertion; without assertions (`NDEBUG`) the data of the other session are overwritten. -/
def freeSess (asserts : Bool) (s : St) (x : Sess) : Option St :=
  let done (s : St) : St := { s with ring := s.ring.filter fun y => y.id ≠ x.id, destroyed := s.destroyed ++ destroys x }
  match x.shared, succ s.ring x.id with
  | true, some o =>
    if asserts && o.ext.isSome then none
    else some (done { s with ring := setExt s.ring o.id x.ext })
  | _, _ => some (done { s with freed := s.freed ++ x.ext.toList })

/-- What happens (src/session_client_ssh.c:1872-1933, src/session_client.c:1204-1266, src/session.c:846): a further session after `x`, with a context of the application or none, which fails in its
handshake or not; schema-mount data of `x` are received; `x` is freed. -/
inductive Ev where
  | channel (x : Nat) (c : Option Ctx) (ok : Bool)
  | mount (x : Nat)
  | free (x : Nat)
  deriving DecidableEq, Repr

/-- One event (src/session_client_ssh.c:1872-1933, src/session_client.c:1204-1266, src/session.c:934-953); nothing happens if there is no such session. -/
def step (asserts : Bool) (s : St) : Ev → Option St
  | .channel x c ok =>
    if s.ring.any fun y => y.id = x then
      let r := newSess s c
      let t := { r.2 with ring := ins s.ring x r.1 }
      if ok then some t else freeSess asserts t r.1
    else some s
  | .mount x =>
    match s.ring.find? fun y => y.id = x with
    | none => some s
    | some y =>
      if y.shared then some s
      else some { s with ring := setExt s.ring x (some s.datas), datas := s.datas + 1, freed := s.freed ++ y.ext.toList }
  | .free x =>
    match s.ring.find? fun y => y.id = x with
    | none => some s
    | some y => freeSess asserts s y

/-- Events in their order, up to a failed assertion (src/session_client_ssh.c:1872-1933, src/session_client.c:1204-1266, src/session.c:934-953). -/
def run (asserts : Bool) : St → List Ev → Option St
  | s, [] => some s
  | s, e :: h => (step asserts s e).bind fun t => run asserts t h

end Verif.MountData
