import Verif.Model.ChCtx

/-!
# What an application expects of the callbacks for contexts and sessions of Call Home (src/session_server_ch.h:66-105)

All of it is said of lists of events, without the functions of the model.
-/

namespace Verif.ChCtx

/-- Contexts the application handed out (src/session_server_ch.h:66-73). -/
def acquisitions (t : List Ev) : Nat := t.countP fun e => e == .acquired true

/-- Contexts it was given back (src/session_server_ch.h:75-81). -/
def releases (t : List Ev) : Nat := t.countP fun e => e == .released

/-- Sessions created (src/session_server.c:2724). -/
def creations (t : List Ev) : Nat := t.countP fun e => match e with | .created _ => true | _ => false

/-- Sessions the library freed (src/session_server.c:2781, 2820). -/
def frees (t : List Ev) : Nat := t.countP fun e => match e with | .freed _ => true | _ => false

/-- Sessions the application has taken; their contexts are its own business (src/session_server_ch.h:83-92). -/
def taken (t : List Ev) : Nat := t.countP fun e => match e with | .given _ true => true | _ => false

/-- At any time there are as many contexts not given back as sessions not freed by the library (src/session_server_ch.h:70): no session is
without a context. -/
def Covered (t : List Ev) : Prop := ∀ p q, t = p ++ q → releases p + creations p ≤ acquisitions p + frees p

/-- The event has to do with the session, whose memory it needs (src/session_server.c:2781, 2812, 2820, src/log.c:104-106). -/
def touches (n : Nat) : Ev → Bool
  | .created m | .freed m | .given m _ | .userFreed m | .used m => m == n
  | _ => false

/-- A session that was freed, by whomever, is not touched any more (src/session.c:1021). -/
def NoUseAfterFree (t : List Ev) : Prop := ∀ n p q, (t = p ++ .freed n :: q ∨ t = p ++ .userFreed n :: q) → ∀ e ∈ q, touches n e = false

end Verif.ChCtx
