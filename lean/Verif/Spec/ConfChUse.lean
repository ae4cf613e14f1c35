import Verif.Spec.ConfSetup
import Verif.Model.ConfChUse

/-!
# What the application wants that configures Call Home by function calls
-/

namespace Verif.ConfChUse
open Verif.ConfUtil (Text)
open Verif.ConfEndpt (Ti)

/-- Transport, address and port of an endpoint. -/
abbrev EpWant := Ti × Text × Nat

/-- When a client is to be connected to. -/
inductive ConnWant where
  | persistent
  | periodic (period : Option Nat) (anchor : Option Text) (idle : Option Nat)

/-- How to connect: where to start, the time to wait and the number of attempts. -/
structure RsWant where
  start : Nat
  wait : Option Nat
  attempts : Option Nat

/-- A client: endpoints in the order to try them. -/
structure ClientWant where
  eps : List (Text × EpWant)
  conn : Option ConnWant
  rs : Option RsWant

/-- Nothing is said of a client. -/
def ClientWant.empty : ClientWant := ⟨[], none, none⟩

/-- What is said of an endpoint. -/
def lookup (l : List (Text × EpWant)) (e : Text) : Option EpWant := (l.find? (fun x => x.1 == e)).map Prod.snd

/-- An endpoint keeps its place; a new one is the last. -/
def setEp (l : List (Text × EpWant)) (e : Text) (w : EpWant) : List (Text × EpWant) :=
  if (lookup l e).isSome then l.map (fun x => if x.1 == e then (e, w) else x) else l ++ [(e, w)]

/-- The other endpoints. -/
def delEp (l : List (Text × EpWant)) (e : Text) : List (Text × EpWant) := l.filter (fun x => !(x.1 == e))

/-- Period, anchor time and idle timeout; a client that is not connected to periodically has none. -/
def ConnWant.parts : Option ConnWant → Option Nat × Option Text × Option Nat
  | some (.periodic p a i) => (p, a, i)
  | _ => (none, none, none)

/-- The client of a call. -/
def Call.client : Call → Text
  | .addr c .. | .delEndpt c _ | .delClient c | .persistent c | .period c _ | .delPeriod c | .anchor c _ | .delAnchor c | .idle c _ | .delIdle c
  | .strategy c .. | .delStrategy c => c

/-- What a call says of its client. -/
def Call.apply (w : Option ClientWant) : Call → Option ClientWant
  | .addr _ e t a p => some { w.getD .empty with eps := setEp (w.getD .empty).eps e (t, a, p) }
  | .delEndpt _ e => w.map (fun x => { x with eps := delEp x.eps e })
  | .delClient _ => none
  | .persistent _ => some { w.getD .empty with conn := some .persistent }
  | .period _ n => some { w.getD .empty with conn := let q := ConnWant.parts (w.bind ClientWant.conn); some (.periodic (some n) q.2.1 q.2.2) }
  | .delPeriod _ => w.map (fun x => { x with conn := x.conn.map (fun | .periodic _ a i => .periodic none a i | .persistent => .persistent) })
  | .anchor _ t => some { w.getD .empty with conn := let q := ConnWant.parts (w.bind ClientWant.conn); some (.periodic q.1 (some t) q.2.2) }
  | .delAnchor _ => w.map (fun x => { x with conn := x.conn.map (fun | .periodic p _ i => .periodic p none i | .persistent => .persistent) })
  | .idle _ n => some { w.getD .empty with conn := let q := ConnWant.parts (w.bind ClientWant.conn); some (.periodic q.1 q.2.1 (some n)) }
  | .delIdle _ => w.map (fun x => { x with conn := x.conn.map (fun | .periodic p a _ => .periodic p a none | .persistent => .persistent) })
  | .strategy _ s wt at' => some { w.getD .empty with rs := some ⟨s,
      if wt = 0 then (w.bind ClientWant.rs).bind RsWant.wait else some wt, if at' = 0 then (w.bind ClientWant.rs).bind RsWant.attempts else some at'⟩ }
  | .delStrategy _ => w.map (fun x => { x with rs := none })

/-- What is wanted of a client after the calls. -/
def wanted (cs : List Call) (c : Text) : Option ClientWant :=
  cs.foldl (fun w x => if x.client = c then x.apply w else w) none

/-- Names can be put between apostrophes. -/
def Call.good : Call → Prop
  | .addr c e .. | .delEndpt c e => '\'' ∉ c ∧ '\'' ∉ e
  | c => '\'' ∉ c.client

/-- An endpoint that has a transport is not given another one without being deleted before. -/
def Steady (cs : List Call) : Prop :=
  ∀ pre c e t a p post, cs = pre ++ .addr c e t a p :: post → ∀ w x, wanted pre c = some w → lookup w.eps e = some x → x.1 = t

/-- It is said when to connect. -/
def Timed (cs : List Call) : Prop := ∀ c w, wanted cs c = some w → w.conn.isSome

/-- The server connects to the endpoint as wanted. -/
def EpOk (C : Codes) (x : ConfCh.Ep) (w : Text × EpWant) : Prop :=
  x.name = some (C.name w.1) ∧ x.ti = some w.2.1 ∧ x.dstAddr = some (C.addr w.2.2.1) ∧ x.dstPort = w.2.2.2 ∧ x.srcAddr = none ∧ x.srcPort = 0

/-- Connections are made when wanted. -/
def ConnOk (C : Codes) (o : ConfCh.Opt) : Option ConnWant → Prop
  | none => True
  | some .persistent => o.conn = .persist
  | some (.periodic p a i) => o.conn = .period ∧ o.period = p.getD 60 ∧ o.anchor = (a.map C.time).getD 0 ∧ o.idle = i.getD 180

/-- They are tried as wanted. -/
def RsOk (o : ConfCh.Opt) (r : Option RsWant) : Prop :=
  o.startWith = (r.map RsWant.start).getD 0 ∧ o.maxWait = (r.bind RsWant.wait).getD 5 ∧ o.maxAttempts = (r.bind RsWant.attempts).getD 3

/-- The server calls the client as wanted: its endpoints in this order. -/
def ClientOk (C : Codes) (x : ConfCh.Client) (w : ClientWant) : Prop :=
  x.eps.length = w.eps.length ∧ (∀ (i : Nat) y v, x.eps[i]? = some y → w.eps[i]? = some v → EpOk C y v) ∧ ConnOk C x.opt w.conn ∧ RsOk x.opt w.rs

/-- What a function deletes is there, the place to start is known, and it is not the first call of all that says when to connect: `first` tells if there were no
calls. -/
def Call.possible (w : Option ClientWant) (first : Bool) : Call → Prop
  | .delEndpt _ e => ∃ x y, w = some x ∧ lookup x.eps e = some y
  | .delClient _ => ∃ x, w = some x
  | .persistent _ | .period .. | .anchor .. | .idle .. => first = false
  | .delPeriod _ => ∃ x p a i, w = some x ∧ x.conn = some (.periodic (some p) a i)
  | .delAnchor _ => ∃ x p a i, w = some x ∧ x.conn = some (.periodic p (some a) i)
  | .delIdle _ => ∃ x p a i, w = some x ∧ x.conn = some (.periodic p a (some i))
  | .delStrategy _ => ∃ x r, w = some x ∧ x.rs = some r
  | .strategy _ s _ _ => s ≤ 2
  | .addr .. => True

end Verif.ConfChUse
