import Verif.Spec.ManyThreads
import Verif.Lemmas.ServerRpc

/-! # Lemmas for many threads working on one session -/

namespace Verif.ManyThreads
open NcErr ServerRpc
open Verif.Poll (Status tNone tClosed tKilled tDropped tOther tTimeout)

/-! ## Steps as a relation -/

/-- Moves of one thread that do not touch anything shared. -/
inductive Quiet : Pc → Pc → Prop
  | poll1 : Quiet .poll .pollLock
  | poll2 : Quiet .poll .unlock
  | pollLate : Quiet .pollLock .unlock
  | recv1 : Quiet .recv .read
  | recv2 : Quiet .recv .unlock
  | read1 : Quiet .read .readLock
  | read2 : Quiet .read .unlock
  | readLate : Quiet .readLock .unlock

/-- The branches of `step`. -/
inductive Moves (cf : Conf) (s : St) (t : Nat) : Act → St → Prop
  | setStatus (st : Status) : Moves cf s t (.setStatus st) { s with status := st }
  | setReason (re : Nat) : Moves cf s t (.setReason re) { s with reason := re }
  | skip (hp : s.pc t = .idle) : Moves cf s t .poll s
  | take (hp : s.pc t = .idle) (hr : s.rpc = none) : Moves cf s t .poll ({ s with rpc := some t }.at t .poll)
  | notify (n : Nat) (hp : s.pc t = .idle) : Moves cf s t (.notify n) (s.at t (.write .notif (.notif n)))
  | quiet (a : Act) (p : Pc) (hp : Quiet (s.pc t) p) : Moves cf s t a (s.at t p)
  | expire (hp : s.pc t = .pollLock) : Moves cf s t .expire ({ s with status := .invalid, reason := tTimeout }.at t .unlock)
  | pollIo (hp : s.pc t = .pollLock) (hi : s.io = none) : Moves cf s t .lock ({ s with io := some t }.at t .polling)
  | data (hp : s.pc t = .polling) : Moves cf s t .data ({ s with io := none }.at t .recv)
  | nodata (hp : s.pc t = .polling) : Moves cf s t .nodata ({ s with io := none }.at t .unlock)
  | hup (hp : s.pc t = .polling) : Moves cf s t .hup ({ s with io := none, status := .invalid, reason := tDropped }.at t .unlock)
  | readIo (hp : s.pc t = .readLock) (hi : s.io = none) : Moves cf s t .lock ({ s with io := some t }.at t .reading)
  | read (r : Read) (rest : List Read) (hp : s.pc t = .reading) (hi : s.inp = r :: rest) : Moves cf s t .go ((readEnd s r rest).at t (.parse r))
  | parse (r : Read) (hp : s.pc t = .parse r) : Moves cf s t .go (s.at t (parsed cf.srv s.v11 r))
  | call0 (e : Envp) (op : ServerRpc.Op) (p : Pc) (hp : s.pc t = .call e op) (hc : calling cf.srv e op = (p, none)) : Moves cf s t .go (s.at t p)
  | call1 (e : Envp) (op : ServerRpc.Op) (p : Pc) (c : Nat) (hp : s.pc t = .call e op) (hc : calling cf.srv e op = (p, some c)) :
      Moves cf s t .go ({ s with calls := s.calls ++ [(c, op)] }.at t p)
  | ret (e : Envp) (op : ServerRpc.Op) (c : Nat) (hp : s.pc t = .inCb e op c) : Moves cf s t .go
      ({ s with status := (cf.srv.run c op s.status s.reason).status, reason := (cf.srv.run c op s.status s.reason).reason }.at t
        (answerCb e (cf.srv.run c op s.status s.reason).reply))
  | write1 (a : Caller) (m : Msg) (hp : s.pc t = .write a m) : Moves cf s t .go (s.at t (.writeLock a m))
  | write2 (a : Caller) (m : Msg) (hp : s.pc t = .write a m) (ho : s.open = false) : Moves cf s t .go (s.at t (.wrote a false))
  | writeIo (a : Caller) (m : Msg) (hp : s.pc t = .writeLock a m) (hi : s.io = none) :
      Moves cf s t .lock ({ s with io := some t }.at t (.writing a m [] (cf.pieces m) true))
  | writeLate (a : Caller) (m : Msg) (hp : s.pc t = .writeLock a m) : Moves cf s t .lateWrite (s.at t (.wrote a false))
  | finish (a : Caller) (m : Msg) (ok : Bool) (hp : s.pc t = .writing a m [] [] ok) :
      Moves cf s t .go ({ s with io := none, out := if ok then s.out ++ [m] else s.out }.at t (.wrote a s.open))
  | next (a : Caller) (m : Msg) (p : List Byte) (rest : List (List Byte)) (ok : Bool) (hp : s.pc t = .writing a m [] (p :: rest) ok) (ho : s.open = true) :
      Moves cf s t .go (s.at t (.writing a m p rest ok))
  | accept (a : Caller) (m : Msg) (b : Byte) (cur : List Byte) (rest : List (List Byte)) (ok : Bool) (n : Nat)
      (hp : s.pc t = .writing a m (b :: cur) rest ok) :
      Moves cf s t (.accept n) ({ s with wire := s.wire ++ (b :: cur).take n }.at t (.writing a m ((b :: cur).drop n) rest ok))
  | failIgn (a : Caller) (m : Msg) (b : Byte) (cur : List Byte) (rest : List (List Byte)) (ok inv : Bool) (hp : s.pc t = .writing a m (b :: cur) rest ok) :
      Moves cf s t (.fail inv true) ({ s with status := if inv then .invalid else s.status, reason := if inv then tDropped else s.reason }.at t
        (.writing a m [] rest false))
  | fail (a : Caller) (m : Msg) (b : Byte) (cur : List Byte) (rest : List (List Byte)) (ok inv : Bool) (hp : s.pc t = .writing a m (b :: cur) rest ok) :
      Moves cf s t (.fail inv false) ({ s with status := if inv then .invalid else s.status, reason := if inv then tDropped else s.reason, io := none }.at t
        (.wrote a false))
  | refuseIgn (a : Caller) (m : Msg) (p : List Byte) (rest : List (List Byte)) (ok : Bool) (hp : s.pc t = .writing a m [] (p :: rest) ok) (ho : s.open = false) :
      Moves cf s t (.refuse true) (s.at t (.writing a m [] rest false))
  | refuse (a : Caller) (m : Msg) (p : List Byte) (rest : List (List Byte)) (ok : Bool) (hp : s.pc t = .writing a m [] (p :: rest) ok) (ho : s.open = false) :
      Moves cf s t (.refuse false) ({ s with io := none }.at t (.wrote a false))
  | wroteNotif (ok : Bool) (hp : s.pc t = .wrote .notif ok) : Moves cf s t .go (s.at t .idle)
  | wroteRecv (hp : s.pc t = .wrote .recv false) : Moves cf s t .go ({ s with status := .invalid, reason := tOther }.at t .unlock)
  | wrote (a : Caller) (ok : Bool) (hp : s.pc t = .wrote a ok) (ha : a ≠ .notif) : Moves cf s t .go (s.at t .unlock)
  | wroteEnd (ok : Bool) (hp : s.pc t = .wrote .send ok) : Moves cf s t .go ({ s with status := .invalid }.at t .unlock)
  | unlock (hp : s.pc t = .unlock) : Moves cf s t .go ({ s with rpc := none }.at t .idle)

theorem step_moves {cf : Conf} {s : St} {t : Nat} {a : Act} {s' : St} (h : step cf s t a = some s') : Moves cf s t a s' := by
  unfold step at h
  generalize hp : s.pc t = p at h
  split at h
  · cases h; exact .setStatus _
  · cases h; exact .setReason _
  · split at h <;> cases h
    · exact .take hp ‹_›
    · exact .skip hp
  · cases h; exact .notify _ hp
  · cases h; exact .quiet _ _ (hp ▸ by split <;> constructor)
  · cases h; exact .expire hp
  · split at h <;> cases h; exact .pollIo hp ‹_›
  · cases h; exact .quiet _ _ (hp ▸ .pollLate)
  · split at h <;> cases h; exact .data hp
  · cases h; exact .nodata hp
  · cases h; exact .hup hp
  · cases h; exact .quiet _ _ (hp ▸ by split <;> constructor)
  · cases h; exact .quiet _ _ (hp ▸ by split <;> constructor)
  · split at h <;> cases h; exact .readIo hp ‹_›
  · cases h; exact .quiet _ _ (hp ▸ .readLate)
  · split at h <;> cases h; exact .read _ _ hp ‹_›
  · cases h; exact .parse _ hp
  · split at h <;> cases h
    · exact .call0 _ _ _ hp ‹_›
    · exact .call1 _ _ _ _ hp ‹_›
  · cases h; exact .ret _ _ _ hp
  · cases h
    cases ho : s.open
    · exact .write2 _ _ hp ho
    · exact .write1 _ _ hp
  · split at h <;> cases h; exact .writeIo _ _ hp ‹_›
  · cases h; exact .writeLate _ _ hp
  · cases h; exact .finish _ _ _ hp
  · split at h <;> cases h; exact .next _ _ _ _ _ hp ‹_›
  · cases h; exact .accept _ _ _ _ _ _ _ hp
  · rename_i ign
    cases h
    cases ign
    · exact .fail _ _ _ _ _ _ _ hp
    · exact .failIgn _ _ _ _ _ _ _ hp
  · rename_i ign
    split at h <;> cases h
    rename_i hno
    have ho : s.open = false := by simpa using hno
    cases ign
    · exact .refuse _ _ _ _ _ hp ho
    · exact .refuseIgn _ _ _ _ _ hp ho
  · cases h; exact .wroteNotif _ hp
  · cases h
    split
    · rename_i hh; rw [hh.1] at hp; exact .wroteRecv hp
    · exact .wrote _ _ hp (by simp)
  · cases h
    split
    · exact .wroteEnd _ hp
    · exact .wrote _ _ hp (by simp)
  · cases h; exact .unlock hp
  · cases h

/-! ## The locks -/

/-- The thread holds the RPC lock. -/
def holdsRpc : Pc → Bool
  | .idle => false
  | .write .notif _ => false
  | .writeLock .notif _ => false
  | .writing .notif _ _ _ _ => false
  | .wrote .notif _ => false
  | _ => true

/-- The thread holds the IO lock. -/
def holdsIo : Pc → Bool
  | .polling => true
  | .reading => true
  | .writing _ _ _ _ _ => true
  | _ => false

/-- Every thread that should have a lock is its holder, and no other one. -/
def Locks (s : St) : Prop := ∀ u, (holdsRpc (s.pc u) = true ↔ s.rpc = some u) ∧ (holdsIo (s.pc u) = true ↔ s.io = some u)

theorem at_pc (s : St) (t u : Nat) (p : Pc) : (s.at t p).pc u = if u = t then p else s.pc u := rfl
theorem at_self (s : St) (t : Nat) (p : Pc) : (s.at t p).pc t = p := by simp [at_pc]

theorem locks_update {s s1 : St} {t : Nat} {p : Pc} (h : Locks s) (hpc : s1.pc = s.pc)
    (hr : (holdsRpc p = true ∧ s1.rpc = some t ∧ (s.rpc = none ∨ s.rpc = some t)) ∨
      (holdsRpc p = false ∧ ((s1.rpc = s.rpc ∧ s.rpc ≠ some t) ∨ (s.rpc = some t ∧ s1.rpc = none))))
    (hi : (holdsIo p = true ∧ s1.io = some t ∧ (s.io = none ∨ s.io = some t)) ∨
      (holdsIo p = false ∧ ((s1.io = s.io ∧ s.io ≠ some t) ∨ (s.io = some t ∧ s1.io = none)))) : Locks (s1.at t p) := by
  intro u
  rw [at_pc]
  change _ ∧ (_ ↔ s1.io = some u)
  change (_ ↔ s1.rpc = some u) ∧ _
  have hu := h u
  rw [hpc]
  by_cases e : u = t
  · subst e
    rw [if_pos rfl]
    constructor
    · rcases hr with ⟨a, b, _⟩ | ⟨a, ⟨b, c⟩ | ⟨b, c⟩⟩ <;> simp_all
    · rcases hi with ⟨a, b, _⟩ | ⟨a, ⟨b, c⟩ | ⟨b, c⟩⟩ <;> simp_all
  · rw [if_neg e]
    have e' : ¬ t = u := fun x => e x.symm
    constructor
    · rw [hu.1]
      rcases hr with ⟨a, b, c | c⟩ | ⟨a, ⟨b, c⟩ | ⟨b, c⟩⟩ <;> simp [b, c, e']
    · rw [hu.2]
      rcases hi with ⟨a, b, c | c⟩ | ⟨a, ⟨b, c⟩ | ⟨b, c⟩⟩ <;> simp [b, c, e']

theorem answer_holds (a : Caller) (ha : a ≠ .notif) (e : Option Envp) (r : Reply) :
    holdsRpc (answer a e r) = true ∧ holdsIo (answer a e r) = false := by
  unfold answer
  cases a <;> split <;> simp_all [holdsRpc, holdsIo]

theorem answerErr_holds (e : Option Envp) (r : Option Err) : holdsRpc (answerErr e r) = true ∧ holdsIo (answerErr e r) = false := by
  unfold answerErr
  split
  · exact ⟨rfl, rfl⟩
  · exact answer_holds _ (by simp) _ _

theorem answerCb_holds (e : Envp) (r : Option Reply) : holdsRpc (answerCb e r) = true ∧ holdsIo (answerCb e r) = false := by
  unfold answerCb
  split
  · exact ⟨rfl, rfl⟩
  · exact answer_holds _ (by simp) _ _

theorem parsed_holds (srv : Srv) (v11 : Bool) (r : Read) : holdsRpc (parsed srv v11 r) = true ∧ holdsIo (parsed srv v11 r) = false := by
  unfold parsed
  split
  · exact ⟨rfl, rfl⟩
  · exact ⟨rfl, rfl⟩
  · exact answerErr_holds _ _
  · split
    · exact ⟨rfl, rfl⟩
    · exact answerErr_holds _ _
  · split
    · exact ⟨rfl, rfl⟩
    · exact answerErr_holds _ _

theorem calling_holds (srv : Srv) (e : Envp) (op : ServerRpc.Op) :
    holdsRpc (calling srv e op).1 = true ∧ holdsIo (calling srv e op).1 = false := by
  unfold calling
  split
  · exact ⟨rfl, rfl⟩
  · split
    · dsimp only; exact answerCb_holds _ _
    · exact ⟨rfl, rfl⟩
    · exact ⟨rfl, rfl⟩

theorem quiet_holds {p q : Pc} (h : Quiet p q) : holdsRpc p = true ∧ holdsRpc q = true ∧ holdsIo p = false ∧ holdsIo q = false := by
  cases h <;> exact ⟨rfl, rfl, rfl, rfl⟩

theorem locks_step {cf : Conf} {s : St} {t : Nat} {a : Act} {s' : St} (hl : Locks s) (h : Moves cf s t a s') : Locks s' := by
  have ht := hl t
  cases h with
  | setStatus st => exact hl
  | setReason re => exact hl
  | skip hp => exact hl
  | take hp hr => rw [hp] at ht; exact locks_update hl rfl (by simp_all [holdsRpc]) (by simp_all [holdsIo])
  | notify n hp => rw [hp] at ht; exact locks_update hl rfl (by simp_all [holdsRpc]) (by simp_all [holdsIo])
  | quiet a p hp =>
    obtain ⟨h1, h2, h3, h4⟩ := quiet_holds hp
    exact locks_update hl rfl (by simp_all) (by simp_all)
  | expire hp => rw [hp] at ht; exact locks_update hl rfl (by simp_all [holdsRpc]) (by simp_all [holdsIo])
  | pollIo hp hi => rw [hp] at ht; exact locks_update hl rfl (by simp_all [holdsRpc]) (by simp_all [holdsIo])
  | data hp => rw [hp] at ht; exact locks_update hl rfl (by simp_all [holdsRpc]) (by simp_all [holdsIo])
  | nodata hp => rw [hp] at ht; exact locks_update hl rfl (by simp_all [holdsRpc]) (by simp_all [holdsIo])
  | hup hp => rw [hp] at ht; exact locks_update hl rfl (by simp_all [holdsRpc]) (by simp_all [holdsIo])
  | readIo hp hi => rw [hp] at ht; exact locks_update hl rfl (by simp_all [holdsRpc]) (by simp_all [holdsIo])
  | read r rest hp hi =>
    rw [hp] at ht
    have e : (readEnd s r rest).pc = s.pc ∧ (readEnd s r rest).rpc = s.rpc ∧ (readEnd s r rest).io = none := by
      unfold readEnd; split <;> exact ⟨rfl, rfl, rfl⟩
    exact locks_update hl e.1 (by simp_all [holdsRpc]) (by simp_all [holdsIo])
  | parse r hp =>
    rw [hp] at ht
    obtain ⟨h1, h2⟩ := parsed_holds cf.srv s.v11 r
    exact locks_update hl rfl (by simp_all [holdsRpc]) (by simp_all [holdsIo])
  | call0 e op p hp hc =>
    rw [hp] at ht
    obtain ⟨h1, h2⟩ := calling_holds cf.srv e op
    rw [hc] at h1 h2
    exact locks_update hl rfl (by simp_all [holdsRpc]) (by simp_all [holdsIo])
  | call1 e op p c hp hc =>
    rw [hp] at ht
    obtain ⟨h1, h2⟩ := calling_holds cf.srv e op
    rw [hc] at h1 h2
    exact locks_update hl rfl (by simp_all [holdsRpc]) (by simp_all [holdsIo])
  | ret e op c hp =>
    rw [hp] at ht
    obtain ⟨h1, h2⟩ := answerCb_holds e (cf.srv.run c op s.status s.reason).reply
    exact locks_update hl rfl (by simp_all [holdsRpc]) (by simp_all [holdsIo])
  | write1 a m hp => rw [hp] at ht; cases a <;> exact locks_update hl rfl (by simp_all [holdsRpc]) (by simp_all [holdsIo])
  | write2 a m hp ho => rw [hp] at ht; cases a <;> exact locks_update hl rfl (by simp_all [holdsRpc]) (by simp_all [holdsIo])
  | writeIo a m hp hi => rw [hp] at ht; cases a <;> exact locks_update hl rfl (by simp_all [holdsRpc]) (by simp_all [holdsIo])
  | writeLate a m hp => rw [hp] at ht; cases a <;> exact locks_update hl rfl (by simp_all [holdsRpc]) (by simp_all [holdsIo])
  | finish a m ok hp => rw [hp] at ht; cases a <;> exact locks_update hl rfl (by simp_all [holdsRpc]) (by simp_all [holdsIo])
  | next a m p rest ok hp ho => rw [hp] at ht; cases a <;> exact locks_update hl rfl (by simp_all [holdsRpc]) (by simp_all [holdsIo])
  | accept a m b cur rest ok n hp => rw [hp] at ht; cases a <;> exact locks_update hl rfl (by simp_all [holdsRpc]) (by simp_all [holdsIo])
  | failIgn a m b cur rest ok inv hp => rw [hp] at ht; cases a <;> exact locks_update hl rfl (by simp_all [holdsRpc]) (by simp_all [holdsIo])
  | fail a m b cur rest ok inv hp => rw [hp] at ht; cases a <;> exact locks_update hl rfl (by simp_all [holdsRpc]) (by simp_all [holdsIo])
  | refuseIgn a m p rest ok hp ho => rw [hp] at ht; cases a <;> exact locks_update hl rfl (by simp_all [holdsRpc]) (by simp_all [holdsIo])
  | refuse a m p rest ok hp ho => rw [hp] at ht; cases a <;> exact locks_update hl rfl (by simp_all [holdsRpc]) (by simp_all [holdsIo])
  | wroteNotif ok hp => rw [hp] at ht; exact locks_update hl rfl (by simp_all [holdsRpc]) (by simp_all [holdsIo])
  | wroteRecv hp => rw [hp] at ht; exact locks_update hl rfl (by simp_all [holdsRpc]) (by simp_all [holdsIo])
  | wrote a ok hp ha => rw [hp] at ht; cases a <;> first | exact absurd rfl ha | exact locks_update hl rfl (by simp_all [holdsRpc]) (by simp_all [holdsIo])
  | wroteEnd ok hp => rw [hp] at ht; exact locks_update hl rfl (by simp_all [holdsRpc]) (by simp_all [holdsIo])
  | unlock hp => rw [hp] at ht; exact locks_update hl rfl (by simp_all [holdsRpc]) (by simp_all [holdsIo])

/-! ## Replies belong to RPCs, notifications to other threads -/

/-- Threads sending notifications send nothing else, and no others send them. -/
def KindOk : Pc → Prop
  | .write a m => a = .notif ↔ ∃ n, m = .notif n
  | .writeLock a m => a = .notif ↔ ∃ n, m = .notif n
  | .writing a m _ _ _ => a = .notif ↔ ∃ n, m = .notif n
  | _ => True

/-- The same for all threads. -/
def Kinds (s : St) : Prop := ∀ u, KindOk (s.pc u)

theorem answer_kind (a : Caller) (ha : a ≠ .notif) (e : Option Envp) (r : Reply) : KindOk (answer a e r) := by
  unfold answer
  split
  · trivial
  · simp [KindOk, ha]

theorem answerErr_kind (e : Option Envp) (r : Option Err) : KindOk (answerErr e r) := by
  unfold answerErr
  split
  · trivial
  · exact answer_kind _ (by simp) _ _

theorem answerCb_kind (e : Envp) (r : Option Reply) : KindOk (answerCb e r) := by
  unfold answerCb
  split
  · trivial
  · exact answer_kind _ (by simp) _ _

theorem parsed_kind (srv : Srv) (v11 : Bool) (r : Read) : KindOk (parsed srv v11 r) := by
  unfold parsed
  split
  · trivial
  · trivial
  · exact answerErr_kind _ _
  · split
    · trivial
    · exact answerErr_kind _ _
  · split
    · trivial
    · exact answerErr_kind _ _

theorem calling_kind (srv : Srv) (e : Envp) (op : ServerRpc.Op) : KindOk (calling srv e op).1 := by
  unfold calling
  split
  · trivial
  · split
    · dsimp only; exact answerCb_kind _ _
    · trivial
    · trivial

theorem kinds_at {s s1 : St} {t : Nat} {p : Pc} (h : Kinds s) (hpc : s1.pc = s.pc) (hp : KindOk p) : Kinds (s1.at t p) := by
  intro u
  rw [at_pc]
  split
  · exact hp
  · rw [hpc]; exact h u

theorem quiet_kind {p q : Pc} (h : Quiet p q) : KindOk q := by cases h <;> trivial

theorem kinds_step {cf : Conf} {s : St} {t : Nat} {a : Act} {s' : St} (hk : Kinds s) (h : Moves cf s t a s') : Kinds s' := by
  have ht := hk t
  cases h with
  | setStatus st => exact hk
  | setReason re => exact hk
  | skip hp => exact hk
  | notify n hp => exact kinds_at hk rfl (by simp [KindOk])
  | quiet a p hp => exact kinds_at hk rfl (quiet_kind hp)
  | read r rest hp hi =>
    refine kinds_at hk ?_ trivial
    unfold readEnd; split <;> rfl
  | parse r hp => exact kinds_at hk rfl (parsed_kind _ _ _)
  | call0 e op p hp hc => exact kinds_at hk rfl (by have := calling_kind cf.srv e op; rwa [hc] at this)
  | call1 e op p c hp hc => exact kinds_at hk rfl (by have := calling_kind cf.srv e op; rwa [hc] at this)
  | ret e op c hp => exact kinds_at hk rfl (answerCb_kind _ _)
  | write1 a m hp => rw [hp] at ht; exact kinds_at hk rfl ht
  | writeIo a m hp hi => rw [hp] at ht; exact kinds_at hk rfl ht
  | next a m p rest ok hp ho => rw [hp] at ht; exact kinds_at hk rfl ht
  | accept a m b cur rest ok n hp => rw [hp] at ht; exact kinds_at hk rfl ht
  | failIgn a m b cur rest ok inv hp => rw [hp] at ht; exact kinds_at hk rfl ht
  | refuseIgn a m p rest ok hp ho => rw [hp] at ht; exact kinds_at hk rfl ht
  | take | expire | pollIo | data | nodata | hup | readIo | write2 | writeLate | finish | fail | refuse | wroteNotif | wroteRecv | wrote | wroteEnd | unlock =>
    exact kinds_at hk rfl trivial

theorem working_holds {p : Pc} (h : Working p) (hk : KindOk p) : holdsRpc p = true := by
  have nn : ∀ {a : Caller} {m : Msg}, (∃ x, m = .reply x) → (a = .notif ↔ ∃ n, m = .notif n) → a ≠ .notif := by
    rintro a m ⟨x, rfl⟩ h2 e
    obtain ⟨n, hn⟩ := h2.1 e
    cases hn
  cases p with
  | write a m => have := nn h hk; cases a <;> first | rfl | exact absurd rfl this
  | writeLock a m => have := nn h hk; cases a <;> first | rfl | exact absurd rfl this
  | writing a m cur rest ok => have := nn h hk; cases a <;> first | rfl | exact absurd rfl this
  | wrote a ok => exact h.elim
  | idle => exact h.elim
  | _ => rfl

/-! ## Messages read, callbacks called and replies written -/

/-- What the holder of the RPC lock is doing: `done` are the messages dealt with, `cs` the calls made for them. -/
def Now (srv : Srv) (v11 all : Bool) (got : List Read) (calls : List (Nat × ServerRpc.Op)) (done : List Read) (cs : List (Nat × ServerRpc.Op)) : Pc → Prop
  | .parse r => got = done ++ [r] ∧ calls = cs
  | .call e op => got = done ++ [.parsed e op] ∧ HasId e ∧ calls = cs
  | .inCb e op c => got = done ++ [.parsed e op] ∧ HasId e ∧ Serves srv op c ∧ calls = cs ++ [(c, op)]
  | .write _ m => ∃ r x, m = .reply x ∧ got = done ++ [r] ∧ Right srv v11 r x ∧ CallsFor srv (done ++ [r]) calls
  | .writeLock _ m => ∃ r x, m = .reply x ∧ got = done ++ [r] ∧ Right srv v11 r x ∧ CallsFor srv (done ++ [r]) calls
  | .writing _ m _ _ ok => (all = true → ok = true) ∧
      ∃ r x, m = .reply x ∧ got = done ++ [r] ∧ Right srv v11 r x ∧ CallsFor srv (done ++ [r]) calls
  | .ub => ∃ r, got = done ++ [r] ∧ CallsFor srv (done ++ [r]) calls
  | _ => got = done ∧ calls = cs

/-- The same for the holder of the lock, if there is one. -/
def NowSt (srv : Srv) (all : Bool) (s : St) (done : List Read) (cs : List (Nat × ServerRpc.Op)) : Prop :=
  match s.rpc with
  | none => s.got = done ∧ s.calls = cs
  | some t => Now srv s.v11 all s.got s.calls done cs (s.pc t)

/-- Replies and calls fit to the messages read. -/
def Hist (srv : Srv) (all : Bool) (s : St) : Prop :=
  ∃ done cs, Replies srv s.v11 all done (repliesIn s.out) ∧ CallsFor srv done cs ∧ NowSt srv all s done cs

theorem repliesIn_append (a b : List Msg) : repliesIn (a ++ b) = repliesIn a ++ repliesIn b := by simp [repliesIn]

/-- A step of a thread that does not hold the lock. -/
theorem hist_other {srv : Srv} {all : Bool} {s s' : St} (h : Hist srv all s) (hr : s'.rpc = s.rpc) (hv : s'.v11 = s.v11) (hg : s'.got = s.got)
    (hc : s'.calls = s.calls) (ho : repliesIn s'.out = repliesIn s.out) (hp : ∀ u, s.rpc = some u → s'.pc u = s.pc u) : Hist srv all s' := by
  obtain ⟨done, cs, h1, h2, h3⟩ := h
  refine ⟨done, cs, by rw [hv, ho]; exact h1, h2, ?_⟩
  unfold NowSt at h3 ⊢
  rw [hr, hg, hc, hv]
  cases e : s.rpc with
  | none => simpa [e] using h3
  | some u => rw [e] at h3; simp only [hp u e]; exact h3

/-- A step of the holder of the lock that keeps the messages dealt with. -/
theorem hist_same {srv : Srv} {all : Bool} {s s' : St} {t : Nat} (h : Hist srv all s) (hr : s.rpc = some t) (hr' : s'.rpc = some t)
    (hv : s'.v11 = s.v11) (ho : s'.out = s.out)
    (hn : ∀ done cs, CallsFor srv done cs → Now srv s.v11 all s.got s.calls done cs (s.pc t) → Now srv s.v11 all s'.got s'.calls done cs (s'.pc t)) :
    Hist srv all s' := by
  obtain ⟨done, cs, h1, h2, h3⟩ := h
  refine ⟨done, cs, by rw [hv, ho]; exact h1, h2, ?_⟩
  unfold NowSt at h3 ⊢
  rw [hr] at h3
  rw [hr', hv]
  exact hn done cs h2 h3

theorem answer_now {srv : Srv} {v11 all : Bool} {got done : List Read} {calls cs : List (Nat × ServerRpc.Op)} {r : Read} (a : Caller) (envp : Option Envp) (rep : Reply)
    (hg : got = done ++ [r]) (hx : ∀ x, replyElem envp rep = some x → Right srv v11 r x) (hc : CallsFor srv (done ++ [r]) calls) :
    Now srv v11 all got calls done cs (answer a envp rep) := by
  unfold answer
  split
  · exact ⟨r, hg, hc⟩
  · rename_i x hx'
    exact ⟨r, x, rfl, hg, hx x hx', hc⟩

theorem errorElem {envp : Option Envp} {err : Err} {x : Sent} (h : replyElem envp (.errors [err]) = some x) :
    x.attrs = attrsOf envp ∧ x.body = .errors [err] := by
  cases envp <;> simp [replyElem] at h <;> subst h <;> exact ⟨rfl, rfl⟩

theorem answerErr_now {srv : Srv} {v11 all : Bool} {got done : List Read} {calls cs : List (Nat × ServerRpc.Op)} {r : Read} (envp : Option Envp) (err : Err)
    (hg : got = done ++ [r]) (hn : ∀ e op, r = .parsed e op → HasId e → ∀ c, ¬ Serves srv op c) (hw : wanted v11 r = some (attrsOf envp))
    (h2 : CallsFor srv done cs) (hc : calls = cs) : Now srv v11 all got calls done cs (answerErr envp (some err)) := by
  refine answer_now .recv envp _ hg (fun x hx => ?_) (hc ▸ .skip _ _ _ h2 hn)
  obtain ⟨e1, e2⟩ := errorElem hx
  exact .refused _ _ err hn (by rw [hw, e1]) e2

theorem prepareErr_none (find : Text → Option Node) (e : Option LyErr) (err : Err) : prepareErr false false find e ≠ some (some err) := by
  simp [prepareErr]

/-- Dealing with a message ends: without reply, or with the right one. -/
theorem hist_end {srv : Srv} {all : Bool} {s s' : St} {t : Nat} {r : Read} {done : List Read} (hr' : s'.rpc = some t) (hv : s'.v11 = s.v11)
    (h1 : Replies srv s.v11 all done (repliesIn s.out)) (hg : s'.got = done ++ [r]) (hc : CallsFor srv (done ++ [r]) s'.calls)
    (ho : (repliesIn s'.out = repliesIn s.out ∧ (all = true → wanted s.v11 r = none)) ∨ ∃ x, repliesIn s'.out = repliesIn s.out ++ [x] ∧ Right srv s.v11 r x)
    (hp : ∀ v a g c d cs, Now srv v a g c d cs (s'.pc t) ↔ g = d ∧ c = cs) : Hist srv all s' := by
  refine ⟨done ++ [r], s'.calls, ?_, hc, ?_⟩
  · rw [hv]
    rcases ho with ⟨e, hw⟩ | ⟨x, e, hx⟩
    · rw [e]; exact .none _ _ _ h1 hw
    · rw [e]; exact .answer _ _ _ _ h1 hx
  · unfold NowSt
    rw [hr']
    exact (hp _ _ _ _ _ _).2 ⟨hg, rfl⟩

theorem parse_step {srv : Srv} {all : Bool} {s : St} {t : Nat} {r : Read} (h : Hist srv all s) (hr : s.rpc = some t) (hp : s.pc t = .parse r) :
    Hist srv all (s.at t (parsed srv s.v11 r)) := by
  obtain ⟨done, cs, h1, h2, h3⟩ := h
  unfold NowSt at h3
  rw [hr] at h3
  simp only [hp] at h3
  obtain ⟨hg, hc⟩ := h3
  have go : ∀ p, (Now srv s.v11 all s.got s.calls done cs p) → Hist srv all (s.at t p) := by
    intro p hn
    refine ⟨done, cs, h1, h2, ?_⟩
    unfold NowSt
    change match s.rpc with | none => _ | some u => _
    rw [hr]
    simp only [at_self]
    exact hn
  have stop : (∀ e op, r = .parsed e op → HasId e → ∀ c, ¬ Serves srv op c) → wanted s.v11 r = none → Hist srv all (s.at t .unlock) := by
    intro hn hw
    refine hist_end (s := s) (t := t) (r := r) (done := done) hr rfl h1 hg (by show CallsFor srv (done ++ [r]) s.calls; rw [hc]; exact .skip _ _ _ h2 hn)
      (.inl ⟨rfl, fun _ => hw⟩) (fun v a g c d cs => ?_)
    rw [at_self]
    exact Iff.rfl
  unfold parsed
  split
  · exact stop (fun _ _ h => by cases h) rfl
  · exact stop (fun _ _ h => by cases h) rfl
  · exact go _ (answerErr_now _ _ hg (fun _ _ h => by cases h) rfl h2 hc)
  · rename_i e op
    split
    · exact go _ ⟨hg, (hasMsgid_iff e).1 ‹_›, hc⟩
    · rename_i hni
      refine go _ (answerErr_now (some e) _ hg (fun _ _ h hid => ?_) rfl h2 hc)
      cases h
      exact absurd ((hasMsgid_iff e).2 hid) hni
  · rename_i envp e
    split
    · exact go _ ⟨_, hg, hc ▸ .skip _ _ _ h2 (fun _ _ h => by cases h)⟩
    · rename_i err herr
      rcases prepareErr_some _ _ _ _ _ herr with ⟨x, rfl⟩ | ⟨rfl, he, hv⟩
      · refine go _ (answerErr_now envp x hg (fun _ _ h => by cases h) ?_ h2 hc)
        cases envp with
        | some e => rfl
        | none =>
          cases hv : s.v11
          · rw [hv] at herr; exact absurd herr (prepareErr_none _ _ _)
          · simp [wanted, attrsOf]
      · cases envp with
        | some e => cases he
        | none => exact stop (fun _ _ h => by cases h) (by simp [wanted, hv])

theorem call_step {srv : Srv} {e : Envp} {op : ServerRpc.Op} {v11 all : Bool} {got done : List Read} {calls cs : List (Nat × ServerRpc.Op)} (hop : IsOp op)
    (h2 : CallsFor srv done cs) (h : Now srv v11 all got calls done cs (.call e op)) :
    match calling srv e op with
    | (p, none) => Now srv v11 all got calls done cs p
    | (p, some c) => Now srv v11 all got (calls ++ [(c, op)]) done cs p := by
  obtain ⟨hg, hi, hc⟩ := h
  obtain ⟨n, hn⟩ := rpcNode_some op hop
  have hs := serves_iff srv op n hn
  unfold calling
  simp only [hn]
  cases h1 : n.priv with
  | some c =>
    exact ⟨hg, hi, (hs c).2 (by simp [cbOf, h1]), by rw [hc]⟩
  | none =>
    cases h3 : srv.glob with
    | some c => exact ⟨hg, hi, (hs c).2 (by simp [cbOf, h1, h3]), by rw [hc]⟩
    | none =>
      have hns : ∀ c, ¬ Serves srv op c := fun c hc => by
        have := (hs c).1 hc
        simp [cbOf, h1, h3] at this
      have hn' : ∀ e' op', Read.parsed e op = .parsed e' op' → HasId e' → ∀ c, ¬ Serves srv op' c := by
        intro e' op' h _ c
        cases h
        exact hns c
      obtain ⟨err, herr⟩ : ∃ err, mkErr .opNotSupported .prot none none = some err := ⟨_, rfl⟩
      rw [herr]
      show Now srv v11 all got calls done cs (answer .send (some e) (.errors [err]))
      refine answer_now .send (some e) _ hg (fun x hx => ?_) (hc ▸ CallsFor.skip _ _ _ h2 hn')
      obtain ⟨e1, e2⟩ := errorElem hx
      exact .refused _ _ _ hn' (by rw [e1]; rfl) e2

theorem ret_step {srv : Srv} {e : Envp} {op : ServerRpc.Op} {c : Nat} {v11 all : Bool} {got done : List Read} {calls cs : List (Nat × ServerRpc.Op)}
    (st : Status) (re : Nat) (h2 : CallsFor srv done cs) (h : Now srv v11 all got calls done cs (.inCb e op c)) :
    Now srv v11 all got calls done cs (answerCb e (srv.run c op st re).reply) := by
  obtain ⟨hg, hi, hs, hc⟩ := h
  have hcalls : CallsFor srv (done ++ [.parsed e op]) calls := hc ▸ .call _ _ _ _ _ h2 hi hs
  cases hr : (srv.run c op st re).reply with
  | some r =>
    refine answer_now .send (some e) r hg (fun x hx => ?_) hcalls
    exact .served e op c st re r x hi hs hr (replyElem_attrs _ _ _ hx) (replyElem_shows e r x hx).1
  | none =>
    obtain ⟨err, herr⟩ : ∃ err, mkErr .opFailed .app none none = some err := ⟨_, rfl⟩
    have : answerCb e none = answer .send (some e) (.errors [err]) := by unfold answerCb replyOr; rw [herr]; rfl
    rw [this]
    refine answer_now .send (some e) _ hg (fun x hx => ?_) hcalls
    obtain ⟨e1, e2⟩ := errorElem hx
    exact .failed e op c st re x _ hi hs hr e1 e2

theorem now_rest {srv : Srv} {v11 all : Bool} {got done : List Read} {calls cs : List (Nat × ServerRpc.Op)} {p : Pc} (hp : ∀ v a g c d cs, Now srv v a g c d cs p ↔ g = d ∧ c = cs)
    (h : got = done ∧ calls = cs) : Now srv v11 all got calls done cs p := (hp _ _ _ _ _ _).2 h

theorem quiet_now {srv : Srv} {v11 all : Bool} {got done : List Read} {calls cs : List (Nat × ServerRpc.Op)} {p q : Pc} (h : Quiet p q)
    (hn : Now srv v11 all got calls done cs p) : Now srv v11 all got calls done cs q := by
  cases h <;> exact hn

theorem open_eq (s : St) : s.open = true ↔ Alive s.status := by
  unfold St.open Alive
  simp

/-- The end of writing a reply. -/
theorem write_end {srv : Srv} {all : Bool} {s s' : St} {t : Nat} {done : List Read} {r : Read} {x : Sent} {a : Caller} {ok : Bool} (h1 : Replies srv s.v11 all done (repliesIn s.out))
    (hr' : s'.rpc = some t) (hv : s'.v11 = s.v11) (hg : s'.got = done ++ [r]) (hx : Right srv s.v11 r x) (hc : CallsFor srv (done ++ [r]) s'.calls)
    (hp : s'.pc t = .wrote a ok) (ho : (s'.out = s.out ∧ all = false) ∨ s'.out = s.out ++ [.reply x]) : Hist srv all s' := by
  refine hist_end (s := s) (t := t) (r := r) (done := done) hr' hv h1 hg hc ?_ (fun v a g c d cs => by rw [hp]; exact Iff.rfl)
  rcases ho with ⟨e, ha⟩ | e
  · exact .inl ⟨by rw [e], fun h => by rw [ha] at h; cases h⟩
  · exact .inr ⟨x, by rw [e, repliesIn_append]; rfl, hx⟩

theorem other_step {srv : Srv} {all : Bool} {s s1 : St} {t : Nat} (p : Pc) (h : Hist srv all s) (ht : s.rpc ≠ some t) (hpc : s1.pc = s.pc) (hr : s1.rpc = s.rpc)
    (hv : s1.v11 = s.v11) (hg : s1.got = s.got) (hc : s1.calls = s.calls) (ho : repliesIn s1.out = repliesIn s.out) : Hist srv all (s1.at t p) := by
  refine hist_other h hr hv hg hc ho (fun u hu => ?_)
  have e : u ≠ t := fun e => ht (e ▸ hu)
  rw [at_pc, if_neg e, hpc]

theorem self_step {srv : Srv} {all : Bool} {s s1 : St} {t : Nat} (p : Pc) (h : Hist srv all s) (ht : s.rpc = some t) (hr : s1.rpc = some t)
    (hv : s1.v11 = s.v11) (ho : s1.out = s.out)
    (hn : ∀ done cs, CallsFor srv done cs → Now srv s.v11 all s.got s.calls done cs (s.pc t) → Now srv s.v11 all s1.got s1.calls done cs p) :
    Hist srv all (s1.at t p) := by
  refine hist_same h ht hr hv ho (fun done cs h2 h3 => ?_)
  rw [at_self]
  exact hn done cs h2 h3

/-- Writing of a reply ends. -/
theorem wrote_step {srv : Srv} {all : Bool} {s s1 : St} {t : Nat} {a a' : Caller} {m : Msg} {ok : Bool} (h : Hist srv all s) (ht : s.rpc = some t) (hr : s1.rpc = some t)
    (hv : s1.v11 = s.v11) (hg : s1.got = s.got) (hc : s1.calls = s.calls)
    (hp : s.pc t = .write a m ∨ s.pc t = .writeLock a m ∨ ∃ cur rest k, s.pc t = .writing a m cur rest k)
    (ho : (s1.out = s.out ∧ all = false) ∨ s1.out = s.out ++ [m]) : Hist srv all (s1.at t (.wrote a' ok)) := by
  obtain ⟨done, cs, h1, h2, h3⟩ := h
  unfold NowSt at h3
  rw [ht] at h3
  simp only at h3
  have : ∃ r x, m = .reply x ∧ s.got = done ++ [r] ∧ Right srv s.v11 r x ∧ CallsFor srv (done ++ [r]) s.calls := by
    rcases hp with e | e | ⟨_, _, _, e⟩
    · rw [e] at h3; exact h3
    · rw [e] at h3; exact h3
    · rw [e] at h3; exact h3.2
  obtain ⟨r, x, rfl, e1, e2, e3⟩ := this
  exact write_end h1 hr hv (by rw [← e1]; exact hg) e2 (by show CallsFor srv (done ++ [r]) s1.calls; rw [hc]; exact e3) (at_self _ _ _) ho

theorem hist_step {cf : Conf} {all : Bool} {s : St} {t : Nat} {a : Act} {s' : St} (hl : Locks s) (hk : Kinds s)
    (hops : ∀ e op, Read.parsed e op ∈ s.got → IsOp op) (h : Hist cf.srv all s) (hm : Moves cf s t a s')
    (hall : all = true → a ≠ .lateWrite ∧ ∀ i, a ≠ .fail false i) : Hist cf.srv all s' ∨ (all = true ∧ s'.open = false) := by
  have ht := (hl t).1
  have hkt := hk t
  -- a thread sending a notification is not the holder
  have nn : ∀ {a : Caller}, (a = .notif → holdsRpc (s.pc t) = false) → (a ≠ .notif → holdsRpc (s.pc t) = true) →
      (a = .notif ∧ s.rpc ≠ some t) ∨ (a ≠ .notif ∧ s.rpc = some t) := by
    intro a h1 h2
    by_cases e : a = .notif
    · exact .inl ⟨e, fun hh => by rw [ht.2 hh] at h1; exact absurd (h1 e) (by simp)⟩
    · exact .inr ⟨e, ht.1 (h2 e)⟩
  cases hm with
  | setStatus st => exact .inl (hist_other h rfl rfl rfl rfl rfl (fun _ _ => rfl))
  | setReason re => exact .inl (hist_other h rfl rfl rfl rfl rfl (fun _ _ => rfl))
  | skip hp => exact .inl h
  | take hp hr =>
    left
    obtain ⟨done, cs, h1, h2, h3⟩ := h
    refine ⟨done, cs, h1, h2, ?_⟩
    unfold NowSt at h3 ⊢
    rw [hr] at h3
    change Now _ _ _ _ _ _ _ ((St.at { s with rpc := some t } t .poll).pc t)
    rw [at_self]
    exact h3
  | notify n hp =>
    rw [hp] at ht
    exact .inl (other_step _ h (fun e => by simp [holdsRpc, e] at ht) rfl rfl rfl rfl rfl rfl)
  | quiet a p hp =>
    have := ht.1 (quiet_holds hp).1
    exact .inl (self_step _ h this this rfl rfl (fun done cs h2 h3 => quiet_now hp h3))
  | expire hp =>
    have := ht.1 (by rw [hp]; rfl)
    exact .inl (self_step _ h this this rfl rfl (fun done cs h2 h3 => by rw [hp] at h3; exact h3))
  | pollIo hp hi =>
    have := ht.1 (by rw [hp]; rfl)
    exact .inl (self_step _ h this this rfl rfl (fun done cs h2 h3 => by rw [hp] at h3; exact h3))
  | data hp =>
    have := ht.1 (by rw [hp]; rfl)
    exact .inl (self_step _ h this this rfl rfl (fun done cs h2 h3 => by rw [hp] at h3; exact h3))
  | nodata hp =>
    have := ht.1 (by rw [hp]; rfl)
    exact .inl (self_step _ h this this rfl rfl (fun done cs h2 h3 => by rw [hp] at h3; exact h3))
  | hup hp =>
    have := ht.1 (by rw [hp]; rfl)
    exact .inl (self_step _ h this this rfl rfl (fun done cs h2 h3 => by rw [hp] at h3; exact h3))
  | readIo hp hi =>
    have := ht.1 (by rw [hp]; rfl)
    exact .inl (self_step _ h this this rfl rfl (fun done cs h2 h3 => by rw [hp] at h3; exact h3))
  | read r rest hp hi =>
    have := ht.1 (by rw [hp]; rfl)
    have e : (readEnd s r rest).rpc = s.rpc ∧ (readEnd s r rest).v11 = s.v11 ∧ (readEnd s r rest).out = s.out ∧
        (readEnd s r rest).got = s.got ++ [r] ∧ (readEnd s r rest).calls = s.calls := by
      unfold readEnd; split <;> exact ⟨rfl, rfl, rfl, rfl, rfl⟩
    refine .inl (self_step _ h this (e.1.trans this) e.2.1 e.2.2.1 (fun done cs h2 h3 => ?_))
    rw [hp] at h3
    exact ⟨by rw [e.2.2.2.1, h3.1], by rw [e.2.2.2.2]; exact h3.2⟩
  | parse r hp => exact .inl (parse_step h (ht.1 (by rw [hp]; rfl)) hp)
  | call0 e op p hp hc =>
    have := ht.1 (by rw [hp]; rfl)
    refine .inl (self_step _ h this this rfl rfl (fun done cs h2 h3 => ?_))
    rw [hp] at h3
    have k := call_step (hops e op (by rw [h3.1]; simp)) h2 h3
    rw [hc] at k
    exact k
  | call1 e op p c hp hc =>
    have := ht.1 (by rw [hp]; rfl)
    refine .inl (self_step _ h this this rfl rfl (fun done cs h2 h3 => ?_))
    rw [hp] at h3
    have k := call_step (hops e op (by rw [h3.1]; simp)) h2 h3
    rw [hc] at k
    exact k
  | ret e op c hp =>
    have := ht.1 (by rw [hp]; rfl)
    refine .inl (self_step _ h this this rfl rfl (fun done cs h2 h3 => ?_))
    rw [hp] at h3
    exact ret_step _ _ h2 h3
  | write1 a m hp =>
    rw [hp] at nn
    rcases @nn a (fun e => by subst e; rfl) (fun e => by cases a <;> first | rfl | exact absurd rfl e) with ⟨_, e⟩ | ⟨_, e⟩
    · exact .inl (other_step _ h e rfl rfl rfl rfl rfl rfl)
    · exact .inl (self_step _ h e e rfl rfl (fun done cs h2 h3 => by rw [hp] at h3; exact h3))
  | write2 a m hp ho =>
    rw [hp] at nn
    rcases @nn a (fun e => by subst e; rfl) (fun e => by cases a <;> first | rfl | exact absurd rfl e) with ⟨_, e⟩ | ⟨_, e⟩
    · exact .inl (other_step _ h e rfl rfl rfl rfl rfl rfl)
    · cases all with
      | true => exact .inr ⟨rfl, ho⟩
      | false => exact .inl (wrote_step h e e rfl rfl rfl (.inl hp) (.inl ⟨rfl, rfl⟩))
  | writeIo a m hp hi =>
    rw [hp] at nn
    rcases @nn a (fun e => by subst e; rfl) (fun e => by cases a <;> first | rfl | exact absurd rfl e) with ⟨_, e⟩ | ⟨_, e⟩
    · exact .inl (other_step _ h e rfl rfl rfl rfl rfl rfl)
    · exact .inl (self_step _ h e e rfl rfl (fun done cs h2 h3 => by rw [hp] at h3; exact ⟨fun _ => rfl, h3⟩))
  | writeLate a m hp =>
    rw [hp] at nn
    rcases @nn a (fun e => by subst e; rfl) (fun e => by cases a <;> first | rfl | exact absurd rfl e) with ⟨_, e⟩ | ⟨_, e⟩
    · exact .inl (other_step _ h e rfl rfl rfl rfl rfl rfl)
    · cases all with
      | true => exact absurd rfl (hall rfl).1
      | false => exact .inl (wrote_step h e e rfl rfl rfl (.inr (.inl hp)) (.inl ⟨rfl, rfl⟩))
  | finish a m ok hp =>
    rw [hp] at nn hkt
    rcases @nn a (fun e => by subst e; rfl) (fun e => by cases a <;> first | rfl | exact absurd rfl e) with ⟨ea, e⟩ | ⟨_, e⟩
    · obtain ⟨n, rfl⟩ := hkt.1 ea
      refine .inl (other_step _ h e rfl rfl rfl rfl rfl ?_)
      cases ok
      · rfl
      · show repliesIn (s.out ++ [.notif n]) = _
        rw [repliesIn_append]; simp [repliesIn]
    · cases ok with
      | true => exact .inl (wrote_step h e e rfl rfl rfl (.inr (.inr ⟨_, _, _, hp⟩)) (.inr rfl))
      | false =>
        cases all with
        | false => exact .inl (wrote_step h e e rfl rfl rfl (.inr (.inr ⟨_, _, _, hp⟩)) (.inl ⟨rfl, rfl⟩))
        | true =>
          obtain ⟨done, cs, h1, h2, h3⟩ := h
          unfold NowSt at h3
          rw [e] at h3
          simp only [hp] at h3
          exact absurd (h3.1 rfl) (by simp)
  | next a m p rest ok hp ho =>
    rw [hp] at nn
    rcases @nn a (fun e => by subst e; rfl) (fun e => by cases a <;> first | rfl | exact absurd rfl e) with ⟨_, e⟩ | ⟨_, e⟩
    · exact .inl (other_step _ h e rfl rfl rfl rfl rfl rfl)
    · exact .inl (self_step _ h e e rfl rfl (fun done cs h2 h3 => by rw [hp] at h3; exact h3))
  | accept a m b cur rest ok n hp =>
    rw [hp] at nn
    rcases @nn a (fun e => by subst e; rfl) (fun e => by cases a <;> first | rfl | exact absurd rfl e) with ⟨_, e⟩ | ⟨_, e⟩
    · exact .inl (other_step _ h e rfl rfl rfl rfl rfl rfl)
    · exact .inl (self_step _ h e e rfl rfl (fun done cs h2 h3 => by rw [hp] at h3; exact h3))
  | failIgn a m b cur rest ok inv hp =>
    rw [hp] at nn
    rcases @nn a (fun e => by subst e; rfl) (fun e => by cases a <;> first | rfl | exact absurd rfl e) with ⟨_, e⟩ | ⟨_, e⟩
    · exact .inl (other_step _ h e rfl rfl rfl rfl rfl rfl)
    · cases all with
      | false =>
        exact .inl (self_step _ h e e rfl rfl (fun done cs h2 h3 => by rw [hp] at h3; exact ⟨fun x => by simp at x, h3.2⟩))
      | true =>
        cases inv with
        | false => exact absurd rfl ((hall rfl).2 _)
        | true => exact .inr ⟨rfl, rfl⟩
  | fail a m b cur rest ok inv hp =>
    rw [hp] at nn
    rcases @nn a (fun e => by subst e; rfl) (fun e => by cases a <;> first | rfl | exact absurd rfl e) with ⟨_, e⟩ | ⟨_, e⟩
    · exact .inl (other_step _ h e rfl rfl rfl rfl rfl rfl)
    · cases all with
      | false => exact .inl (wrote_step h e e rfl rfl rfl (.inr (.inr ⟨_, _, _, hp⟩)) (.inl ⟨rfl, rfl⟩))
      | true =>
        cases inv with
        | false => exact absurd rfl ((hall rfl).2 _)
        | true => exact .inr ⟨rfl, rfl⟩
  | refuseIgn a m p rest ok hp ho =>
    rw [hp] at nn
    rcases @nn a (fun e => by subst e; rfl) (fun e => by cases a <;> first | rfl | exact absurd rfl e) with ⟨_, e⟩ | ⟨_, e⟩
    · exact .inl (other_step _ h e rfl rfl rfl rfl rfl rfl)
    · cases all with
      | false =>
        exact .inl (self_step _ h e e rfl rfl (fun done cs h2 h3 => by rw [hp] at h3; exact ⟨fun x => by simp at x, h3.2⟩))
      | true => exact .inr ⟨rfl, ho⟩
  | refuse a m p rest ok hp ho =>
    rw [hp] at nn
    rcases @nn a (fun e => by subst e; rfl) (fun e => by cases a <;> first | rfl | exact absurd rfl e) with ⟨_, e⟩ | ⟨_, e⟩
    · exact .inl (other_step _ h e rfl rfl rfl rfl rfl rfl)
    · cases all with
      | false => exact .inl (wrote_step h e e rfl rfl rfl (.inr (.inr ⟨_, _, _, hp⟩)) (.inl ⟨rfl, rfl⟩))
      | true => exact .inr ⟨rfl, ho⟩
  | wroteNotif ok hp =>
    rw [hp] at ht
    exact .inl (other_step _ h (fun e => by simp [holdsRpc, e] at ht) rfl rfl rfl rfl rfl rfl)
  | wroteRecv hp =>
    have := ht.1 (by rw [hp]; rfl)
    exact .inl (self_step _ h this this rfl rfl (fun done cs h2 h3 => by rw [hp] at h3; exact h3))
  | wrote a ok hp ha =>
    have := ht.1 (by rw [hp]; cases a <;> first | rfl | exact absurd rfl ha)
    exact .inl (self_step _ h this this rfl rfl (fun done cs h2 h3 => by rw [hp] at h3; exact h3))
  | wroteEnd ok hp =>
    have := ht.1 (by rw [hp]; rfl)
    exact .inl (self_step _ h this this rfl rfl (fun done cs h2 h3 => by rw [hp] at h3; exact h3))
  | unlock hp =>
    left
    have := ht.1 (by rw [hp]; rfl)
    obtain ⟨done, cs, h1, h2, h3⟩ := h
    refine ⟨done, cs, h1, h2, ?_⟩
    unfold NowSt at h3 ⊢
    rw [this] at h3
    simp only [hp] at h3
    exact h3

theorem step_pc {cf : Conf} {s : St} {t : Nat} {a : Act} {s' : St} (h : Moves cf s t a s') (u : Nat) (hu : u ≠ t) : s'.pc u = s.pc u := by
  cases h with
  | setStatus => rfl
  | setReason => rfl
  | skip => rfl
  | read r rest hp hi =>
    rw [at_pc, if_neg hu]
    unfold readEnd; split <;> rfl
  | _ => rw [at_pc, if_neg hu]

/-- A thread that does nothing stays where it is. -/
theorem run_pc {cf : Conf} {u : Nat} : ∀ (acts : List (Nat × Act)) (s s' : St), run cf s acts = some s' → (∀ x ∈ acts, x.1 ≠ u) → s'.pc u = s.pc u
  | [], s, s', h, _ => by cases h; rfl
  | (t, a) :: acts, s, s', h, hu => by
    unfold run at h
    split at h
    · cases h
    · rename_i s1 h1
      rw [run_pc acts s1 s' h (fun x hx => hu x (by simp [hx])), step_pc (step_moves h1) u (fun e => hu (t, a) (by simp) e.symm)]

/-! ## What is read -/

theorem inp_step {cf : Conf} {s : St} {t : Nat} {a : Act} {s' : St} (h : Moves cf s t a s') : s'.got ++ s'.inp = s.got ++ s.inp ∧ s'.v11 = s.v11 := by
  cases h with
  | read r rest hp hi =>
    have : (readEnd s r rest).got = s.got ++ [r] ∧ (readEnd s r rest).inp = rest ∧ (readEnd s r rest).v11 = s.v11 := by
      unfold readEnd; split <;> exact ⟨rfl, rfl, rfl⟩
    refine ⟨?_, this.2.2⟩
    show (readEnd s r rest).got ++ (readEnd s r rest).inp = _
    rw [this.1, this.2.1, hi]; simp
  | _ => exact ⟨rfl, rfl⟩

/-- A session that cannot be used stays so. -/
theorem closed_step {cf : Conf} {s : St} {t : Nat} {a : Act} {s' : St} (h : Moves cf s t a s') (ha : ∀ st, a = .setStatus st → ¬ Alive st)
    (hcb : ∀ c op st re, Alive (cf.srv.run c op st re).status → Alive st) (ho : s.open = false) : s'.open = false := by
  have fromStatus : ∀ {x : St}, ¬ Alive x.status → x.open = false := fun {x} hx => by
    cases e : x.open
    · rfl
    · exact absurd ((open_eq x).1 e) hx
  have hs : ¬ Alive s.status := fun e => by rw [(open_eq s).2 e] at ho; cases ho
  have inv : ¬ Alive .invalid := by simp [Alive]
  cases h with
  | setStatus st => exact fromStatus (ha st rfl)
  | expire => exact fromStatus inv
  | hup => exact fromStatus inv
  | read r rest hp hi =>
    apply fromStatus
    show ¬ Alive (readEnd s r rest).status
    unfold readEnd; split
    · exact inv
    · exact hs
  | ret e op c hp => exact fromStatus (fun hh => hs (hcb _ _ _ _ hh))
  | failIgn a m b cur rest ok i hp => apply fromStatus; cases i; exact hs; exact inv
  | fail a m b cur rest ok i hp => apply fromStatus; cases i; exact hs; exact inv
  | wroteRecv => exact fromStatus inv
  | wroteEnd => exact fromStatus inv
  | _ => exact ho

/-! ## What is written -/

/-- The bytes of messages, one after the other. -/
def bytesOf (cf : Conf) (l : List Msg) : List Byte := l.flatMap fun m => (cf.pieces m).flatten

/-- Whole messages, and the beginning of the one that is being written. -/
def Clean (cf : Conf) (s : St) (part : List Byte) : Prop :=
  match s.io with
  | none => part = []
  | some t =>
    match s.pc t with
    | .writing _ m cur rest true => part ++ cur ++ rest.flatten = (cf.pieces m).flatten
    | .writing _ _ _ _ false => False
    | _ => part = []

/-- Whole messages and the beginning of one that will never end. -/
def Torn (cf : Conf) (s : St) (part : List Byte) : Prop :=
  s.open = false ∧ (∃ m, part <+: (cf.pieces m).flatten) ∧ ∀ t, match s.pc t with
    | .writing _ m cur rest true => cur = [] ∧ rest = cf.pieces m
    | .writing _ _ cur _ false => cur = []
    | _ => True

/-- The bytes written so far. -/
def WireOk (cf : Conf) (s : St) : Prop := ∃ part, s.wire = bytesOf cf s.out ++ part ∧ (Clean cf s part ∨ Torn cf s part)

/-- Not in the middle of writing. -/
def notWriting : Pc → Bool
  | .writing _ _ _ _ _ => false
  | _ => true

theorem clean_at {cf : Conf} {s s1 : St} {t : Nat} {p : Pc} {part : List Byte} (h : Clean cf s part) (hpc : s1.pc = s.pc)
    (h1 : notWriting (s.pc t) = true) (h2 : notWriting p = true)
    (hi : s1.io = s.io ∨ (s.io = none ∧ s1.io = some t) ∨ (s.io = some t ∧ s1.io = none)) : Clean cf (s1.at t p) part := by
  have nw : ∀ {q : Pc}, notWriting q = true → ∀ {P : Prop}, (match q with
      | .writing _ m cur rest true => part ++ cur ++ rest.flatten = (cf.pieces m).flatten
      | .writing _ _ _ _ false => False
      | _ => P) ↔ P := by
    intro q hq P
    cases q <;> first | exact Iff.rfl | (simp [notWriting] at hq)
  unfold Clean at h ⊢
  change match s1.io with | none => _ | some u => _
  rcases hi with e | ⟨e, e'⟩ | ⟨e, e'⟩
  · rw [e]
    cases hio : s.io with
    | none => rw [hio] at h; exact h
    | some u =>
      rw [hio] at h
      dsimp only at h ⊢
      by_cases hu : u = t
      · subst hu
        rw [at_self]
        exact (nw h2).2 ((nw h1).1 h)
      · rw [at_pc, if_neg hu, hpc]; exact h
  · rw [e] at h; rw [e']
    dsimp only at h ⊢
    rw [at_self]
    exact (nw h2).2 h
  · rw [e] at h; rw [e']
    dsimp only at h ⊢
    exact (nw h1).1 h

theorem torn_at {cf : Conf} {s s1 : St} {t : Nat} {p : Pc} {part : List Byte} (h : Torn cf s part) (hpc : s1.pc = s.pc)
    (ho : s1.open = false) (h2 : match p with
    | .writing _ m cur rest true => cur = [] ∧ rest = cf.pieces m
    | .writing _ _ cur _ false => cur = []
    | _ => True) : Torn cf (s1.at t p) part := by
  refine ⟨ho, h.2.1, fun u => ?_⟩
  by_cases hu : u = t
  · subst hu; rw [at_self]; exact h2
  · rw [at_pc, if_neg hu, hpc]; exact h.2.2 u

theorem wire_plain {cf : Conf} {s s1 : St} {t : Nat} {p : Pc} (h : WireOk cf s) (hpc : s1.pc = s.pc) (hw : s1.wire = s.wire) (ho : s1.out = s.out)
    (h1 : notWriting (s.pc t) = true) (h2 : notWriting p = true) (hc : s.open = false → s1.open = false)
    (hi : s1.io = s.io ∨ (s.io = none ∧ s1.io = some t) ∨ (s.io = some t ∧ s1.io = none)) : WireOk cf (s1.at t p) := by
  obtain ⟨part, e, h | h⟩ := h
  · exact ⟨part, by show s1.wire = bytesOf cf s1.out ++ part; rw [hw, ho]; exact e, .inl (clean_at h hpc h1 h2 hi)⟩
  · refine ⟨part, by show s1.wire = bytesOf cf s1.out ++ part; rw [hw, ho]; exact e, .inr (torn_at h hpc (hc h.1) ?_)⟩
    cases p <;> first | trivial | (simp [notWriting] at h2)

theorem answer_nw (a : Caller) (e : Option Envp) (r : Reply) : notWriting (answer a e r) = true := by
  unfold answer; split <;> rfl
theorem answerErr_nw (e : Option Envp) (r : Option Err) : notWriting (answerErr e r) = true := by
  unfold answerErr; split
  · rfl
  · exact answer_nw _ _ _
theorem answerCb_nw (e : Envp) (r : Option Reply) : notWriting (answerCb e r) = true := by
  unfold answerCb; split
  · rfl
  · exact answer_nw _ _ _
theorem parsed_nw (srv : Srv) (v11 : Bool) (r : Read) : notWriting (parsed srv v11 r) = true := by
  unfold parsed
  split
  · rfl
  · rfl
  · exact answerErr_nw _ _
  · split
    · rfl
    · exact answerErr_nw _ _
  · split
    · rfl
    · exact answerErr_nw _ _
theorem calling_nw (srv : Srv) (e : Envp) (op : ServerRpc.Op) : notWriting (calling srv e op).1 = true := by
  unfold calling
  split
  · rfl
  · split
    · dsimp only; exact answerCb_nw _ _
    · rfl
    · rfl
theorem quiet_nw {p q : Pc} (h : Quiet p q) : notWriting p = true ∧ notWriting q = true := by cases h <;> exact ⟨rfl, rfl⟩

theorem bytesOf_append (cf : Conf) (l : List Msg) (m : Msg) : bytesOf cf (l ++ [m]) = bytesOf cf l ++ (cf.pieces m).flatten := by
  simp [bytesOf]

/-- Only the holder of the lock writes. -/
theorem others_not_writing {s : St} {t u : Nat} (hl : Locks s) (hi : s.io = some t) (hu : u ≠ t) : notWriting (s.pc u) = true := by
  have := (hl u).2
  cases e : s.pc u <;> first | rfl | skip
  rw [e, hi] at this
  have := this.1 rfl
  simp at this
  exact absurd this.symm hu

/-- A message is broken off in a session that cannot be used any more. -/
theorem tear {cf : Conf} {s s1 : St} {t : Nat} {m : Msg} {part tail : List Byte} {p : Pc} (hl : Locks s) (hi : s.io = some t) (hpc : s1.pc = s.pc) (ho : s1.open = false)
    (hpart : part ++ tail = (cf.pieces m).flatten) (hp : match p with
    | .writing _ m cur rest true => cur = [] ∧ rest = cf.pieces m
    | .writing _ _ cur _ false => cur = []
    | _ => True) : Torn cf (s1.at t p) part := by
  refine ⟨ho, ⟨m, tail, hpart⟩, fun u => ?_⟩
  by_cases hu : u = t
  · subst hu; rw [at_self]; exact hp
  · rw [at_pc, if_neg hu, hpc]
    have := others_not_writing hl hi hu
    cases e : s.pc u <;> first | trivial | (rw [e] at this; simp [notWriting] at this)

theorem clean_writing {cf : Conf} {s : St} {t : Nat} {part : List Byte} {a : Caller} {m : Msg} {cur : List Byte} {rest : List (List Byte)} {ok : Bool}
    (h : Clean cf s part) (hi : s.io = some t) (hp : s.pc t = .writing a m cur rest ok) :
    ok = true ∧ part ++ cur ++ rest.flatten = (cf.pieces m).flatten := by
  unfold Clean at h
  rw [hi] at h
  simp only [hp] at h
  cases ok
  · exact h.elim
  · exact ⟨rfl, h⟩

theorem torn_writing {cf : Conf} {s : St} {t : Nat} {part : List Byte} {a : Caller} {m : Msg} {cur : List Byte} {rest : List (List Byte)} {ok : Bool}
    (h : Torn cf s part) (hp : s.pc t = .writing a m cur rest ok) : cur = [] ∧ (ok = true → rest = cf.pieces m) := by
  have := h.2.2 t
  simp only [hp] at this
  cases ok
  · exact ⟨this, by simp⟩
  · exact ⟨this.1, fun _ => this.2⟩

theorem wire_step {cf : Conf} {s : St} {t : Nat} {a : Act} {s' : St} (hl : Locks s) (h : Moves cf s t a s') (hc : s.open = false → s'.open = false)
    (hf : ∀ i, a ≠ .fail false i) (hw : WireOk cf s) : WireOk cf s' := by
  have ht := (hl t).2
  cases h with
  | setStatus st =>
    obtain ⟨part, e, h | h⟩ := hw
    · exact ⟨part, e, .inl h⟩
    · exact ⟨part, e, .inr ⟨hc h.1, h.2.1, h.2.2⟩⟩
  | setReason re =>
    obtain ⟨part, e, h | h⟩ := hw
    · exact ⟨part, e, .inl h⟩
    · exact ⟨part, e, .inr ⟨hc h.1, h.2.1, h.2.2⟩⟩
  | skip hp => exact hw
  | take hp hr => exact wire_plain hw rfl rfl rfl (by rw [hp]; rfl) rfl hc (.inl rfl)
  | notify n hp => exact wire_plain hw rfl rfl rfl (by rw [hp]; rfl) rfl hc (.inl rfl)
  | quiet a p hp => exact wire_plain hw rfl rfl rfl (quiet_nw hp).1 (quiet_nw hp).2 hc (.inl rfl)
  | expire hp => exact wire_plain hw rfl rfl rfl (by rw [hp]; rfl) rfl hc (.inl rfl)
  | pollIo hp hi => exact wire_plain hw rfl rfl rfl (by rw [hp]; rfl) rfl hc (.inr (.inl ⟨hi, rfl⟩))
  | data hp => exact wire_plain hw rfl rfl rfl (by rw [hp]; rfl) rfl hc (.inr (.inr ⟨ht.1 (by rw [hp]; rfl), rfl⟩))
  | nodata hp => exact wire_plain hw rfl rfl rfl (by rw [hp]; rfl) rfl hc (.inr (.inr ⟨ht.1 (by rw [hp]; rfl), rfl⟩))
  | hup hp => exact wire_plain hw rfl rfl rfl (by rw [hp]; rfl) rfl hc (.inr (.inr ⟨ht.1 (by rw [hp]; rfl), rfl⟩))
  | readIo hp hi => exact wire_plain hw rfl rfl rfl (by rw [hp]; rfl) rfl hc (.inr (.inl ⟨hi, rfl⟩))
  | read r rest hp hi =>
    have e : (readEnd s r rest).pc = s.pc ∧ (readEnd s r rest).wire = s.wire ∧ (readEnd s r rest).out = s.out ∧ (readEnd s r rest).io = none := by
      unfold readEnd; split <;> exact ⟨rfl, rfl, rfl, rfl⟩
    exact wire_plain hw e.1 e.2.1 e.2.2.1 (by rw [hp]; rfl) rfl hc (.inr (.inr ⟨ht.1 (by rw [hp]; rfl), e.2.2.2⟩))
  | parse r hp => exact wire_plain hw rfl rfl rfl (by rw [hp]; rfl) (parsed_nw _ _ _) hc (.inl rfl)
  | call0 e op p hp h1 => exact wire_plain hw rfl rfl rfl (by rw [hp]; rfl) (by have := calling_nw cf.srv e op; rwa [h1] at this) hc (.inl rfl)
  | call1 e op p c hp h1 => exact wire_plain hw rfl rfl rfl (by rw [hp]; rfl) (by have := calling_nw cf.srv e op; rwa [h1] at this) hc (.inl rfl)
  | ret e op c hp => exact wire_plain hw rfl rfl rfl (by rw [hp]; rfl) (answerCb_nw _ _) hc (.inl rfl)
  | write1 a m hp => exact wire_plain hw rfl rfl rfl (by rw [hp]; rfl) rfl hc (.inl rfl)
  | write2 a m hp ho => exact wire_plain hw rfl rfl rfl (by rw [hp]; rfl) rfl hc (.inl rfl)
  | writeIo a m hp hi =>
    obtain ⟨part, e, h | h⟩ := hw
    · refine ⟨part, e, .inl ?_⟩
      unfold Clean at h ⊢
      rw [hi] at h
      dsimp only at h
      have : (St.at { s with io := some t } t (.writing a m [] (cf.pieces m) true)).io = some t := rfl
      rw [this]
      simp only [at_self]
      simp [h]
    · exact ⟨part, e, .inr (torn_at h rfl (hc h.1) ⟨rfl, rfl⟩)⟩
  | writeLate a m hp => exact wire_plain hw rfl rfl rfl (by rw [hp]; rfl) rfl hc (.inl rfl)
  | finish a m ok hp =>
    have hi := ht.1 (by rw [hp]; rfl)
    obtain ⟨part, e, h | h⟩ := hw
    · obtain ⟨rfl, h2⟩ := clean_writing h hi hp
      refine ⟨[], ?_, .inl rfl⟩
      show s.wire = bytesOf cf (s.out ++ [m]) ++ []
      rw [e, bytesOf_append, ← h2]; simp
    · obtain ⟨-, h2⟩ := torn_writing h hp
      refine ⟨part, ?_, .inr (torn_at h rfl (hc h.1) trivial)⟩
      cases ok
      · exact e
      · show s.wire = bytesOf cf (s.out ++ [m]) ++ part
        rw [bytesOf_append, ← h2 rfl, e]; simp
  | next a m p rest ok hp ho =>
    have hi := ht.1 (by rw [hp]; rfl)
    obtain ⟨part, e, h | h⟩ := hw
    · obtain ⟨rfl, h2⟩ := clean_writing h hi hp
      refine ⟨part, e, .inl ?_⟩
      unfold Clean
      show match s.io with | none => _ | some u => _
      rw [hi]
      simp only [at_self]
      simpa using h2
    · rw [h.1] at ho; cases ho
  | accept a m b cur rest ok n hp =>
    have hi := ht.1 (by rw [hp]; rfl)
    obtain ⟨part, e, h | h⟩ := hw
    · obtain ⟨rfl, h2⟩ := clean_writing h hi hp
      refine ⟨part ++ (b :: cur).take n, ?_, .inl ?_⟩
      · show s.wire ++ _ = bytesOf cf s.out ++ _
        rw [e, List.append_assoc]
      · unfold Clean
        show match s.io with | none => _ | some u => _
        rw [hi]
        simp only [at_self]
        rw [← h2, List.append_assoc part, List.take_append_drop]
    · exact absurd (torn_writing h hp).1 (by simp)
  | failIgn a m b cur rest ok i hp =>
    have hi := ht.1 (by rw [hp]; rfl)
    cases i with
    | false => exact absurd rfl (hf _)
    | true =>
      obtain ⟨part, e, h | h⟩ := hw
      · obtain ⟨rfl, h2⟩ := clean_writing h hi hp
        rw [List.append_assoc] at h2
        exact ⟨part, e, .inr (tear hl hi rfl rfl h2 rfl)⟩
      · exact absurd (torn_writing h hp).1 (by simp)
  | fail a m b cur rest ok i hp =>
    have hi := ht.1 (by rw [hp]; rfl)
    cases i with
    | false => exact absurd rfl (hf _)
    | true =>
      obtain ⟨part, e, h | h⟩ := hw
      · obtain ⟨rfl, h2⟩ := clean_writing h hi hp
        rw [List.append_assoc] at h2
        exact ⟨part, e, .inr (tear hl hi rfl rfl h2 trivial)⟩
      · exact absurd (torn_writing h hp).1 (by simp)
  | refuseIgn a m p rest ok hp ho =>
    have hi := ht.1 (by rw [hp]; rfl)
    obtain ⟨part, e, h | h⟩ := hw
    · obtain ⟨rfl, h2⟩ := clean_writing h hi hp
      rw [List.append_assoc] at h2
      exact ⟨part, e, .inr (tear hl hi rfl ho h2 rfl)⟩
    · exact ⟨part, e, .inr (torn_at h rfl ho rfl)⟩
  | refuse a m p rest ok hp ho =>
    have hi := ht.1 (by rw [hp]; rfl)
    obtain ⟨part, e, h | h⟩ := hw
    · obtain ⟨rfl, h2⟩ := clean_writing h hi hp
      rw [List.append_assoc] at h2
      exact ⟨part, e, .inr (tear hl hi rfl ho h2 trivial)⟩
    · exact ⟨part, e, .inr (torn_at h rfl ho trivial)⟩
  | wroteNotif ok hp => exact wire_plain hw rfl rfl rfl (by rw [hp]; rfl) rfl hc (.inl rfl)
  | wroteRecv hp => exact wire_plain hw rfl rfl rfl (by rw [hp]; rfl) rfl hc (.inl rfl)
  | wrote a ok hp ha => exact wire_plain hw rfl rfl rfl (by rw [hp]; rfl) rfl hc (.inl rfl)
  | wroteEnd ok hp => exact wire_plain hw rfl rfl rfl (by rw [hp]; rfl) rfl hc (.inl rfl)
  | unlock hp => exact wire_plain hw rfl rfl rfl (by rw [hp]; rfl) rfl hc (.inl rfl)

/-! ## Runs -/

/-- What holds in every state of a run; `all`: nothing is lost, `loud`: errors end the session. -/
structure Inv (cf : Conf) (v11 : Bool) (inp : List Read) (all loud : Bool) (s : St) : Prop where
  locks : Locks s
  kinds : Kinds s
  inp : s.got ++ s.inp = inp
  v : s.v11 = v11
  hist : Hist cf.srv false s
  strict : all = true → Hist cf.srv true s ∨ s.open = false
  wire : loud = true → WireOk cf s

theorem inv_start (cf : Conf) (v11 : Bool) (inp : List Read) (all loud : Bool) : Inv cf v11 inp all loud (start v11 inp) where
  locks := fun u => ⟨by simp [start, holdsRpc], by simp [start, holdsIo]⟩
  kinds := fun _ => trivial
  inp := rfl
  v := rfl
  hist := ⟨[], [], .nil, .nil, rfl, rfl⟩
  strict := fun _ => .inl ⟨[], [], .nil, .nil, rfl, rfl⟩
  wire := fun _ => ⟨[], rfl, .inl rfl⟩

theorem inv_run {cf : Conf} {v11 : Bool} {inp : List Read} {all loud : Bool} (hops : AllOps inp) (acts : List (Nat × Act))
    (hall : all = true → InTime acts ∧ NoticedErrors acts ∧ NoRevival cf.srv acts) (hloud : loud = true → NoticedErrors acts ∧ NoRevival cf.srv acts) :
    ∀ (s s' : St), Inv cf v11 inp all loud s → run cf s acts = some s' → Inv cf v11 inp all loud s' := by
  induction acts with
  | nil => intro s s' h hr; cases hr; exact h
  | cons x acts ih =>
    obtain ⟨t, a⟩ := x
    intro s s' h hr
    unfold run at hr
    split at hr
    · cases hr
    · rename_i s1 h1
      have hm := step_moves h1
      refine ih (fun e => ?_) (fun e => ?_) s1 s' ?_ hr
      · obtain ⟨a1, a2, a3, a4⟩ := hall e
        exact ⟨fun t ht => a1 t (by simp [ht]), fun t i ht => a2 t i (by simp [ht]), fun t st ht => a3 t st (by simp [ht]), a4⟩
      · obtain ⟨a2, a3, a4⟩ := hloud e
        exact ⟨fun t i ht => a2 t i (by simp [ht]), fun t st ht => a3 t st (by simp [ht]), a4⟩
      · have hops' : ∀ e op, Read.parsed e op ∈ s.got → IsOp op := fun e op he => hops e op (by rw [← h.inp]; simp [he])
        refine ⟨locks_step h.locks hm, kinds_step h.kinds hm, (inp_step hm).1.trans h.inp, (inp_step hm).2.trans h.v, ?_, fun e => ?_, fun e => ?_⟩
        · rcases hist_step h.locks h.kinds hops' h.hist hm (by simp) with k | ⟨k, _⟩
          · exact k
          · cases k
        · obtain ⟨a1, a2, a3, a4⟩ := hall e
          rcases h.strict e with k | k
          · rcases hist_step h.locks h.kinds hops' k hm (fun _ => ⟨fun e => a1 t (by simp [e]), fun i e => a2 t i (by simp [e])⟩) with k | ⟨_, k⟩
            · exact .inl k
            · exact .inr k
          · exact .inr (closed_step hm (fun st e => a3 t st (by simp [e])) a4 k)
        · obtain ⟨a2, a3, a4⟩ := hloud e
          exact wire_step h.locks hm (closed_step hm (fun st e => a3 t st (by simp [e])) a4) (fun i e => a2 t i (by simp [e])) (h.wire e)

end Verif.ManyThreads
