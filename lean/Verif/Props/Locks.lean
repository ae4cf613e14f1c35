import Verif.Lemmas.Locks

/-!
# Properties of locks (C182–C185)

C182 in full: no call of the library waits for ever because of locks. It is false of `nc_connect_ssh_channel` that gets no channel and keeps a lock (`no_deadlock_false`, `lock_live_false`; see C84). What is missing here:
loops run as often as an argument says, so that executions are finite is only what locks and waiting for threads can change about it; callbacks taking locks of the library; real time, signals and scheduling.
-/

namespace Verif.Props
open Verif.Locks

/-! ## Waiting -/

/-- Thread `a` cannot go on because of thread `b`: it waits to read and `b` holds the lock for writing or waits for that; it waits for a mutex or to write and `b` holds the lock; it waits for `b` to end. -/
def Blocks (a b : Th) : Prop :=
  match a.prog with
  | .rd l _ => (l, true) ∈ b.held ∨ (b.arrived = true ∧ ∃ k, b.prog = .wr l k)
  | .wr l _ => a.arrived = true ∧ ∃ m, (l, m) ∈ b.held
  | .join t _ => b.tag = t ∧ b.prog ≠ .done
  | _ => False

/-- Thread `u` waits for thread `v`. -/
def WaitsFor (st : St) (u v : Nat) : Prop := ∃ a b, st[u]? = some a ∧ st[v]? = some b ∧ Blocks a b

/-- A state the threads can get to. -/
def LkReached (l : List Start) (st : St) : Prop := ∃ s, run (start l) s = some st

theorem LkReached.inv {l st} {S : Obj → Prop} (hl : ∀ x ∈ l, StartOk S x) (h : LkReached l st) : Inv S st := by
  obtain ⟨s, hs⟩ := h
  exact lock_run_inv (start_inv hl) hs

/-- Nothing is asked of the data. -/
theorem LkReached.inv0 {l st} (h : LkReached l st) : Inv (fun _ => False) st := h.inv fun x _ => startOk_none x

/-- Where a thread is on its way through the locks. -/
def pot (th : Th) : Nat :=
  match th.prog with
  | .rd l _ => 4 * rank l + 1
  | .wr l _ => 4 * rank l + 2
  | .join (.ch _) _ => 3
  | _ => 0

theorem blocks_waiting {a b : Th} (h : Blocks a b) :
    (∃ l k, a.prog = .rd l k) ∨ (∃ l k, a.prog = .wr l k ∧ a.arrived = true) ∨ ∃ t k, a.prog = .join t k := by
  unfold Blocks at h
  split at h
  · exact .inl ⟨_, _, by assumption⟩
  · exact .inr (.inl ⟨_, _, by assumption, h.1⟩)
  · exact .inr (.inr ⟨_, _, by assumption⟩)
  · exact h.elim

/-- A thread that holds a lock and waits is further than one that waits for that lock. -/
theorem pot_held {b c : Th} {S : Obj → Prop} (hb : ThOk S b) (hbc : Blocks b c) {l : Lk} {m : Bool} (hl : (l, m) ∈ b.held) :
    4 * rank l + 2 < pot b := by
  unfold ThOk at hb
  rcases blocks_waiting hbc with ⟨l', k, hp⟩ | ⟨l', k, hp, _⟩ | ⟨t, k, hp⟩
  · rw [hp] at hb
    have h1 := hb.2.1 _ hl
    simp only [pot, hp]
    simp only at h1
    omega
  · rw [hp] at hb
    have h1 := hb.2.1 _ hl
    simp only [pot, hp]
    simp only at h1
    omega
  · rw [hp] at hb
    cases t with
    | app => exact hb.2.1.elim
    | ch i =>
      have h1 := hb.2.1 _ hl
      simp only [pot, hp]
      simp only at h1
      omega
    | cert =>
      have h1 : b.held = [] := hb.2.1
      rw [h1] at hl
      cases hl

theorem pot_lt {a b c : Th} {S : Obj → Prop} (ha : ThOk S a) (hb : ThOk S b) (hab : Blocks a b) (hbc : Blocks b c) :
    pot a < pot b := by
  rcases blocks_waiting hab with ⟨l, k, hp⟩ | ⟨l, k, hp, _⟩ | ⟨t, k, hp⟩
  · simp only [Blocks, hp] at hab
    rcases hab with h | ⟨_, k', hp'⟩
    · have := pot_held hb hbc h
      simp only [pot, hp] at *
      omega
    · simp only [pot, hp, hp']
      omega
  · simp only [Blocks, hp] at hab
    obtain ⟨_, m, hm⟩ := hab
    have := pot_held hb hbc hm
    simp only [pot, hp] at *
    omega
  · simp only [Blocks, hp] at hab
    unfold ThOk at ha
    rw [hp] at ha
    cases t with
    | app => exact ha.2.1.elim
    | ch i =>
      simp only [pot, hp]
      unfold ThOk at hb
      rw [hab.1] at hb
      simp only [lowOf] at hb
      rcases blocks_waiting hbc with ⟨l', k', hp'⟩ | ⟨l', k', hp', _⟩ | ⟨t', k', hp'⟩
      · rw [hp'] at hb ⊢
        have := hb.1
        simp only
        omega
      · rw [hp'] at hb ⊢
        have := hb.1
        simp only
        omega
      · rw [hp'] at hb
        simp [Ok] at hb
    | cert =>
      simp only [pot, hp]
      unfold ThOk at hb
      rw [hab.1] at hb
      rcases blocks_waiting hbc with ⟨l', k', hp'⟩ | ⟨l', k', hp', _⟩ | ⟨t', k', hp'⟩
      · rw [hp']; simp only; omega
      · rw [hp']; simp only; omega
      · rw [hp'] at hb
        simp [Ok] at hb

theorem waits_pot {st : St} {S : Obj → Prop} (hi : Inv S st) {u v : Nat} (h : Relation.TransGen (WaitsFor st) u v) {w : Nat} (hw : WaitsFor st v w) :
    ∃ a b, st[u]? = some a ∧ st[v]? = some b ∧ pot a < pot b := by
  induction h generalizing w with
  | single h =>
    obtain ⟨a, b, ha, hb, hab⟩ := h
    obtain ⟨b', c, hb', hc, hbc⟩ := hw
    cases hb.symm.trans hb'
    exact ⟨a, b, ha, hb, pot_lt (hi.1 a (List.mem_of_getElem? ha)) (hi.1 b (List.mem_of_getElem? hb)) hab hbc⟩
  | tail h1 h2 ih =>
    obtain ⟨a, b, ha, hb, hlt⟩ := ih h2
    obtain ⟨b', c, hb', hc, hbc⟩ := h2
    cases hb.symm.trans hb'
    obtain ⟨c', d, hc', hd, hcd⟩ := hw
    cases hc.symm.trans hc'
    exact ⟨a, c, ha, hc, Nat.lt_trans hlt (pot_lt (hi.1 b (List.mem_of_getElem? hb)) (hi.1 c (List.mem_of_getElem? hc)) hbc hcd)⟩

/-- C182: threads of applications, of Call Home clients and of certificate notifications never wait for each other in a circle. -/
theorem no_deadlock_partial {l : List Start} {st : St} (h : LkReached l st) (u : Nat) : ¬Relation.TransGen (WaitsFor st) u u := by
  intro hc
  have hw : ∃ w, WaitsFor st u w := by
    have : ∀ {v}, Relation.TransGen (WaitsFor st) u v → ∃ w, WaitsFor st u w := by
      intro v hv
      induction hv with
      | single h => exact ⟨_, h⟩
      | tail _ _ ih => exact ih
    exact this hc
  obtain ⟨w, hw⟩ := hw
  obtain ⟨a, b, ha, hb, hlt⟩ := waits_pot h.inv0 hc hw
  cases ha.symm.trans hb
  omega

/-- C182: a thread that is not done and waits for no other one can go on. -/
theorem lock_progress {st : St} {t : Nat} {th : Th} (ht : st[t]? = some th) (hd : th.prog ≠ .done) (hw : ∀ v, ¬WaitsFor st t v) :
    ∃ b st', step st t b = some st' := by
  have hnb : ∀ b ∈ st, ¬Blocks th b := by
    intro b hb hab
    obtain ⟨v, hv, hvb⟩ := List.getElem_of_mem hb
    exact hw v ⟨th, b, ht, by rw [List.getElem?_eq_getElem hv, hvb], hab⟩
  obtain ⟨tag, prog, arr, held⟩ := th
  unfold step
  rw [ht]
  cases prog with
  | done => exact absurd rfl hd
  | rd l k =>
    refine ⟨true, _, if_pos (canRd_iff.2 fun b hb => ?_)⟩
    have h1 := hnb b hb
    simp only [Blocks, not_or, not_and] at h1
    refine ⟨h1.1, ?_⟩
    unfold waitsToWrite
    cases hba : b.arrived with
    | false => rfl
    | true =>
      simp only [Bool.true_and]
      split
      · rename_i l' k' hp
        simp only [decide_eq_false_iff_not]
        rintro rfl
        exact h1.2 hba ⟨_, hp⟩
      · rfl
  | wr l k =>
    cases arr with
    | false => exact ⟨true, _, rfl⟩
    | true =>
      refine ⟨true, _, if_pos (canWr_iff.2 fun b hb x hx he => ?_)⟩
      have h1 := hnb b hb
      simp only [Blocks, true_and, not_exists] at h1
      exact h1 x.2 (by rw [← he]; exact hx)
  | un l k => exact ⟨true, _, rfl⟩
  | «try» l p q => exact ⟨false, _, rfl⟩
  | acc w d k => exact ⟨true, _, rfl⟩
  | join w k =>
    refine ⟨true, _, if_pos (ended_iff.2 fun b hb hbt => ?_)⟩
    have h1 := hnb b hb
    simp only [Blocks, not_and, Decidable.not_not] at h1
    exact h1 hbt
  | or p q => exact ⟨true, _, rfl⟩

/-- How much a program still does at most. -/
def psize : Prog → Nat
  | .done => 0
  | .rd _ k => psize k + 2
  | .wr _ k => psize k + 2
  | .un _ k => psize k + 2
  | .try _ a b => psize a + psize b + 2
  | .acc _ _ k => psize k + 2
  | .join _ k => psize k + 2
  | .or a b => psize a + psize b + 2

/-- How much a thread still does at most. -/
def tsize (th : Th) : Nat := psize th.prog + if th.arrived = true then 0 else 1

/-- How much all threads still do at most. -/
def ssize (st : St) : Nat := (st.map tsize).sum

theorem ssize_set : ∀ {st : St} {t : Nat} {a a' : Th}, st[t]? = some a → tsize a' < tsize a → ssize (st.set t a') < ssize st
  | [], _, _, _, h, _ => by simp at h
  | x :: st, 0, a, a', h, hlt => by
    simp only [List.getElem?_cons_zero, Option.some.injEq] at h
    subst h
    simp only [List.set_cons_zero, ssize, List.map_cons, List.sum_cons]
    omega
  | x :: st, t + 1, a, a', h, hlt => by
    simp only [List.getElem?_cons_succ] at h
    have := ssize_set h hlt
    simp only [List.set_cons_succ, ssize, List.map_cons, List.sum_cons] at this ⊢
    omega

theorem step_ssize {st st' : St} {t : Nat} {b : Bool} (hs : step st t b = some st') : ssize st' < ssize st := by
  unfold step at hs
  cases ha : st[t]? with
  | none => rw [ha] at hs; cases hs
  | some a =>
    rw [ha] at hs
    obtain ⟨tag, prog, arr, held⟩ := a
    have key : ∀ a' : Th, psize a'.prog + 2 ≤ psize prog → ssize (st.set t a') < ssize st := by
      intro a' h
      refine ssize_set ha ?_
      simp only [tsize]
      split <;> split <;> omega
    cases prog with
    | done => cases hs
    | rd l k =>
      simp only at hs
      split at hs <;> cases hs
      exact key _ (Nat.le_refl _)
    | wr l k =>
      simp only at hs
      split at hs
      · rename_i h
        cases hs
        refine ssize_set ha ?_
        simp [tsize, h]
      · split at hs <;> cases hs
        exact key _ (Nat.le_refl _)
    | un l k => cases hs; exact key _ (Nat.le_refl _)
    | «try» l p q =>
      simp only at hs
      split at hs
      · cases hs; exact key _ (by simp only [psize]; omega)
      · split at hs <;> cases hs
        exact key _ (by simp only [psize]; omega)
    | acc w d k => cases hs; exact key _ (Nat.le_refl _)
    | join w k =>
      simp only at hs
      split at hs <;> cases hs
      exact key _ (Nat.le_refl _)
    | or p q =>
      cases hs
      refine key _ ?_
      cases b <;> simp only [psize, if_true, if_neg (Bool.false_ne_true)] <;> omega

/-- A list with something in it has something largest in it. -/
theorem exists_max {α : Type} (f : α → Nat) : ∀ l : List α, l ≠ [] → ∃ x ∈ l, ∀ y ∈ l, f y ≤ f x
  | [x], _ => ⟨x, List.mem_cons_self, fun y hy => by simp at hy; rw [hy]; exact Nat.le_refl _⟩
  | x :: y :: l, _ => by
    obtain ⟨z, hz, hmax⟩ := exists_max f (y :: l) (by simp)
    by_cases h : f x ≤ f z
    · refine ⟨z, List.mem_cons_of_mem _ hz, fun w hw => ?_⟩
      rcases List.mem_cons.1 hw with rfl | hw
      · exact h
      · exact hmax w hw
    · refine ⟨x, List.mem_cons_self, fun w hw => ?_⟩
      rcases List.mem_cons.1 hw with rfl | hw
      · exact Nat.le_refl _
      · have := hmax w hw; omega

theorem done_blocks_none {a b : Th} {S : Obj → Prop} (hb : ThOk S b) (hd : b.prog = .done) : ¬Blocks a b := by
  unfold ThOk at hb
  rw [hd] at hb
  have hh : b.held = [] := hb
  intro h
  unfold Blocks at h
  split at h
  · rw [hh] at h
    rcases h with h | ⟨_, k, h⟩
    · cases h
    · rw [hd] at h; cases h
  · rw [hh] at h
    obtain ⟨_, m, h⟩ := h
    cases h
  · exact h.2 hd
  · exact h

/-- C182: as long as not all threads are done, one of them can go on. -/
theorem lock_live_partial {l : List Start} {st : St} (h : LkReached l st) (hn : ∃ th ∈ st, th.prog ≠ .done) :
    ∃ t b st', step st t b = some st' := by
  have hi := h.inv0
  have hne : (st.filter fun th => decide (th.prog ≠ .done)) ≠ [] := by
    obtain ⟨th, hth, hd⟩ := hn
    intro he
    have : th ∈ st.filter fun th => decide (th.prog ≠ .done) := List.mem_filter.2 ⟨hth, by simpa using hd⟩
    rw [he] at this
    cases this
  obtain ⟨a, ha, hmax⟩ := exists_max pot _ hne
  obtain ⟨ha1, ha2⟩ := List.mem_filter.1 ha
  have had : a.prog ≠ .done := by simpa using ha2
  obtain ⟨t, ht, hta⟩ := List.getElem_of_mem ha1
  have hta' : st[t]? = some a := by rw [List.getElem?_eq_getElem ht, hta]
  by_cases hw : ∀ v, ¬WaitsFor st t v
  · obtain ⟨b, st', hs⟩ := lock_progress hta' had hw
    exact ⟨t, b, st', hs⟩
  · obtain ⟨v, hv⟩ := Classical.not_forall.1 hw
    obtain ⟨a', b, ha', hb, hab⟩ := Classical.not_not.1 hv
    cases hta'.symm.trans ha'
    have hbm := List.mem_of_getElem? hb
    have hbd : b.prog ≠ .done := fun hd => done_blocks_none (hi.1 b hbm) hd hab
    by_cases hw2 : ∀ w, ¬WaitsFor st v w
    · obtain ⟨c, st', hs⟩ := lock_progress hb hbd hw2
      exact ⟨v, c, st', hs⟩
    · obtain ⟨w, hw2⟩ := Classical.not_forall.1 hw2
      obtain ⟨b', c, hb', hc, hbc⟩ := Classical.not_not.1 hw2
      cases hb.symm.trans hb'
      have h1 := pot_lt (hi.1 a ha1) (hi.1 b hbm) hab hbc
      have h2 := hmax b (List.mem_filter.2 ⟨hbm, by simpa using hbd⟩)
      omega

theorem run_ssize : ∀ {s : List (Nat × Bool)} {st st' : St}, run st s = some st' → s.length + ssize st' ≤ ssize st
  | [], _, _, h => by cases h; simp
  | (t, b) :: s, st, st', h => by
    rw [run_cons] at h
    cases h1 : step st t b with
    | none => rw [h1] at h; cases h
    | some st1 =>
      rw [h1] at h
      have h2 := step_ssize h1
      have h3 : run st1 s = some st' := h
      have h4 := run_ssize h3
      simp only [List.length_cons]
      omega

/-- C182: executions are finite (with loops run as often as their arguments say), and one that cannot be continued has all calls returned and all locks released. -/
theorem calls_return_partial (l : List Start) :
    (∃ n, ∀ s st, run (start l) s = some st → s.length ≤ n) ∧
    ∀ st, LkReached l st → (∀ t b, step st t b = none) → ∀ th ∈ st, th.prog = .done ∧ th.held = [] := by
  refine ⟨⟨ssize (start l), fun s st h => by have := run_ssize h; omega⟩, ?_⟩
  intro st h hstuck th hth
  have hd : th.prog = .done := by
    apply Classical.byContradiction
    intro hd
    obtain ⟨t, b, st', hs⟩ := lock_live_partial h ⟨th, hth, hd⟩
    rw [hstuck t b] at hs
    cases hs
  refine ⟨hd, ?_⟩
  have h1 := h.inv0.1 th hth
  unfold ThOk at h1
  rw [hd] at h1
  exact h1

/-- C182: two threads hold one lock only if both hold it for reading, and a thread only releases locks it holds. -/
theorem locks_exclusive {l : List Start} {st : St} (h : LkReached l st) :
    (∀ (t u : Nat) a b lk m, st[t]? = some a → st[u]? = some b → (lk, true) ∈ a.held → (lk, m) ∈ b.held → t = u) ∧
    ∀ th ∈ st, ∀ lk k, th.prog = .un lk k → ∃ m, (lk, m) ∈ th.held := by
  refine ⟨fun t u a b lk m ha hb h1 h2 => h.inv0.2 t u a b ha hb lk m h1 h2, ?_⟩
  intro th hth lk k hp
  have h1 := h.inv0.1 th hth
  unfold ThOk at h1
  rw [hp] at h1
  obtain ⟨x, hx, he⟩ := h1.1
  exact ⟨x.2, by rw [← he]; exact hx⟩

/-! ## Races -/

/-- Two threads are about to use the same data and one of them writes it. -/
def Race (st : St) (d : Obj) : Prop :=
  ∃ (u v : Nat) (a b : Th) (w w' : Bool) (k k' : Prog), u ≠ v ∧ st[u]? = some a ∧ st[v]? = some b ∧
    a.prog = .acc w d k ∧ b.prog = .acc w' d k' ∧ (w = true ∨ w' = true)

theorem no_race {l : List Start} {st : St} {d : Obj} (hl : ∀ x ∈ l, StartOk (· = d) x) (h : LkReached l st) : ¬Race st d := by
  rintro ⟨u, v, a, b, w, w', k, k', hne, ha, hb, hpa, hpb, hw⟩
  have hi := h.inv hl
  have h1 := hi.1 a (List.mem_of_getElem? ha)
  have h2 := hi.1 b (List.mem_of_getElem? hb)
  unfold ThOk at h1 h2
  rw [hpa] at h1
  rw [hpb] at h2
  have g1 := h1.1 rfl
  have g2 := h2.1 rfl
  unfold GuardOk at g1 g2
  rcases g1 with g1 | ⟨e1, g1⟩
  · rcases g2 with g2 | ⟨_, g2⟩
    · exact hne (hi.2 u v a b ha hb _ _ g1 g2)
    · exact hne (hi.2 u v a b ha hb _ _ g1 g2)
  · rcases g2 with g2 | ⟨e2, g2⟩
    · exact hne (hi.2 v u b a hb ha _ _ g2 g1).symm
    · rcases hw with hw | hw
      · rw [e1] at hw; cases hw
      · rw [e2] at hw; cases hw

/-- Calls of application threads. -/
def callsOf : Start → List Call
  | .app cs => cs
  | _ => []

/-- C183: without Call Home threads and `nc_server_endpt_count`, the configuration of the server is not changed while it is used. -/
theorem config_race_partial {l : List Start} {st : St} (hch : ∀ i e rs, Start.ch i e rs ∉ l)
    (hcount : ∀ x ∈ l, Call.endptCount ∉ callsOf x) (h : LkReached l st) : ¬Race st .cfg := by
  refine no_race ?_ h
  intro x hx
  cases x with
  | app cs =>
    intro c hc
    cases c <;> simp [CallOk]
    exact hcount _ hx hc
  | ch i e rs => exact absurd hx (hch i e rs)
  | cert is rs => simp [StartOk]

/-- C184: the array of Call Home clients is never changed while it is used. -/
theorem clients_race {l : List Start} {st : St} (h : LkReached l st) : ¬Race st .clients := by
  refine no_race ?_ h
  intro x hx
  cases x with
  | app cs => intro c hc; cases c <;> simp [CallOk]
  | ch i e rs => simp [StartOk]
  | cert is rs => simp [StartOk]

/-- C184: without `nc_server_ch_client_is_endpt`, the configuration of a Call Home client is not changed while it is used. -/
theorem client_race_partial {l : List Start} {st : St} {i : Nat} (hc : ∀ x ∈ l, Call.isEndpt i ∉ callsOf x) (h : LkReached l st) :
    ¬Race st (.clientCfg i) := by
  refine no_race ?_ h
  intro x hx
  cases x with
  | app cs =>
    intro c hcs
    cases c <;> simp [CallOk]
    rintro rfl
    exact hc _ hx hcs
  | ch i e rs => simp [StartOk]
  | cert is rs => simp [StartOk]

/-- C185: without the thread for certificates, the intervals of its notifications are not changed while they are used. -/
theorem intervals_race_partial {l : List Start} {st : St} (hc : ∀ is rs, Start.cert is rs ∉ l) (h : LkReached l st) :
    ¬Race st .intervals := by
  refine no_race ?_ h
  intro x hx
  cases x with
  | app cs => intro c hcs; cases c <;> simp [CallOk]
  | ch i e rs => simp [StartOk]
  | cert is rs => exact absurd hx (hc is rs)

/-- The state after a schedule. -/
def lkAfter (l : List Start) (s : List (Nat × Bool)) : St := (run (start l) s).getD []

theorem reached_after {l s} (h : (run (start l) s).isSome = true) : LkReached l (lkAfter l s) := by
  obtain ⟨st, hst⟩ := Option.isSome_iff_exists.1 h
  exact ⟨s, by rw [lkAfter, hst]; rfl⟩

/-- Threads `u` and `v` are about to use `d`, one of them to write it. -/
def racing (st : St) (d : Obj) (u v : Nat) : Bool :=
  match st[u]?, st[v]? with
  | some a, some b =>
    match a.prog, b.prog with
    | .acc w d' _, .acc w' d'' _ => d' == d && d'' == d && (w || w')
    | _, _ => false
  | _, _ => false

theorem racing_race {st d u v} (h : racing st d u v = true) (hne : u ≠ v) : Race st d := by
  unfold racing at h
  split at h
  · rename_i a b ha hb
    split at h
    · rename_i w d' k w' d'' k' hp hp'
      simp only [Bool.and_eq_true, beq_iff_eq, Bool.or_eq_true] at h
      obtain ⟨⟨rfl, h2⟩, h3⟩ := h
      subst h2
      exact ⟨u, v, a, b, w, w', k, k', hne, ha, hb, hp, hp', h3⟩
    · cases h
  · cases h

/-- Steps of one thread. -/
def steps (t : Nat) (bs : List Bool) : List (Nat × Bool) := bs.map fun b => (t, b)

/-- A Call Home thread that connects, beside a change of the keystore or of something else that is not of a Call Home client. -/
def chAndSetup : List Start := [.ch 0 0 [⟨0, none, 0, 0, 0⟩], .app [.setup [.listen]]]

/-- The Call Home thread authenticates the peer while the other thread makes the change. -/
def chAndSetupRun : List (Nat × Bool) :=
  steps 0 [true, true, true, true, true, true, true, true, true, true, true, true, false] ++ steps 1 [true, true]

/-- A thread asking for an endpoint of a client, beside one adding an endpoint to it. -/
def endptAndSetup : List Start := [.app [.isEndpt 0], .app [.setup [.client 0]]]

/-- The endpoints are read while they are moved. -/
def endptAndSetupRun : List (Nat × Bool) :=
  steps 0 [true, true, false] ++ steps 1 [true, true, true, true, true, true, true]

/-- The thread for certificates beside a change of an interval. -/
def certAndSetup : List Start := [.cert [] [], .app [.setup [.interval]]]

/-- The intervals are read while they are moved. -/
def certAndSetupRun : List (Nat × Bool) := steps 0 [true, true, true, true] ++ steps 1 [true, true, true, true]

/-- C182 is false once `nc_connect_ssh_channel` does not get a channel: a thread of the session then waits for ever for a thread that has ended, in every order the two go on. -/
theorem lock_live_false : ∃ (s n rpcs : Nat) (cs : List Call) (sched : List (Nat × Bool)) (st : St),
    run [{ tag := .app, prog := connectChannel s n false rpcs .done }, { tag := .app, prog := calls cs }] sched = some st ∧
    (∃ a, st[0]? = some a ∧ a.prog = .done ∧ a.held ≠ []) ∧ (∃ b, st[1]? = some b ∧ b.prog ≠ .done) ∧ WaitsFor st 1 0 ∧
    ∀ t b, step st t b = none := by
  refine ⟨0, 1, 0, [.msgIo 0], [(0, true), (0, true), (0, true), (1, true), (1, true)],
    [⟨.app, .done, false, [(.io 0, true)]⟩, ⟨.app, .wr (.io 0) (.un (.io 0) .done), true, []⟩], by decide +kernel,
    ⟨_, rfl, rfl, by simp⟩, ⟨_, rfl, by simp⟩, ⟨_, _, rfl, rfl, rfl, true, by simp⟩, ?_⟩
  intro t b
  rcases t with _ | _ | t
  · rfl
  · rfl
  · rfl

/-- C182 is false for one thread too: after `nc_connect_ssh_channel` did not get a channel, the thread waits for itself at the next call. -/
theorem no_deadlock_false : ∃ (s n rpcs : Nat) (c : Call) (sched : List (Nat × Bool)) (st : St),
    run [{ tag := .app, prog := connectChannel s n false rpcs (c.prog .done) }] sched = some st ∧
    Relation.TransGen (WaitsFor st) 0 0 :=
  ⟨0, 1, 0, .msgIo 0, [(0, true), (0, true), (0, true), (0, true), (0, true)],
    [⟨.app, .wr (.io 0) (.un (.io 0) .done), true, [(.io 0, true)]⟩], by decide +kernel,
    .single ⟨_, _, rfl, rfl, rfl, true, by simp⟩⟩

/-- C183 is false: keystore, truststore and referenced endpoints are used by a Call Home thread while they are changed. -/
theorem config_race_false : ∃ l st, LkReached l st ∧ Race st .cfg :=
  ⟨chAndSetup, lkAfter chAndSetup chAndSetupRun, reached_after (by decide +kernel), racing_race (u := 0) (v := 1) (by decide +kernel) (by decide)⟩

/-- C183 is false without Call Home too: `nc_server_endpt_count` reads the number of endpoints while it is changed. -/
theorem config_race_count_false : ∃ cs cs' st, LkReached [.app cs, .app cs'] st ∧ Race st .cfg :=
  ⟨[.endptCount], [.setup [.listen]], lkAfter [.app [.endptCount], .app [.setup [.listen]]] (steps 1 [true, true]),
    reached_after (by decide +kernel), racing_race (u := 0) (v := 1) (by decide +kernel) (by decide)⟩

/-- C184 is false: `nc_server_ch_client_is_endpt` reads the endpoints of a client while they are changed. -/
theorem client_race_false : ∃ l st i, LkReached l st ∧ Race st (.clientCfg i) :=
  ⟨endptAndSetup, lkAfter endptAndSetup endptAndSetupRun, 0, reached_after (by decide +kernel), racing_race (u := 0) (v := 1) (by decide +kernel) (by decide)⟩

/-- C185 is false: the thread for certificates reads the intervals while they are changed. -/
theorem intervals_race_false : ∃ l st, LkReached l st ∧ Race st .intervals :=
  ⟨certAndSetup, lkAfter certAndSetup certAndSetupRun, reached_after (by decide +kernel), racing_race (u := 0) (v := 1) (by decide +kernel) (by decide)⟩

/-! ## Examples -/

/-- Accepting, removing a Call Home client, and its thread. -/
def acceptRemove : List Start := [.app [.accept 7], .app [.setup [.remove 0 true]], .ch 0 0 [⟨3, some 1, 1, 0, 0⟩]]

/-- The second thread has removed the client and waits for its thread, which has not run yet, with `config_lock` held; the first one wants that lock. -/
def acceptRemoveRun : List (Nat × Bool) := steps 1 [true, true, true, true, true, false, true, true, true, true]

/-- Three threads, of which the first waits for the second and that one for the third, which can go on. -/
example : LkReached acceptRemove (lkAfter acceptRemove acceptRemoveRun) ∧
    WaitsFor (lkAfter acceptRemove acceptRemoveRun) 0 1 ∧ WaitsFor (lkAfter acceptRemove acceptRemoveRun) 1 2 ∧
    (step (lkAfter acceptRemove acceptRemoveRun) 2 true).isSome = true := by
  refine ⟨reached_after (by decide +kernel), ⟨_, _, rfl, rfl, .inl ?_⟩, ⟨_, _, rfl, rfl, ?_⟩, by decide +kernel⟩
  · decide +kernel
  · exact ⟨rfl, by decide +kernel⟩

/-- Two threads with locks in opposite orders would wait for each other in a circle. -/
example : Relation.TransGen (WaitsFor
    [⟨.app, .wr .cert .done, true, [(.config, true)]⟩, ⟨.app, .wr .config .done, true, [(.cert, true)]⟩]) 0 0 :=
  .tail (.single (b := 1) ⟨_, _, rfl, rfl, rfl, true, List.mem_cons_self⟩) ⟨_, _, rfl, rfl, rfl, true, List.mem_cons_self⟩

/-- A thread reading a lock it already reads, with a writer waiting, would be a circle too. -/
example : Relation.TransGen (WaitsFor
    [⟨.app, .rd .config .done, false, [(.config, false)]⟩, ⟨.app, .wr .config .done, true, []⟩]) 0 0 :=
  .tail (.single (b := 1) ⟨_, _, rfl, rfl, .inr ⟨rfl, _, rfl⟩⟩) ⟨_, _, rfl, rfl, rfl, false, List.mem_cons_self⟩

/-- Two threads that return, with no step left. -/
example : LkReached [.app [.setOne], .app [.isClient]] [⟨.app, .done, false, []⟩, ⟨.app, .done, false, []⟩] :=
  ⟨[(0, true), (1, true), (0, true), (1, true), (0, true), (1, true), (0, true)], by decide +kernel⟩

/-- Two channels of one session are opened by two threads at the same time: both calls return. -/
example : ((run (start [.app [.openedChannel 0 1 1], .app [.openedChannel 0 2 1]])
      (steps 0 [true, true] ++ steps 1 [true] ++ steps 0 [true, true, true] ++ steps 1 [true, true, true, true])).map
        fun st => st.map fun th => (th.prog, th.held)) = some [(.done, []), (.done, [])] := by decide +kernel

/-- Two threads accept and use the configuration at the same time, a third one waits to change it. -/
example : LkReached [.app [.accept 1], .app [.accept 2], .app [.setup [.listen]]]
      (lkAfter [.app [.accept 1], .app [.accept 2], .app [.setup [.listen]]] [(0, true), (1, true), (2, true)]) ∧
    WaitsFor (lkAfter [.app [.accept 1], .app [.accept 2], .app [.setup [.listen]]] [(0, true), (1, true), (2, true)]) 2 0 ∧
    WaitsFor (lkAfter [.app [.accept 1], .app [.accept 2], .app [.setup [.listen]]] [(0, true), (1, true), (2, true)]) 2 1 := by
  refine ⟨reached_after (by decide +kernel), ⟨_, _, rfl, rfl, rfl, false, ?_⟩, ⟨_, _, rfl, rfl, rfl, false, ?_⟩⟩
  · decide +kernel
  · decide +kernel

/-- The array of clients is read by two threads at the same time. -/
example : LkReached [.app [.isClient], .app [.dispatch 4]] (lkAfter [.app [.isClient], .app [.dispatch 4]] [(0, true), (1, true)]) ∧
    ((lkAfter [.app [.isClient], .app [.dispatch 4]] [(0, true), (1, true)]).map fun th => th.held) = [[(.chClients, false)], [(.chClients, false)]] :=
  ⟨reached_after (by decide +kernel), by decide +kernel⟩

/-- The thread of a client uses its configuration with the lock of the client, which a change of it waits for. -/
example : WaitsFor (lkAfter [.ch 0 0 [], .app [.setup [.client 0]]] (steps 0 [true, true, true, true, true] ++ steps 1 [true, true, true, true, true, true])) 1 0 := by
  refine ⟨_, _, rfl, rfl, rfl, true, ?_⟩
  decide +kernel

end Verif.Props
