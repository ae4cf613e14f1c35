import Verif.Lemmas.Poll
import Verif.Lemmas.PollBits

namespace Verif.Props

open Verif.Poll Verif.Spec

/-! ## C15: the poll structure is a set of sessions -/

/-- Operations on a poll structure. -/
inductive PsOp where
  | add (s : Nat)
  | del (s : Nat)
  deriving DecidableEq, Repr

/-- The model run over a sequence of operations, with the return values (`true` for 0); `none` is undefined behaviour. -/
def psRun : List PsOp → Ps → Option (Ps × List Bool)
  | [], ps => some (ps, [])
  | .add s :: ops, ps => (add ps s).bind fun ps' => (psRun ops ps').map fun r => (r.1, true :: r.2)
  | .del s :: ops, ps =>
    match del ps s with
    | none => (psRun ops ps).map fun r => (r.1, false :: r.2)
    | some ps' => (psRun ops ps').map fun r => (r.1, true :: r.2)

/-- Specification: how often `s` is in the set after the operations. -/
def occurrences (s : Nat) : List PsOp → Nat → Nat
  | [], n => n
  | .add t :: ops, n => occurrences s ops (if t = s then n + 1 else n)
  | .del t :: ops, n => occurrences s ops (if t = s then n - 1 else n)

/-- Specification: return values; `occ` is the number of occurrences of each session. -/
def psReturns : List PsOp → (Nat → Nat) → List Bool
  | [], _ => []
  | .add t :: ops, occ => true :: psReturns ops (fun s => if s = t then occ s + 1 else occ s)
  | .del t :: ops, occ => decide (0 < occ t) :: psReturns ops (fun s => if s = t then occ s - 1 else occ s)

theorem psRun_spec (ops : List PsOp) : ∀ (ps : Ps), ps.sessions.length + ops.length < 65536 →
    ∃ ps' rets, psRun ops ps = some (ps', rets) ∧
      (∀ s, (ps'.sessions.map (·.sess)).count s = occurrences s ops ((ps.sessions.map (·.sess)).count s)) ∧
      rets = psReturns ops (fun s => (ps.sessions.map (·.sess)).count s) := by
  induction ops with
  | nil => intro ps _; exact ⟨ps, [], rfl, fun _ => rfl, rfl⟩
  | cons op ops ih =>
    intro ps hlen
    simp only [List.length_cons] at hlen
    cases op with
    | add t =>
      have hadd : add ps t = some { ps with sessions := ps.sessions ++ [⟨t, .none⟩] } := by
        unfold add; rw [if_neg (by omega)]
      obtain ⟨ps', rets, h1, h2, h3⟩ := ih { ps with sessions := ps.sessions ++ [⟨t, .none⟩] } (by simp; omega)
      have hc : ∀ s, ((ps.sessions ++ [(⟨t, .none⟩ : PsSess)]).map (·.sess)).count s =
          if s = t then (ps.sessions.map (·.sess)).count s + 1 else (ps.sessions.map (·.sess)).count s := by
        intro s
        simp only [List.map_append, List.map_cons, List.map_nil, List.count_append, List.count_cons, List.count_nil, beq_iff_eq]
        by_cases h : s = t
        · subst h; simp
        · simp [h, Ne.symm h]
      refine ⟨ps', true :: rets, by simp [psRun, hadd, h1], ?_, ?_⟩
      · intro s
        rw [h2 s, hc s, occurrences]
        by_cases h : s = t
        · subst h; simp
        · simp [h, Ne.symm h]
      · rw [h3, psReturns]
        simp only [hc]
    | del t =>
      cases hf : ps.sessions.findIdx? (fun x => x.sess == t) with
      | none =>
        have h0 : (ps.sessions.map (·.sess)).count t = 0 := by
          rw [List.count_eq_zero]
          intro hm
          obtain ⟨x, hx, rfl⟩ := List.mem_map.mp hm
          simpa using List.findIdx?_eq_none_iff.mp hf x hx
        obtain ⟨ps', rets, h1, h2, h3⟩ := ih ps (by omega)
        refine ⟨ps', false :: rets, by simp [psRun, del, hf, h1], ?_, ?_⟩
        · intro s
          rw [h2 s, occurrences]
          by_cases h : t = s
          · subst h; simp [h0]
          · simp [h]
        · rw [h3, psReturns, h0]
          simp only [Nat.lt_irrefl, decide_false]
          congr 2
          funext s
          by_cases h : s = t
          · subst h; simp [h0]
          · simp [h]
      | some i =>
        obtain ⟨hi, hx, _⟩ := List.findIdx?_eq_some_iff_getElem.mp hf
        have hl := delAt_length ps i hi
        have hpos : 0 < (ps.sessions.map (·.sess)).count t := by
          rw [List.count_pos_iff]
          exact List.mem_map.mpr ⟨_, List.getElem_mem hi, by simpa using hx⟩
        have hperm := (delAt_perm ps i hi).map (·.sess)
        rw [eraseIdx_map_perm_erase _ _ _ hf] at hperm
        have hc : ∀ s, ((delAt ps i).sessions.map (·.sess)).count s =
            if s = t then (ps.sessions.map (·.sess)).count s - 1 else (ps.sessions.map (·.sess)).count s := by
          intro s
          rw [hperm.count_eq]
          by_cases h : s = t
          · subst h; simp [List.count_erase_self]
          · rw [if_neg h, List.count_erase_of_ne (by simpa using h)]
        obtain ⟨ps', rets, h1, h2, h3⟩ := ih (delAt ps i) (by omega)
        refine ⟨ps', true :: rets, by simp [psRun, del, hf, h1], ?_, ?_⟩
        · intro s
          rw [h2 s, hc s, occurrences]
          by_cases h : s = t
          · subst h; simp
          · simp [h, Ne.symm h]
        · rw [h3, psReturns]
          simp only [hc, hpos, decide_true]

/-- **C15** For every sequence of fewer than 65536 additions and deletions no operation is undefined, each session is in the poll
structure as often as it was added and not deleted, deletions report whether the session was there, the count API agrees
and indexed access enumerates exactly the content. -/
theorem poll_set (ops : List PsOp) (h : ops.length < 65536) :
    ∃ ps rets, psRun ops Ps.new = some (ps, rets) ∧
      (∀ s, ((List.range (count ps)).filterMap (Poll.get ps)).count s = occurrences s ops 0) ∧
      (∀ i, (Poll.get ps i).isSome ↔ i < count ps) ∧
      rets = psReturns ops (fun _ => 0) := by
  obtain ⟨ps, rets, h1, h2, h3⟩ := psRun_spec ops Ps.new (by simpa [Ps.new] using h)
  refine ⟨ps, rets, h1, ?_, ?_, ?_⟩
  · intro s
    have : (List.range (count ps)).filterMap (Poll.get ps) = ps.sessions.map (·.sess) := by
      unfold count Poll.get
      generalize ps.sessions = l
      induction l with
      | nil => rfl
      | cons x l ih =>
        rw [List.length_cons, List.range_succ_eq_map]
        simp only [List.filterMap_cons, List.getElem?_cons_zero, Option.map_some, List.filterMap_map, List.map_cons]
        congr 1
    rw [this, h2 s]
    rfl
  · intro i; simp [Poll.get, count]
  · rw [h3]; rfl

/-- Three sessions, one twice; deleting one from the middle and an unknown one. -/
example : psRun [.add 7, .add 8, .add 7, .add 9, .del 7, .del 5] Ps.new
    = some (⟨[⟨9, .none⟩, ⟨8, .none⟩, ⟨7, .none⟩], 0⟩, [true, true, true, true, true, false]) := by decide

/-! ## C53: clearing a poll structure -/

/-- **C53** Clearing without `all` frees exactly the sessions that are not running, each once, and keeps exactly the running ones;
with `all` every session is freed once and nothing remains. -/
theorem poll_clear (running : Nat → Bool) (ps : Ps) :
    ((clear running false ps).1.sessions.map (·.sess)).Perm ((ps.sessions.map (·.sess)).filter running) ∧
    (clear running false ps).2.Perm ((ps.sessions.map (·.sess)).filter (fun s => !running s)) ∧
    (clear running true ps).1.sessions = [] ∧ (clear running true ps).2 = ps.sessions.map (·.sess) := by
  have h := clearLoop_spec running (ps.sessions.length + 1) 0 ps [] (by omega) (by omega) (by intro k x hk; omega)
  refine ⟨?_, ?_, by simp [clear], by simp [clear]⟩
  · simpa [clear] using h.1
  · simpa [clear] using h.2

example : clear (· % 2 == 0) false ⟨[⟨1, .none⟩, ⟨2, .none⟩, ⟨3, .invalid⟩, ⟨5, .none⟩, ⟨4, .none⟩], 2⟩
    = (⟨[⟨4, .none⟩, ⟨2, .none⟩], 0⟩, [1, 3, 5]) := by decide

/-! ## C18: fairness -/

/-- One step of using a poll structure: a poll, with the results the sessions would give, or the addition of a session. -/
inductive FairOp where
  | poll (res : Nat → Nat)
  | add

/-- The results which give a session to the application: a request, the end of the session (with or without error), a new SSH channel, an SSH message. -/
def isEvent (r : Nat) : Bool := r ∈ [0x4, 0x20, 0x60, 0x200, 0x100]

theorem remembered_eq (r : Nat) : remembered r = isEvent r := by
  unfold remembered isEvent rRpc rTerm rSessError rSshChannel rSshMsg
  simp [Bool.or_assoc]

/-- Indices of the sessions returned to the application by a sequence of polls on `n` sessions, the one served last being `last`. -/
def servedBy : List FairOp → (n last : Nat) → List Nat
  | [], _, _ => []
  | .add :: ops, n, last => servedBy ops (n + 1) last
  | .poll res :: ops, n, last =>
    match scan n last res with
    | none => servedBy ops n last
    | some (i, ret) =>
      if isEvent ret then i :: servedBy ops n (newLast last (some (i, ret))) else servedBy ops n last

theorem isEvent_ne_timeout (r : Nat) (h : isEvent r = true) : r ≠ rTimeout := by
  rintro rfl; revert h; decide

theorem servedBy_before (k : Nat) (ops : List FairOp) : ∀ (n last : Nat), last < n → k < n →
    (∀ res, FairOp.poll res ∈ ops → isEvent (res k)) → k ∉ servedBy ops n last →
    (servedBy ops n last).Pairwise (Before k) ∧ (∀ i ∈ servedBy ops n last, Before k last i) ∧
    (FairOp.add ∉ ops → ∀ i ∈ servedBy ops n last, i < n) := by
  induction ops with
  | nil => intro n last _ _ _ _; simp [servedBy]
  | cons op ops ih =>
    intro n last hl hk hready hnot
    cases op with
    | add =>
      simp only [servedBy] at hnot ⊢
      obtain ⟨h1, h2, _⟩ := ih (n + 1) last (by omega) (by omega) (fun r hr => hready r (List.mem_cons_of_mem _ hr)) hnot
      exact ⟨h1, h2, fun h => absurd (List.mem_cons_self) h⟩
    | poll res =>
      have hkr := hready res List.mem_cons_self
      have hrest : ∀ r, FairOp.poll r ∈ ops → isEvent (r k) := fun r hr => hready r (List.mem_cons_of_mem _ hr)
      obtain ⟨i, hs, hin, hne, hor⟩ := scan_before n last k res hl hk (isEvent_ne_timeout _ hkr)
      simp only [servedBy, hs] at hnot ⊢
      by_cases hrem : isEvent (res i) = true
      · simp only [hrem, if_true, newLast, remembered_eq] at hnot ⊢
        have hik : i ≠ k := fun h => hnot (by simp [h])
        have hb : Before k last i := by rcases hor with h | h; exact absurd h hik; exact h
        obtain ⟨h1, h2, h3⟩ := ih n i hin hk hrest (fun h => hnot (List.mem_cons_of_mem _ h))
        refine ⟨List.pairwise_cons.mpr ⟨h2, h1⟩, ?_, ?_⟩
        · intro x hx
          rcases List.mem_cons.mp hx with rfl | hx
          · exact hb
          · exact hb.trans (h2 x hx)
        · intro hna x hx
          rcases List.mem_cons.mp hx with rfl | hx
          · exact hin
          · exact h3 (fun h => hna (List.mem_cons_of_mem _ h)) x hx
      · simp only [hrem] at hnot ⊢
        obtain ⟨h1, h2, h3⟩ := ih n last hl hk hrest hnot
        exact ⟨h1, h2, fun hna => h3 (fun h => hna (List.mem_cons_of_mem _ h))⟩

theorem nodup_bounded_length (l : List Nat) (n : Nat) (hn : l.Nodup) (hb : ∀ x ∈ l, x < n) : l.length ≤ n := by
  induction n generalizing l with
  | zero =>
    cases l with
    | nil => simp
    | cons x l => exact absurd (hb x List.mem_cons_self) (by omega)
  | succ n ih =>
    have hn' : (l.erase n).Nodup := hn.erase n
    have := ih (l.erase n) hn' (by
      intro x hx
      have h1 := hb x (List.mem_of_mem_erase hx)
      have h2 : x ≠ n := by rintro rfl; exact (List.Nodup.not_mem_erase hn) hx
      omega)
    have := List.length_erase_le (a := n) (l := l)
    rw [List.length_erase] at *
    split at * <;> omega

/-- **C18** While a session (index `k`) has something to report at every poll and has not been served, no other session is served twice,
whatever the other sessions do (including errors), whatever was polled before and even if sessions are added; without additions
fewer than `n` sessions can be served before it. -/
theorem poll_fair (n last k : Nat) (ops : List FairOp) (hl : last < n) (hk : k < n)
    (hready : ∀ res, FairOp.poll res ∈ ops → isEvent (res k)) (hnot : k ∉ servedBy ops n last) :
    (servedBy ops n last).Nodup ∧ (FairOp.add ∉ ops → (servedBy ops n last).length < n) := by
  obtain ⟨h1, _, h3⟩ := servedBy_before k ops n last hl hk hready hnot
  have hnd : (servedBy ops n last).Nodup := h1.imp (fun h => h.ne)
  refine ⟨hnd, fun hna => ?_⟩
  have := nodup_bounded_length (k :: servedBy ops n last) n (List.nodup_cons.mpr ⟨hnot, hnd⟩) (by
    intro x hx
    rcases List.mem_cons.mp hx with rfl | hx
    · exact hk
    · exact h3 hna x hx)
  simp only [List.length_cons] at this
  omega

/-- **C18** (progress) If moreover every poll finds an event and none of them is an internal error, `n` polls serve every ready session. -/
theorem poll_fair_progress (n last k : Nat) (ress : List (Nat → Nat)) (hl : last < n) (hk : k < n)
    (hready : ∀ res ∈ ress, isEvent (res k)) (hnoerr : ∀ res ∈ ress, ∀ i, res i = bitTimeout ∨ isEvent (res i))
    (hlen : n ≤ ress.length) : k ∈ servedBy (ress.map .poll) n last := by
  poll_bits
  refine Classical.byContradiction fun hnot => ?_
  have h := (poll_fair n last k (ress.map .poll) hl hk (by
    intro res hr; obtain ⟨r, hr', h⟩ := List.mem_map.mp hr; cases h; exact hready _ hr') hnot).2 (by simp)
  have hlen2 : (servedBy (ress.map .poll) n last).length = ress.length := by
    clear hnot h hlen
    induction ress generalizing last with
    | nil => rfl
    | cons res ress ih =>
      obtain ⟨i, hs, hin, hne, _⟩ := scan_before n last k res hl hk (isEvent_ne_timeout _ (hready res List.mem_cons_self))
      have hrem : isEvent (res i) = true := (hnoerr res List.mem_cons_self i).resolve_left hne
      simp only [List.map_cons, servedBy, hs, hrem, if_true, newLast, remembered_eq, List.length_cons]
      rw [ih i hin (fun r hr => hready r (List.mem_cons_of_mem _ hr)) (fun r hr => hnoerr r (List.mem_cons_of_mem _ hr))]
  omega

/-- Four sessions, 0 and 1 and 3 always ready, last served 1. -/
def fairSample : List FairOp := List.replicate 4 (.poll fun i => if i = 2 then bitTimeout else bitRpc)

example : servedBy fairSample 4 1 = [3, 0, 1, 3] ∧ 0 ∉ servedBy (fairSample.take 1) 4 1 := by decide

/-- What fairness does not cover: deleting any session moves the starting point back to index 1, so with a deletion after each poll
session 1 is served again and again while session 2 waits. -/
theorem poll_fair_delete_false :
    (scan 4 0 fun i => if i = 0 then bitTimeout else bitRpc) = some (1, bitRpc) ∧
    (∀ ps : Ps, ps.sessions ≠ [] → ∀ i, (delAt ps i).last = 0) ∧
    (scan 3 0 fun i => if i = 0 then bitTimeout else bitRpc) = some (1, bitRpc) := by
  poll_bits
  refine ⟨by decide, ?_, by decide⟩
  intro ps h i
  unfold delAt
  cases hg : ps.sessions.getLast? with
  | none => exact absurd (List.getLast?_eq_none_iff.mp hg) h
  | some l => rfl

/-! ## C64: polling stays inside the array -/

/-- Everything that changes a poll structure. -/
inductive IdxOp where
  | add (s : Nat)
  | del (s : Nat)
  | clear (running : Nat → Bool) (all : Bool)
  | poll (res : Nat → Nat)

/-- The structure after the operations; `none` is undefined behaviour. -/
def idxRun : List IdxOp → Ps → Option Ps
  | [], ps => some ps
  | .add s :: ops, ps => (add ps s).bind (idxRun ops)
  | .del s :: ops, ps => idxRun ops ((del ps s).getD ps)
  | .clear running all :: ops, ps => idxRun ops (clear running all ps).1
  | .poll res :: ops, ps =>
    if ps.sessions = [] then idxRun ops ps else idxRun ops { ps with last := newLast ps.last (scan ps.sessions.length ps.last res) }

/-- **C64** Whatever was added, deleted, cleared and polled before, a poll depends only on the sessions in the structure and the session it
returns is one of them. -/
theorem poll_inside (ops : List IdxOp) (ps : Ps) (h : idxRun ops Ps.new = some ps) (hne : 0 < count ps) (res : Nat → Nat) :
    (∀ res', (∀ i, i < count ps → res i = res' i) → scan (count ps) ps.last res = scan (count ps) ps.last res') ∧
    (∀ i r, scan (count ps) ps.last res = some (i, r) → ∃ s, Verif.Poll.get ps i = some s ∧ r = res i) := by
  have hinv : ∀ (ops : List IdxOp) (p : Ps), LastOk p → ∀ ps, idxRun ops p = some ps → LastOk ps := by
    intro ops
    induction ops with
    | nil => intro p hp ps h; cases h; exact hp
    | cons op ops ih =>
      intro p hp ps h
      cases op with
      | add s =>
        simp only [idxRun] at h
        obtain ⟨p', h1, h2⟩ := Option.bind_eq_some_iff.mp h
        exact ih p' (lastOk_add hp h1) ps h2
      | del s =>
        refine ih _ ?_ ps h
        cases hd : del p s with
        | none => exact hp
        | some p' => exact lastOk_del hd
      | clear running all => exact ih _ (lastOk_clear running all hp) ps h
      | poll res =>
        simp only [idxRun] at h
        split at h
        · exact ih p hp ps h
        · exact ih _ (lastOk_poll hp res) ps h
  have hl := hinv ops Ps.new (by decide) ps h
  unfold count at *
  have hlt : ps.last < ps.sessions.length := by
    rcases hl with h | h
    · omega
    · exact h
  refine ⟨fun res' hr => scan_congr _ _ _ _ hlt hr, fun i r hs => ?_⟩
  obtain ⟨h1, h2⟩ := scan_lt _ _ _ hlt hs
  exact ⟨ps.sessions[i].sess, by simp [Verif.Poll.get, h1], h2⟩

example : (idxRun [.add 5, .add 6, .add 7, .poll (fun i => if i = 2 then bitRpc else bitTimeout), .del 5, .del 6] Ps.new).map (fun ps =>
    (ps, scan (count ps) ps.last (fun _ => bitRpc))) = some (⟨[⟨7, .none⟩], 0⟩, some (0, bitRpc)) := by decide

/-! ## C19: termination reports -/

/-- What can happen to one session of a poll structure: a poll selecting it, or a change of it made elsewhere. -/
inductive SessEv where
  | poll (nowNs : Nat) (timeoutMs : Option Nat) (junk idle : Nat) (io : Io) (i : RpcIn)
  | change (s : Sess)
  deriving DecidableEq, Repr

/-- Results of the polls in a history, with the final state. -/
def sessRun : List SessEv → PsState → Sess → List Nat × PsState × Sess
  | [], st, s => ([], st, s)
  | .change s' :: evs, st, _ => sessRun evs st s'
  | .poll now t junk idle io i :: evs, st, s =>
    let r := pollOne st s now t junk idle io i
    let rest := sessRun evs r.2.1 r.2.2
    (r.1 :: rest.1, rest.2)

/-- The result says that the session ended. -/
def saysTerm (ret : Nat) : Bool := ret &&& 0x20 != 0
/-- The result flags an error. -/
def saysError (ret : Nat) : Bool := ret &&& 0x40 != 0

theorem recv_ret_or (r : Recv) (a b : Bool) :
    saysTerm (r.ret ||| ((if a then rReplyError else 0) ||| if b then rError else 0)) = false ∧
    saysTerm (r.ret ||| rError) = false := by
  cases r <;> cases a <;> cases b <;> decide

theorem recv_ret_term (r : Recv) (a b : Bool) :
    saysTerm ((r.ret ||| ((if a then rReplyError else 0) ||| if b then rError else 0)) ||| rTerm) = true ∧
    saysTerm ((r.ret ||| ((if a then rReplyError else 0) ||| if b then rError else 0)) ||| rTerm ||| rSessError) = true ∧
    saysTerm (r.ret ||| rError ||| rTerm) = true ∧ saysTerm (r.ret ||| rError ||| rTerm ||| rSessError) = true ∧
    saysTerm (r.ret ||| rTerm ||| rSessError) = true ∧ saysTerm r.ret = false ∧
    saysError ((r.ret ||| ((if a then rReplyError else 0) ||| if b then rError else 0)) ||| rTerm) = false ∧
    saysError ((r.ret ||| ((if a then rReplyError else 0) ||| if b then rError else 0)) ||| rTerm ||| rSessError) = true ∧
    saysError (r.ret ||| rError ||| rTerm) = false ∧ saysError (r.ret ||| rError ||| rTerm ||| rSessError) = true ∧
    saysError (r.ret ||| rTerm ||| rSessError) = true := by
  cases r <;> cases a <;> cases b <;> decide

/-- Processing a request: terminated exactly if said so. -/
theorem handleRpc_term (s : Sess) (sec : Nat) (i : RpcIn) :
    (saysTerm (handleRpc s sec i).1 = true ↔ (handleRpc s sec i).2.1 = .invalid) ∧
    (handleRpc s sec i).2.1 ≠ .busy ∧
    ((handleRpc s sec i).2.2.status ≠ .running ↔ (handleRpc s sec i).2.1 = .invalid) := by
  have h1 := recv_ret_or i.recv i.replyErr i.sendErr
  have h2 := recv_ret_term i.recv i.replyErr i.sendErr
  unfold handleRpc sendReply
  simp only
  repeat' split
  all_goals simp_all

theorem pollOne_term (st : PsState) (s : Sess) (now : Nat) (t : Option Nat) (junk idle : Nat) (io : Io) (i : RpcIn)
    (hst : st ≠ .busy) :
    (saysTerm (pollOne st s now t junk idle io i).1 = true ↔ st = .none ∧ (pollOne st s now t junk idle io i).2.1 = .invalid) ∧
    (pollOne st s now t junk idle io i).2.1 ≠ .busy ∧
    (st = .invalid → (pollOne st s now t junk idle io i).2.1 = .invalid) ∧
    (st = .none → s.status ≠ .running → saysTerm (pollOne st s now t junk idle io i).1 = true) := by
  cases st with
  | busy => exact absurd rfl hst
  | invalid => simp [pollOne, pollSess, rTimeout, rRpc, saysTerm]
  | none =>
    unfold pollOne pollSess pollIo
    by_cases hrun : s.status = .running
    · by_cases hidle : idleExpired s (passedNow now t junk) idle = true
      · simp [hrun, hidle, rTerm, rSessError, rRpc, saysTerm]
      · cases io <;>
          simp [hrun, hidle, rTerm, rSessError, rRpc, saysTerm, rError, rTimeout, rSshMsg, rSshChannel]
        have := handleRpc_term s (now / 1000000000) i
        simp only [saysTerm] at this
        exact ⟨by simpa using this.1, this.2.1⟩
    · by_cases hr : s.reason = tClosed <;> simp [hrun, hr, rTerm, rSessError, rRpc, saysTerm]

theorem sessRun_term (evs : List SessEv) : ∀ (st : PsState) (s : Sess), st ≠ .busy →
    (sessRun evs st s).2.1 ≠ .busy ∧
    ((sessRun evs st s).1.filter saysTerm).length =
      (if st = .none ∧ (sessRun evs st s).2.1 = .invalid then 1 else 0) ∧
    (st = .invalid → (sessRun evs st s).2.1 = .invalid) := by
  induction evs with
  | nil =>
    intro st s h
    refine ⟨h, ?_, fun h => h⟩
    cases st <;> simp [sessRun]
  | cons ev evs ih =>
    intro st s h
    cases ev with
    | change s' => exact ih st s' h
    | poll now t junk idle io i =>
      obtain ⟨p1, p2, p3, _⟩ := pollOne_term st s now t junk idle io i h
      have hrun : sessRun (.poll now t junk idle io i :: evs) st s =
        ((pollOne st s now t junk idle io i).1 :: (sessRun evs (pollOne st s now t junk idle io i).2.1 (pollOne st s now t junk idle io i).2.2).1,
          (sessRun evs (pollOne st s now t junk idle io i).2.1 (pollOne st s now t junk idle io i).2.2).2) := rfl
      rw [hrun]
      generalize pollOne st s now t junk idle io i = r at p1 p2 p3
      obtain ⟨ret, st', s'⟩ := r
      simp only at p1 p2 p3 ⊢
      obtain ⟨q1, q2, q3⟩ := ih st' s' p2
      generalize sessRun evs st' s' = rest at q1 q2 q3
      refine ⟨q1, ?_, fun hi => q3 (p3 hi)⟩
      rw [List.filter_cons]
      cases st with
      | busy => exact absurd rfl h
      | invalid =>
        have hi := p3 rfl
        have hs : ¬ saysTerm ret = true := by rw [p1]; simp
        rw [if_neg hs, q2]; simp [hi]
      | none =>
        by_cases hs : saysTerm ret = true
        · have hi := (p1.mp hs).2
          rw [if_pos hs, List.length_cons, q2]
          simp [hi, q3 hi]
        · have hi : st' = .none := by
            cases st' with
            | none => rfl
            | busy => exact absurd rfl p2
            | invalid => exact absurd (p1.mpr ⟨rfl, rfl⟩) hs
          rw [if_neg hs, q2]; simp [hi]

/-- **C19** (reported exactly once) In every history of a session in a poll structure the end of the session is reported by at most one poll; and if the session has
ended before some poll, then this poll or an earlier one reports it. -/
theorem termination_once (evs : List SessEv) (s : Sess) (now : Nat) (t : Option Nat) (junk idle : Nat) (io : Io) (i : RpcIn) :
    ((sessRun evs .none s).1.filter saysTerm).length ≤ 1 ∧
    ((sessRun evs .none s).2.2.status ≠ .running →
      ((sessRun (evs ++ [.poll now t junk idle io i]) .none s).1.filter saysTerm).length = 1) := by
  have h := sessRun_term evs .none s (by simp)
  refine ⟨by rw [h.2.1]; split <;> omega, fun hs => ?_⟩
  have happ : ∀ (evs : List SessEv) (st : PsState) (s : Sess) (e : SessEv),
      (sessRun (evs ++ [e]) st s).1 = (sessRun evs st s).1 ++ (sessRun [e] (sessRun evs st s).2.1 (sessRun evs st s).2.2).1 := by
    intro evs
    induction evs with
    | nil => intro st s e; simp [sessRun]
    | cons ev evs ih =>
      intro st s e
      cases ev with
      | change s' => simpa [sessRun] using ih st s' e
      | poll now t junk idle io i => simp only [List.cons_append, sessRun, ih]
  rw [happ, List.filter_append, List.length_append, h.2.1]
  have hp := pollOne_term (sessRun evs .none s).2.1 (sessRun evs .none s).2.2 now t junk idle io i h.1
  simp only [sessRun, List.filter_cons, List.filter_nil]
  cases hst : (sessRun evs .none s).2.1 with
  | busy => exact absurd hst h.1
  | none =>
    rw [hst] at hp
    rw [if_neg (by simp), if_pos (hp.2.2.2 rfl hs)]
    rfl
  | invalid =>
    rw [hst] at hp
    have : ¬ saysTerm (pollOne .invalid (sessRun evs .none s).2.2 now t junk idle io i).1 = true := by rw [hp.1]; simp
    rw [if_pos (by simp), if_neg this]
    rfl

/-- C54: a poll that ends a running session says so at once, unless the transport could not be polled at all. -/
theorem termination_at_once (s : Sess) (now : Nat) (t : Option Nat) (junk idle : Nat) (io : Io) (i : RpcIn) (hrun : s.status = .running) (hio : io ≠ .pollError)
    (hend : (pollOne .none s now t junk idle io i).2.2.status ≠ .running) : saysTerm (pollOne .none s now t junk idle io i).1 = true := by
  unfold pollOne pollSess pollIo at *
  by_cases hidle : idleExpired s (passedNow now t junk) idle = true
  · simp [hrun, hidle, rTerm, rSessError, rRpc, saysTerm]
  · cases io <;> simp [hrun, hidle, rTerm, rSessError, rRpc, saysTerm, rError, rTimeout, rSshMsg, rSshChannel] at hend hio ⊢
    have := handleRpc_term s (now / 1000000000) i
    revert this hend
    unfold handleRpc sendReply saysTerm
    simp only []
    repeat' split
    all_goals simp_all [rTerm, rSessError]

/-- C54: a request whose handler set a termination reason ends the session and the poll says so, unless the session was idle for too long. -/
theorem termination_by_rpc (s : Sess) (now : Nat) (t : Option Nat) (junk idle : Nat) (i : RpcIn) (hrun : s.status = .running)
    (hidle : s.callHome = true ∨ s.notif ≠ 0 ∨ idle = 0 ∨ ∃ m, t = some m ∧ now + m * 1000000 < (s.lastRpc + idle) * 1000000000) (hrpc : i.recv = .rpc) (hreason : i.cbReason ≠ 0) :
    (pollOne .none s now t junk idle .data i).2.2.status ≠ .running ∧ saysTerm (pollOne .none s now t junk idle .data i).1 = true := by
  have hidle : idleExpired s (passedNow now t junk) idle = false := by
    rcases hidle with h | h | h | ⟨m, rfl, h⟩
    · simp [idleExpired, h]
    · simp [idleExpired, h]
    · simp [idleExpired, h]
    · have : (now + m * 1000000) / 1000000000 < s.lastRpc + idle := (Nat.div_lt_iff_lt_mul (by decide)).2 h
      simp [idleExpired, passedNow, this]
  have hend : (pollOne .none s now t junk idle .data i).2.2.status ≠ .running := by
    unfold pollOne pollSess pollIo handleRpc sendReply
    simp [hrun, hidle, hrpc, Recv.ret, rRpc, rError, rBadRpc, tNone, hreason]
    split <;> simp_all
  exact ⟨hend, termination_at_once s now t junk idle .data i hrun (by simp) hend⟩

/-- The cases in which the flag is right: a session found already ended was not killed; a request that could not be received did not end a closed
or killed session; after a processed request the session is not `dropped`, `bad-hello` or `other`. -/
def flagCase (s : Sess) (io : Io) (i : RpcIn) (after : Sess) : Prop :=
  if s.status ≠ .running then s.reason ≠ whyKilled
  else if io = .data ∧ (i.recv = .error ∨ i.recv = .badRpc) then after.reason ≠ whyClosed ∧ after.reason ≠ whyKilled
  else if io = .data then after.reason = whyNone ∨ after.reason = whyClosed ∨ after.reason = whyKilled ∨ after.reason = whyTimeout
  else True

/-- **C19** (partial) In the cases above the poll that reports the end flags an error exactly if the reason is neither `closed` nor `killed`. Missing: the remaining
cases, in which the flag is wrong (next theorem). -/
theorem termination_flags_partial (s : Sess) (now : Nat) (t : Option Nat) (junk idle : Nat) (io : Io) (i : RpcIn)
    (hterm : saysTerm (pollOne .none s now t junk idle io i).1 = true)
    (hcase : flagCase s io i (pollOne .none s now t junk idle io i).2.2) :
    saysError (pollOne .none s now t junk idle io i).1 = true ↔
      (pollOne .none s now t junk idle io i).2.2.reason ≠ whyClosed ∧
      (pollOne .none s now t junk idle io i).2.2.reason ≠ whyKilled := by
  unfold flagCase at hcase
  poll_bits
  unfold pollOne pollSess pollIo at *
  by_cases hrun : s.status = .running
  · by_cases hidle : idleExpired s (passedNow now t junk) idle = true
    · simp [hrun, hidle, rTerm, rSessError, rRpc, saysError, tTimeout, tClosed, tKilled]
    · cases io <;>
        simp [hrun, hidle, rTerm, rSessError, rRpc, saysError, saysTerm, rError, rTimeout, rSshMsg, rSshChannel,
          tDropped, tOther, tClosed, tKilled] at hterm ⊢
      simp [hrun, hidle, rTerm, rSessError, rRpc] at hcase
      have h1 := recv_ret_or i.recv i.replyErr i.sendErr
      have h2 := recv_ret_term i.recv i.replyErr i.sendErr
      have hbits : ∀ r : Recv, (r.ret &&& (rError ||| rBadRpc) ≠ 0) ↔ (r = .error ∨ r = .badRpc) := by
        intro r; cases r <;> decide
      rw [show (handleRpc s (now / 1000000000) i).1 &&& 64 = 0 ↔ ¬ saysError (handleRpc s (now / 1000000000) i).1 = true by simp [saysError]]
      rw [show ¬ (handleRpc s (now / 1000000000) i).1 &&& 32 = 0 ↔ saysTerm (handleRpc s (now / 1000000000) i).1 = true by simp [saysTerm]] at hterm
      rw [Classical.not_not]
      by_cases hb : i.recv = .error ∨ i.recv = .badRpc
      · rw [if_pos hb] at hcase
        unfold handleRpc at hterm hcase ⊢
        simp only [(hbits i.recv).mpr hb, if_true, ne_eq, not_false_eq_true] at hterm hcase ⊢
        split at hterm <;> split at hcase <;> split <;> simp_all [tClosed, tKilled]
      · rw [if_neg hb] at hcase
        unfold handleRpc sendReply at hterm hcase ⊢
        have hb' : ¬ (i.recv.ret &&& (rError ||| rBadRpc) ≠ 0) := fun h => hb ((hbits i.recv).mp h)
        simp only [hb', if_false] at hterm hcase ⊢
        repeat' split at hterm
        all_goals rcases hcase with hc | hc | hc | hc <;> simp_all [tClosed, tKilled, tTimeout, tNone]
  · by_cases hr : s.reason = tClosed
    · simp [hrun, hr, rTerm, rRpc, saysError]
    · simp only [hrun, ne_eq, not_false_eq_true, if_true] at hcase
      simp [hrun, hr, rTerm, rSessError, rRpc, saysError, hcase]

/-- A session that sends `close-session`. -/
example : pollOne .none ⟨.running, 0, 10, false, 0⟩ 20000000000 (some 0) 0 0 .data
      ⟨.rpc, .running, 0, false, false, .running, whyClosed⟩ = (bitRpc ||| bitTerm, .invalid, ⟨.invalid, whyClosed, 20, false, 0⟩) ∧
    flagCase ⟨.running, 0, 10, false, 0⟩ .data ⟨.rpc, .running, 0, false, false, .running, whyClosed⟩ ⟨.invalid, whyClosed, 20, false, 0⟩ := by
  refine ⟨by decide, ?_⟩
  simp [flagCase, whyClosed, whyNone]

/-- **C19** is false: a session killed by another session is flagged as an error; a session dropped while its request was processed is not; and a session that was
closed while its request could not be read is flagged. -/
theorem termination_flags_false :
    (pollOne .none ⟨.invalid, whyKilled, 0, false, 0⟩ 0 (some 0) 0 0 .quiet ⟨.rpc, .running, 0, false, false, .running, 0⟩).1
      = bitTerm ||| bitSessError ∧
    (pollOne .none ⟨.running, 0, 0, false, 0⟩ 0 (some 0) 0 0 .data ⟨.rpc, .running, 0, false, true, .invalid, whyDropped⟩).1
      = bitRpc ||| bitError ||| bitTerm ∧
    (pollOne .none ⟨.running, 0, 0, false, 0⟩ 0 (some 0) 0 0 .data ⟨.error, .invalid, whyClosed, false, false, .invalid, whyClosed⟩).1
      = bitError ||| bitTerm ||| bitSessError := by decide

/-! ## C20: idle timeout -/

/-- The session was terminated by the poll for inactivity. -/
def idleTerminated (r : Nat × PsState × Sess) : Prop := r.1 = 0x60 ∧ r.2.2.reason = whyTimeout

theorem handleRpc_ret_ne (s : Sess) (sec : Nat) (i : RpcIn) : (handleRpc s sec i).1 ≠ 0x60 := by
  unfold handleRpc sendReply
  rcases i with ⟨r, st, re, a, b, cs, cr⟩
  cases r <;> cases a <;> cases b <;> simp [Recv.ret, rError, rBadRpc, rReplyError, rTimeout, rRpc, rTerm, rSessError] <;>
    repeat' split
  all_goals simp

theorem idle_iff (s : Sess) (now : Nat) (t : Option Nat) (junk idle : Nat) (io : Io) (i : RpcIn) (hrun : s.status = .running) :
    idleTerminated (pollOne .none s now t junk idle io i) ↔
      s.callHome = false ∧ s.notif = 0 ∧ idle ≠ 0 ∧ s.lastRpc + idle ≤ passedNow now t junk := by
  have hx : idleExpired s (passedNow now t junk) idle = true ↔
      s.callHome = false ∧ s.notif = 0 ∧ idle ≠ 0 ∧ s.lastRpc + idle ≤ passedNow now t junk := by
    simp [idleExpired, and_assoc]
  rw [← hx]
  unfold pollOne pollSess pollIo idleTerminated
  poll_bits
  by_cases hidle : idleExpired s (passedNow now t junk) idle = true
  · simp [hrun, hidle, rTerm, rSessError, rRpc, tTimeout]
  · cases io <;>
      simp [hrun, hidle, rTerm, rSessError, rRpc, rError, rTimeout, rSshMsg, rSshChannel, tDropped, tOther, tTimeout]
    exact fun h => absurd h (handleRpc_ret_ne _ _ _)

/-- **C20** (partial) A running session polled with a non-negative timeout is terminated for inactivity only if it is no Call Home session, has no subscriptions, an idle
timeout is set, and the recorded time of the last RPC is at least the idle time before the *deadline* of the poll; and whenever this holds for the
current time it is terminated. Missing: the deadline should be the current time (next theorems), infinite timeouts. -/
theorem idle_timeout_partial (s : Sess) (now t junk idle : Nat) (io : Io) (i : RpcIn) (hrun : s.status = .running) :
    (idleTerminated (pollOne .none s now (some t) junk idle io i) →
      s.callHome = false ∧ s.notif = 0 ∧ idle ≠ 0 ∧ (s.lastRpc + idle) * 1000000000 ≤ now + t * 1000000) ∧
    (s.callHome = false → s.notif = 0 → idle ≠ 0 → (s.lastRpc + idle) * 1000000000 ≤ now →
      idleTerminated (pollOne .none s now (some t) junk idle io i)) := by
  rw [idle_iff s now (some t) junk idle io i hrun]
  simp only [passedNow]
  constructor
  · rintro ⟨h1, h2, h3, h4⟩
    refine ⟨h1, h2, h3, ?_⟩
    rw [Nat.le_div_iff_mul_le (by decide)] at h4
    exact h4
  · intro h1 h2 h3 h4
    refine ⟨h1, h2, h3, ?_⟩
    rw [Nat.le_div_iff_mul_le (by decide)]
    omega

example : idleTerminated (pollOne .none ⟨.running, 0, 10, false, 0⟩ 70000000000 (some 0) 0 60 .quiet
    ⟨.rpc, .running, 0, false, false, .running, 0⟩) := by
  unfold idleTerminated; decide

/-- A history of polls of one session with timeout 0 (every event is found at the time of the poll). -/
structure ZeroPoll where
  now : Nat
  idle : Nat
  io : Io
  i : RpcIn
  deriving DecidableEq, Repr

/-- Run such a history and collect the times of the polls that delivered an RPC. -/
def zeroRun : List ZeroPoll → PsState → Sess → List Nat × PsState × Sess
  | [], st, s => ([], st, s)
  | p :: ps, st, s =>
    let r := pollOne st s p.now (some 0) 0 p.idle p.io p.i
    let rest := zeroRun ps r.2.1 r.2.2
    ((if r.1 &&& bitRpc ≠ 0 then [p.now] else []) ++ rest.1, rest.2)

theorem handleRpc_last (s : Sess) (sec : Nat) (i : RpcIn) :
    ((handleRpc s sec i).1 &&& rRpc ≠ 0 → (handleRpc s sec i).2.2.lastRpc = sec) ∧
    ((handleRpc s sec i).2.2.lastRpc = sec ∨ (handleRpc s sec i).2.2.lastRpc = s.lastRpc) := by
  unfold handleRpc sendReply
  rcases i with ⟨r, st, re, a, b, cs, cr⟩
  cases r <;> cases a <;> cases b <;> simp [Recv.ret, rError, rBadRpc, rReplyError, rTimeout, rRpc, rTerm, rSessError] <;>
    repeat' split
  all_goals simp

theorem pollOne_last (st : PsState) (s : Sess) (now idle : Nat) (io : Io) (i : RpcIn) :
    ((pollOne st s now (some 0) 0 idle io i).1 &&& rRpc ≠ 0 →
      (pollOne st s now (some 0) 0 idle io i).2.2.lastRpc = now / 1000000000) ∧
    ((pollOne st s now (some 0) 0 idle io i).2.2.lastRpc = now / 1000000000 ∨
      (pollOne st s now (some 0) 0 idle io i).2.2.lastRpc = s.lastRpc) := by
  unfold pollOne pollSess pollIo
  cases st with
  | busy => simp [rError, rRpc]
  | invalid => simp [rTimeout, rRpc]
  | none =>
    by_cases hrun : s.status = .running
    · by_cases hidle : idleExpired s (passedNow now (some 0) 0) idle = true
      · simp [hrun, hidle, rTerm, rSessError, rRpc]
      · cases io <;>
          simp [hrun, hidle, rTerm, rSessError, rRpc, rError, rTimeout, rSshMsg, rSshChannel]
        have := handleRpc_last s (now / 1000000000) i
        simpa [rRpc] using this
    · by_cases hr : s.reason = tClosed <;> simp [hrun, hr, rTerm, rSessError, rRpc]

theorem zeroRun_last (ps : List ZeroPoll) : ∀ (st : PsState) (s : Sess) (lo : Nat),
    (ps.map (·.now)).Pairwise (· ≤ ·) → (∀ p ∈ ps, lo ≤ p.now) → s.lastRpc ≤ lo / 1000000000 →
    (∀ a ∈ (zeroRun ps st s).1, a / 1000000000 ≤ (zeroRun ps st s).2.2.lastRpc) ∧ s.lastRpc ≤ (zeroRun ps st s).2.2.lastRpc := by
  induction ps with
  | nil => intro st s lo _ _ _; simp [zeroRun]
  | cons p ps ih =>
    intro st s lo hp hlo hs
    simp only [List.map_cons, List.pairwise_cons] at hp
    obtain ⟨l1, l2⟩ := pollOne_last st s p.now p.idle p.io p.i
    have hlop := hlo p List.mem_cons_self
    have hdiv := Nat.div_le_div_right (c := 1000000000) hlop
    obtain ⟨r1, r2⟩ := ih (pollOne st s p.now (some 0) 0 p.idle p.io p.i).2.1 (pollOne st s p.now (some 0) 0 p.idle p.io p.i).2.2 p.now
      hp.2 (fun q hq => hp.1 _ (List.mem_map.mpr ⟨q, hq, rfl⟩)) (by omega)
    simp only [zeroRun]
    refine ⟨?_, by omega⟩
    intro a ha
    rcases List.mem_append.mp ha with ha | ha
    · split at ha
      · rename_i hr
        simp only [List.mem_singleton] at ha
        subst ha
        have := l1 hr
        omega
      · simp at ha
    · exact r1 a ha

/-- **C20** (partial, histories) With polls that do not wait (timeout 0) a session is terminated for inactivity only if no poll delivered one of its RPCs less than the idle
time (in whole seconds) ago. -/
theorem idle_timeout_history_partial (hist : List ZeroPoll) (s : Sess) (p : ZeroPoll)
    (hmono : ((hist ++ [p]).map (·.now)).Pairwise (· ≤ ·)) (hs : ∀ q ∈ hist ++ [p], s.lastRpc ≤ q.now / 1000000000)
    (hrun : (zeroRun hist .none s).2.2.status = .running)
    (hidle : idleTerminated (pollOne .none (zeroRun hist .none s).2.2 p.now (some 0) 0 p.idle p.io p.i)) :
    ∀ a ∈ (zeroRun hist .none s).1, a / 1000000000 + p.idle ≤ p.now / 1000000000 := by
  rw [idle_iff _ _ _ _ _ _ _ hrun] at hidle
  have hsort : (hist.map (·.now)).Pairwise (· ≤ ·) := by
    rw [List.map_append] at hmono; exact (List.pairwise_append.mp hmono).1
  have h := (zeroRun_last hist .none s (s.lastRpc * 1000000000) hsort (by
    intro q hq
    have := hs q (List.mem_append_left _ hq)
    omega) (by omega)).1
  intro a ha
  have h1 := h a ha
  have h2 := hidle.2.2.2
  simp only [passedNow, Nat.zero_mul, Nat.add_zero] at h2
  omega

example : let s : Sess := ⟨.running, 0, 0, false, 0⟩
    let hist : List ZeroPoll := [⟨5000000000, 60, .data, ⟨.rpc, .running, 0, false, false, .running, 0⟩⟩, ⟨30000000000, 60, .quiet, ⟨.rpc, .running, 0, false, false, .running, 0⟩⟩]
    (zeroRun hist .none s).1 = [5000000000] ∧ (zeroRun hist .none s).2.2.lastRpc = 5 ∧
    (pollOne .none (zeroRun hist .none s).2.2 65000000000 (some 0) 0 60 .quiet ⟨.rpc, .running, 0, false, false, .running, 0⟩).1 = 0x60 := by
  decide

/-- **C20** is false: (1) a session whose last RPC was 1 s ago is terminated by a poll with a long timeout although the idle timeout is 60 s; (2) with an infinite timeout
an uninitialised value decides; (3) an RPC received at the end of a long poll counts from the start of that poll: here it
arrives within the poll started at 0 s, say at 90 s, and the poll at 91 s terminates the session with an idle timeout of 60 s. -/
theorem idle_timeout_false :
    let quiet : RpcIn := ⟨.rpc, .running, 0, false, false, .running, 0⟩
    idleTerminated (pollOne .none ⟨.running, 0, 100, false, 0⟩ 101000000000 (some 60000) 0 60 .quiet quiet) ∧
    (∃ junk, idleTerminated (pollOne .none ⟨.running, 0, 100, false, 0⟩ 101000000000 none junk 60 .quiet quiet)) ∧
    (∃ junk, ¬ idleTerminated (pollOne .none ⟨.running, 0, 100, false, 0⟩ 901000000000 none junk 60 .quiet quiet)) ∧
    (let s1 := (pollOne .none ⟨.running, 0, 0, false, 0⟩ 0 (some 0) 0 60 .data quiet).2.2
     s1.lastRpc = 0 ∧ idleTerminated (pollOne .none s1 91000000000 (some 0) 0 60 .quiet quiet)) := by
  refine ⟨by unfold idleTerminated; decide, ⟨1000, by unfold idleTerminated; decide⟩, ⟨0, by unfold idleTerminated; decide⟩,
    by decide, by unfold idleTerminated; decide⟩

/-! ## C21: session ids -/

/-- **C21** The first 2^32 - 1 sessions accepted by a server have distinct non-zero ids that fit in 32 bits. -/
theorem session_ids_unique (n m : Nat) (hn : n < 4294967295) (hm : m < 4294967295) :
    sessionId n ≠ 0 ∧ sessionId n < 4294967296 ∧ (sessionId n = sessionId m → n = m) := by
  unfold sessionId; omega

example : sessionId 0 = 1 ∧ sessionId 4294967294 = 4294967295 := by decide

/-- Beyond that they repeat, and one is zero. -/
theorem session_ids_wrap : sessionId 4294967295 = 0 ∧ sessionId 4294967296 = sessionId 0 := by decide

/-! ## C22: termination reason and killer -/

/-- Specification of the reason: the last one set. -/
def lastReason : List SetOp → Nat → Nat
  | [], r => r
  | .reason r' :: ops, r => lastReason ops (if r' = 0 then r else r')
  | .killedBy _ :: ops, r => lastReason ops r

theorem runSet_inv (ops : List SetOp) : ∀ st : Nat × Nat, (st.2 ≠ 0 → st.1 = tKilled) →
    ((runSet ops st).2 ≠ 0 → (runSet ops st).1 = tKilled) ∧ (runSet ops st).1 = lastReason ops st.1 := by
  induction ops with
  | nil => intro st h; exact ⟨h, rfl⟩
  | cons op ops ih =>
    intro st h
    cases op with
    | reason r =>
      have := ih (setReason st r) (by
        unfold setReason
        split
        · exact h
        · split
          · simp
          · rename_i h1 h2
            intro h3
            have h4 := h h3
            simp only [not_and, ne_eq] at h2
            exact Classical.byContradiction fun h5 => h2 h5 h4)
      refine ⟨this.1, this.2.trans ?_⟩
      simp only [lastReason, setReason, tNone]
      split <;> simp_all
    | killedBy k =>
      have := ih (setKilledBy st k) (by
        unfold setKilledBy
        split
        · exact h
        · rename_i h1
          split
          · exact h
          · intro _; simpa using h1)
      refine ⟨this.1, this.2.trans ?_⟩
      simp only [lastReason, setKilledBy]
      split
      · rfl
      · split <;> rfl

/-- **C22** After every sequence of setter calls on a new session a killer is recorded only with the reason `killed`, and the reason is the last one set; and recording
the killer of a killed session takes effect. -/
theorem killer_consistent (ops : List SetOp) :
    ((runSet ops (0, 0)).2 ≠ 0 → (runSet ops (0, 0)).1 = whyKilled) ∧
    (runSet ops (0, 0)).1 = lastReason ops 0 ∧
    (∀ k, k ≠ 0 → lastReason ops 0 = whyKilled → (runSet (ops ++ [.killedBy k]) (0, 0)).2 = k) := by
  poll_bits
  have h := runSet_inv ops (0, 0) (by simp)
  refine ⟨h.1, h.2, ?_⟩
  intro k hk hl
  have happ : ∀ (ops : List SetOp) st, runSet (ops ++ [.killedBy k]) st = setKilledBy (runSet ops st) k := by
    intro ops
    induction ops with
    | nil => intro st; rfl
    | cons op ops ih => intro st; cases op <;> simp [runSet, ih]
  rw [happ, setKilledBy, if_neg (by rw [h.2]; simpa using hl), if_neg hk]

example : runSet [.killedBy 3, .reason whyKilled, .killedBy 4, .reason whyDropped] (0, 0) = (whyDropped, 0) ∧
    runSet [.reason whyKilled, .killedBy 4] (0, 0) = (whyKilled, 4) := by decide

/-! ## C48: notification status -/

/-- Specification: the number of subscriptions, surplus decrements ignored. -/
def subscriptions (l : List Bool) : Nat := l.foldl (fun n b => if b then n + 1 else n - 1) 0

theorem runNotif_eq (l : List Bool) : ∀ n, n + l.length < 4294967296 →
    runNotif l n = l.foldl (fun n b => if b then n + 1 else n - 1) n := by
  induction l with
  | nil => intro n _; rfl
  | cons b l ih =>
    intro n h
    simp only [List.length_cons] at h
    cases b
    · simp only [runNotif, List.foldl_cons, decNotif]
      rw [ih _ (by split <;> omega)]
      congr 1
      split <;> simp_all
    · simp only [runNotif, List.foldl_cons, incNotif, if_true]
      rw [Nat.mod_eq_of_lt (by omega), ih _ (by omega)]

/-- The count is positive exactly if some suffix of the calls has more increments than decrements. -/
theorem subscriptions_pos (l : List Bool) : 0 < subscriptions l ↔
    ∃ a b, l = a ++ b ∧ b.count false < b.count true := by
  have h : ∀ m : List Bool, subscriptions m.reverse = m.foldr (fun b n => if b then n + 1 else n - 1) 0 := by
    intro m; simp [subscriptions, List.foldl_reverse]
  have key : ∀ m : List Bool, ∀ k, k < m.foldr (fun b n => if b then n + 1 else n - 1) 0 ↔
      ∃ i, (m.take i).count false + k < (m.take i).count true := by
    intro m
    induction m with
    | nil => intro k; simp
    | cons b m ih =>
      intro k
      cases b
      · simp only [List.foldr_cons, Bool.false_eq_true, if_false]
        rw [show (k < m.foldr (fun b n => if b then n + 1 else n - 1) 0 - 1) ↔ (k + 1 < m.foldr (fun b n => if b then n + 1 else n - 1) 0) by omega, ih]
        constructor
        · rintro ⟨i, hi⟩; exact ⟨i + 1, by simp; omega⟩
        · rintro ⟨i, hi⟩
          cases i with
          | zero => simp at hi
          | succ i => exact ⟨i, by simp at hi; omega⟩
      · simp only [List.foldr_cons, if_true]
        cases k with
        | zero =>
          simp only [Nat.zero_lt_succ, true_iff]
          exact ⟨1, by simp⟩
        | succ k =>
          rw [Nat.succ_lt_succ_iff, ih]
          constructor
          · rintro ⟨i, hi⟩; exact ⟨i + 1, by simp; omega⟩
          · rintro ⟨i, hi⟩
            cases i with
            | zero => simp at hi
            | succ i => exact ⟨i, by simp at hi; omega⟩
  have hl := h l.reverse
  rw [List.reverse_reverse] at hl
  rw [hl, key l.reverse 0]
  constructor
  · rintro ⟨i, hi⟩
    refine ⟨(l.reverse.drop i).reverse, (l.reverse.take i).reverse, ?_, ?_⟩
    · rw [← List.reverse_append, List.take_append_drop, List.reverse_reverse]
    · simpa using hi
  · rintro ⟨a, b, rfl, hb⟩
    refine ⟨b.length, ?_⟩
    rw [List.reverse_append, List.take_left' (by simp)]
    simpa using hb

/-- **C48** After fewer than 2^32 calls on a new session the status is the number of subscriptions: every decrement takes one away unless there is none; it is
non-zero exactly if from some point on there were more increments than decrements. -/
theorem notif_status (l : List Bool) (h : l.length < 4294967296) :
    runNotif l 0 = subscriptions l ∧ (runNotif l 0 ≠ 0 ↔ ∃ a b, l = a ++ b ∧ b.count false < b.count true) := by
  have := runNotif_eq l 0 (by simpa using h)
  refine ⟨this, ?_⟩
  rw [← subscriptions_pos, this]
  unfold subscriptions
  omega

example : runNotif [true, false, false, true, true, false] 0 = 1 := by decide

end Verif.Props
