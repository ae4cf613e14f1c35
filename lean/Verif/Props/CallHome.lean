import Verif.Model.CallHome

/-!
# Properties of the Call Home thread (C40, C41, C86–C89)
-/

namespace Verif.Props
open Verif.CallHome

/-! ## Choosing endpoints -/

/-- What happens to an attempt: it fails, or a session was established and ended; with the configuration found afterwards and the value of `rand()`. -/
inductive Attempt | failed (c : Cfg) | session (c : Cfg) (r : Nat)

/-- The configuration found after an attempt. -/
def Attempt.cfg : Attempt → Cfg
  | .failed c => c
  | .session c _ => c

/-- The thread after an attempt. -/
def afterAttempt (t : Th) : Attempt → Option Th
  | .failed c => afterFail c t
  | .session c r => afterSession c r t

/-- The thread after attempts. -/
def afterAttempts : Th → List Attempt → Option Th
  | t, [] => some t
  | t, a :: as => (afterAttempt t a).bind fun t' => afterAttempts t' as

/-- The thread after `m` more failed attempts while the configuration stays the same. -/
def afterFails (c : Cfg) : Nat → Th → Option Th
  | 0, t => some t
  | m + 1, t => (afterFails c m t).bind (afterFail c)

/-- What the YANG module allows: names are keys, `max-attempts` is a `uint8` in 1..max; the thread waits for the first endpoint. -/
def ValidCfg (c : Cfg) : Prop := c.eps ≠ [] ∧ c.eps.Nodup ∧ 1 ≤ c.maxAttempts ∧ c.maxAttempts ≤ 255

/-- The maximum of attempts is never lowered. -/
def NeverLowered : Cfg → List Attempt → Prop
  | _, [] => True
  | c, a :: as => c.maxAttempts ≤ a.cfg.maxAttempts ∧ NeverLowered a.cfg as

/-- The configuration at the end. -/
def lastCfg : Cfg → List Attempt → Cfg
  | c, [] => c
  | _, a :: as => lastCfg a.cfg as

theorem find_le (name : Nat) : ∀ l : List Nat, find name l ≤ l.length
  | [] => Nat.le_refl _
  | e :: es => by
    have := find_le name es
    simp only [find, List.length_cons]
    split <;> omega

theorem find_mem {name : Nat} : ∀ {l : List Nat}, find name l < l.length → l[find name l]? = some name
  | [], h => by simp [find] at h
  | e :: es, h => by
    by_cases he : e = name
    · simp [find, he]
    · simp only [find, he, if_false, List.length_cons] at h ⊢
      rw [List.getElem?_cons_succ]
      exact find_mem (by omega)

theorem find_lt {name : Nat} : ∀ {l : List Nat}, name ∈ l → find name l < l.length
  | [], h => by cases h
  | e :: es, h => by
    by_cases he : e = name
    · simp [find, he]
    · have : name ∈ es := by
        rcases List.mem_cons.mp h with h | h
        · exact absurd h.symm he
        · exact h
      have := find_lt this
      simp only [find, he, if_false, List.length_cons]
      omega

theorem find_at {name i : Nat} : ∀ {l : List Nat}, l.Nodup → l[i]? = some name → find name l = i := by
  intro l hn h
  have h1 : name ∈ l := List.mem_of_getElem? h
  have h2 := find_mem (find_lt h1)
  have h3 := find_lt h1
  have h4 : i < l.length := by
    apply Classical.byContradiction
    intro hlt
    rw [List.getElem?_eq_none (by omega)] at h
    cases h
  rw [List.getElem?_eq_getElem h3] at h2
  rw [List.getElem?_eq_getElem h4] at h
  have h5 : l[find name l] = l[i] := by
    rw [Option.some.inj h2, Option.some.inj h]
  exact (List.getElem_inj hn).mp h5

theorem succ_divmod (m x : Nat) (hm : 0 < m) :
    (x % m + 1 = m ∧ (x + 1) / m = x / m + 1 ∧ (x + 1) % m = 0) ∨ (x % m + 1 < m ∧ (x + 1) / m = x / m ∧ (x + 1) % m = x % m + 1) := by
  have h1 := Nat.div_add_mod x m
  have h2 := Nat.mod_lt x hm
  by_cases h : x % m + 1 = m
  · left
    have h3 : x + 1 = m * (x / m + 1) := by rw [Nat.mul_add, Nat.mul_one]; omega
    refine ⟨h, ?_, ?_⟩
    · rw [h3, Nat.mul_div_cancel_left _ hm]
    · rw [h3, Nat.mul_mod_right]
  · right
    have h3 : x + 1 = m * (x / m) + (x % m + 1) := by omega
    refine ⟨by omega, ?_, ?_⟩
    · have h4 : (m * (x / m) + (x % m + 1)) / m = x / m := by
        have h5 : (x % m + 1) / m = 0 := Nat.div_eq_of_lt (by omega)
        rw [Nat.mul_add_div hm, h5, Nat.add_zero]
      rw [← h3] at h4; exact h4
    · have h4 : (m * (x / m) + (x % m + 1)) % m = x % m + 1 := by
        rw [Nat.mul_add_mod, Nat.mod_eq_of_lt (by omega)]
      rw [← h3] at h4; exact h4

/-- The thread tries a configured endpoint and has attempts left. -/
def Ready (c : Cfg) (t : Th) : Prop := t.cur ∈ c.eps ∧ t.attempts < c.maxAttempts

theorem take_ready {c : Cfg} {i a : Nat} (hi : i < c.eps.length) (ha : a < c.maxAttempts) : ∃ t, take c i a = some t ∧ Ready c t := by
  simp only [take, List.getElem?_eq_getElem hi, Option.map_some]
  exact ⟨_, rfl, List.getElem_mem hi, ha⟩

theorem length_pos {c : Cfg} (hc : ValidCfg c) : 0 < c.eps.length := List.length_pos_iff.mpr hc.1

theorem attempt_ready {c0 : Cfg} {t : Th} (h : Ready c0 t) (a : Attempt) (hc : ValidCfg a.cfg) (hm : c0.maxAttempts ≤ a.cfg.maxAttempts) :
    ∃ t', afterAttempt t a = some t' ∧ Ready a.cfg t' := by
  have hp := length_pos hc
  obtain ⟨_, _, h1, h2⟩ := id hc
  cases a with
  | failed c =>
    simp only [Attempt.cfg] at *
    have h3 := h.2
    simp only [afterAttempt, afterFail]
    have hmod : (t.attempts + 1) % 256 = t.attempts + 1 := Nat.mod_eq_of_lt (by omega)
    rw [hmod]
    split
    · exact take_ready hp (by omega)
    · split
      · refine take_ready ?_ (by omega)
        split <;> omega
      · exact take_ready (by omega) (by omega)
  | session c r =>
    simp only [Attempt.cfg] at *
    have h3 := h.2
    simp only [afterAttempt, afterSession]
    split
    · exact take_ready hp (by omega)
    · refine take_ready ?_ (by omega)
      split <;> omega
    · rw [if_neg (by omega)]
      exact take_ready (Nat.mod_lt _ hp) (by omega)

theorem attempts_ready : ∀ (as : List Attempt) {c0 : Cfg} {t : Th}, Ready c0 t → (∀ a ∈ as, ValidCfg a.cfg) → NeverLowered c0 as →
    ∃ t', afterAttempts t as = some t' ∧ Ready (lastCfg c0 as) t'
  | [], c0, t, h, _, _ => ⟨t, rfl, h⟩
  | a :: as, c0, t, h, hv, hl => by
    obtain ⟨t1, e1, h1⟩ := attempt_ready h a (hv a List.mem_cons_self) hl.1
    obtain ⟨t2, e2, h2⟩ := attempts_ready as h1 (fun b hb => hv b (List.mem_cons_of_mem _ hb)) hl.2
    exact ⟨t2, by simp [afterAttempts, e1, e2], h2⟩

theorem fails_at {c : Cfg} (hc : ValidCfg c) {t : Th} (h : Ready c t) (m : Nat) :
    ∃ t', afterFails c m t = some t' ∧ c.eps[(find t.cur c.eps + (t.attempts + m) / c.maxAttempts) % c.eps.length]? = some t'.cur ∧
      t'.attempts = (t.attempts + m) % c.maxAttempts := by
  obtain ⟨hne, hnd, h1, h2⟩ := id hc
  have hp := length_pos hc
  induction m with
  | zero =>
    have hf := find_lt h.1
    refine ⟨t, rfl, ?_, ?_⟩
    · rw [Nat.add_zero, Nat.div_eq_of_lt h.2, Nat.add_zero, Nat.mod_eq_of_lt hf]
      exact find_mem hf
    · rw [Nat.add_zero, Nat.mod_eq_of_lt h.2]
  | succ m ih =>
    obtain ⟨t1, e1, g1, g2⟩ := ih
    have hfind := find_at hnd g1
    have hidx := Nat.mod_lt (find t.cur c.eps + (t.attempts + m) / c.maxAttempts) hp
    have hat : t1.attempts < c.maxAttempts := by rw [g2]; exact Nat.mod_lt _ (by omega)
    have hmod : (t1.attempts + 1) % 256 = t1.attempts + 1 := Nat.mod_eq_of_lt (by omega)
    simp only [afterFails, e1, Option.bind_some, afterFail, hfind, hmod]
    rw [if_neg (by omega)]
    have hassoc : t.attempts + (m + 1) = (t.attempts + m) + 1 := by omega
    rw [hassoc]
    rcases succ_divmod c.maxAttempts (t.attempts + m) (by omega) with ⟨a1, a2, a3⟩ | ⟨a1, a2, a3⟩
    · rw [if_pos (by omega), a2, a3]
      have key : (if (find t.cur c.eps + (t.attempts + m) / c.maxAttempts) % c.eps.length < c.eps.length - 1
          then (find t.cur c.eps + (t.attempts + m) / c.maxAttempts) % c.eps.length + 1 else 0)
          = (find t.cur c.eps + ((t.attempts + m) / c.maxAttempts + 1)) % c.eps.length := by
        rw [← Nat.add_assoc]
        rcases succ_divmod c.eps.length (find t.cur c.eps + (t.attempts + m) / c.maxAttempts) hp with ⟨b1, _, b3⟩ | ⟨b1, _, b3⟩
        · rw [if_neg (by omega), b3]
        · rw [if_pos (by omega), b3]
      rw [key]
      have hlt := Nat.mod_lt (find t.cur c.eps + ((t.attempts + m) / c.maxAttempts + 1)) hp
      simp only [take, List.getElem?_eq_getElem hlt, Option.map_some]
      exact ⟨_, rfl, rfl, rfl⟩
    · rw [if_neg (by omega), a2, a3]
      simp only [take, List.getElem?_eq_getElem hidx, Option.map_some]
      exact ⟨_, rfl, rfl, by rw [g2]⟩

/-- **C40, part.** The thread starts with the first endpoint. After any attempts, during which the configuration may change in any way but lowering
the maximum of attempts, the endpoints tried by failing attempts follow the list cyclically, `max-attempts` times each except for the endpoint being tried;
`a` attempts were already made, none at the start of the thread.

Missing of the full claim: `a` counts attempts of other endpoints after a session ended (`call_home_rotation_false`), and lowering the maximum. -/
theorem call_home_rotation_partial (c0 : Cfg) (as : List Attempt) (h0 : ValidCfg c0) (hv : ∀ a ∈ as, ValidCfg a.cfg) (hl : NeverLowered c0 as) :
    ∃ t0 t, start c0 = some t0 ∧ c0.eps[0]? = some t0.cur ∧ afterAttempts t0 as = some t ∧
      ∃ k a, k < (lastCfg c0 as).eps.length ∧ a < (lastCfg c0 as).maxAttempts ∧ (as = [] → k = 0 ∧ a = 0) ∧
        ∀ m, ∃ t', afterFails (lastCfg c0 as) m t = some t' ∧
          (lastCfg c0 as).eps[(k + (a + m) / (lastCfg c0 as).maxAttempts) % (lastCfg c0 as).eps.length]? = some t'.cur := by
  have hp := length_pos h0
  have hr : Ready c0 ⟨c0.eps[0], 0⟩ := ⟨List.getElem_mem hp, by have := h0.2.2.1; show 0 < _; omega⟩
  obtain ⟨t, e, h⟩ := attempts_ready as hr hv hl
  have hlast : ∀ (as : List Attempt) (c0 : Cfg), ValidCfg c0 → (∀ a ∈ as, ValidCfg a.cfg) → ValidCfg (lastCfg c0 as) := by
    intro as
    induction as with
    | nil => intro c0 h _; exact h
    | cons a as ih => intro c0 _ h; exact ih a.cfg (h a List.mem_cons_self) (fun b hb => h b (List.mem_cons_of_mem _ hb))
  refine ⟨⟨c0.eps[0], 0⟩, t, by simp [start, take, List.getElem?_eq_getElem hp], by simp [List.getElem?_eq_getElem hp], e,
    find t.cur (lastCfg c0 as).eps, t.attempts, find_lt h.1, h.2, ?_, ?_⟩
  · rintro rfl
    simp only [afterAttempts, Option.some.injEq] at e
    subst e
    exact ⟨find_at h0.2.1 (by simp [lastCfg, List.getElem?_eq_getElem hp]), rfl⟩
  · intro m
    obtain ⟨t', e', h', _⟩ := fails_at (hlast as c0 h0 hv) h m
    exact ⟨t', e', h'⟩

/-- Non-vacuous: two endpoints, two attempts each. -/
example : (List.range 6).map (fun m => ((afterFails ⟨[7, 8], 2, .firstListed⟩ m ⟨7, 0⟩).map Th.cur)) = [some 7, some 7, some 8, some 8, some 7, some 7] := by decide

/-- **C40, the policy.** After a session ended, the thread tries the first endpoint, the same endpoint again (the first if it was removed), or any of them. -/
theorem call_home_start_with (c : Cfg) (hc : ValidCfg c) (t : Th) (r : Nat) :
    ∃ t', afterSession c r t = some t' ∧
      (c.startWith = .firstListed → c.eps.head? = some t'.cur) ∧
      (c.startWith = .lastConnected → t.cur ∈ c.eps → t'.cur = t.cur) ∧
      (c.startWith = .lastConnected → t.cur ∉ c.eps → c.eps.head? = some t'.cur) ∧
      (c.startWith = .random → t'.cur ∈ c.eps ∧ ∀ e ∈ c.eps, ∃ r t'', afterSession c r t = some t'' ∧ t''.cur = e) := by
  have hp := length_pos hc
  have hhead : c.eps.head? = some c.eps[0] := by rw [List.head?_eq_getElem?, List.getElem?_eq_getElem hp]
  cases hs : c.startWith with
  | firstListed =>
    refine ⟨⟨c.eps[0], t.attempts⟩, by simp [afterSession, hs, take, List.getElem?_eq_getElem hp], fun _ => hhead, ?_⟩
    simp
  | lastConnected =>
    by_cases hm : t.cur ∈ c.eps
    · have hf := find_lt hm
      refine ⟨⟨t.cur, t.attempts⟩, ?_, by simp, fun _ _ => rfl, fun _ h => absurd hm h, by simp⟩
      simp only [afterSession, hs, take]
      rw [if_neg (by omega), find_mem hf]
      rfl
    · have hf : ¬ find t.cur c.eps < c.eps.length := fun h => hm (List.mem_of_getElem? (find_mem h))
      refine ⟨⟨c.eps[0], t.attempts⟩, ?_, by simp, fun _ h => absurd h hm, fun _ _ => hhead, by simp⟩
      simp only [afterSession, hs, take]
      rw [if_pos (by omega), List.getElem?_eq_getElem hp]
      rfl
  | random =>
    have hr := Nat.mod_lt r hp
    refine ⟨⟨c.eps[r % c.eps.length], t.attempts⟩, ?_, by simp, by simp, by simp, fun _ => ⟨List.getElem_mem hr, ?_⟩⟩
    · simp only [afterSession, hs, take]
      rw [if_neg (by omega), List.getElem?_eq_getElem hr]
      rfl
    · intro e he
      obtain ⟨i, hi, hie⟩ := List.getElem_of_mem he
      refine ⟨i, ⟨e, t.attempts⟩, ?_, rfl⟩
      simp only [afterSession, hs, take]
      rw [if_neg (by omega), Nat.mod_eq_of_lt hi, List.getElem?_eq_getElem hi, hie]
      rfl

example : afterSession ⟨[7, 8, 9], 3, .lastConnected⟩ 5 ⟨8, 2⟩ = some ⟨8, 2⟩ := by decide

/-- **C40 is false in general.** With at most 3 attempts: two attempts of the first endpoint fail, the third succeeds; when the session has ended,
the first endpoint is tried only once. And if the maximum is lowered from 3 to 2 after the second attempt, the endpoint is tried 255 more times. -/
theorem call_home_rotation_false :
    (∃ (c : Cfg) (as : List Attempt) (t0 t t' : Th), ValidCfg c ∧ start c = some t0 ∧ (∀ a ∈ as, a.cfg = c) ∧
      afterAttempts t0 (as ++ [.session c 0]) = some t ∧ c.maxAttempts = 3 ∧ afterFails c 1 t = some t' ∧ t'.cur ≠ t.cur) ∧
    (∃ (c c' : Cfg) (t0 t : Th), ValidCfg c ∧ ValidCfg c' ∧ c'.eps = c.eps ∧ c.eps.length = 2 ∧ c.maxAttempts = 3 ∧ c'.maxAttempts = 2 ∧ start c = some t0 ∧
      afterAttempts t0 [.failed c, .failed c, .failed c'] = some t ∧ t.cur = t0.cur ∧
      ∀ m < 255, (afterFails c' m t).map Th.cur = some t0.cur) := by
  refine ⟨⟨⟨[7, 8], 3, .firstListed⟩, [.failed ⟨[7, 8], 3, .firstListed⟩, .failed ⟨[7, 8], 3, .firstListed⟩], ⟨7, 0⟩, ⟨7, 2⟩, ⟨8, 0⟩, ?_⟩,
    ⟨⟨[7, 8], 3, .firstListed⟩, ⟨[7, 8], 2, .firstListed⟩, ⟨7, 0⟩, ⟨7, 3⟩, ?_⟩⟩
  · simp [ValidCfg, start, take, Attempt.cfg, afterAttempts, afterAttempt, afterFail, afterSession, find, afterFails]
  · have key : ∀ m < 255, afterFails ⟨[7, 8], 2, .firstListed⟩ m ⟨7, 3⟩ = some ⟨7, (3 + m) % 256⟩ := by
      intro m
      induction m with
      | zero => intro _; rfl
      | succ m ih =>
        intro hm
        have h1 : ((3 + m) % 256 + 1) % 256 = (3 + (m + 1)) % 256 := by omega
        have h2 : (3 + (m + 1)) % 256 ≠ 2 := by omega
        simp [afterFails, ih (by omega), afterFail, find, take, h1, h2]
    refine ⟨by simp [ValidCfg], by simp [ValidCfg], rfl, rfl, rfl, rfl, by decide, by decide, rfl, ?_⟩
    intro m hm
    rw [key m hm]
    rfl

/-! ## Periodic connections -/

/-- `x` is the next instant after `now` which differs from the anchor by a multiple of the period. -/
def NextInstant (now anchor period x : Int) : Prop :=
  now < x ∧ (∃ k : Int, x = anchor + k * period) ∧ ∀ y, now < y → (∃ k : Int, y = anchor + k * period) → x ≤ y

theorem reconnect_anchor {now anchor : Int} {period : Nat} (ha : anchor ≠ 0) (hle : anchor ≤ now) (hp : 0 < period) (hlt : period < 65536) :
    reconnectIn now anchor period = some ((now - anchor) % ((period * 60 : Nat) : Int)).toNat ∧
    waitMs ((now - anchor) % ((period * 60 : Nat) : Int)).toNat = 1000 * ((now - anchor) % ((period * 60 : Nat) : Int)).toNat := by
  have hP : (0 : Int) < ((period * 60 : Nat) : Int) := by omega
  have h1 : (now - anchor).tmod ((period * 60 : Nat) : Int) = (now - anchor) % ((period * 60 : Nat) : Int) := Int.tmod_eq_emod_of_nonneg (by omega)
  have h2 := Int.emod_nonneg (now - anchor) (Int.ne_of_gt hP)
  have h3 := Int.emod_lt_of_pos (now - anchor) hP
  generalize hx : (now - anchor) % ((period * 60 : Nat) : Int) = x at *
  constructor
  · unfold reconnectIn
    rw [if_pos ha, if_neg (by omega), h1, Int.emod_eq_of_lt h2 (by omega)]
  · unfold waitMs
    omega

/-- **C41, part.** Without an anchor time the thread waits for exactly the period. With an anchor time in the past it waits for the time that has *elapsed* since the last
scheduled instant, so that it connects at the next scheduled instant exactly if half of the period has elapsed.

Missing of the full claim: all other times (`call_home_anchor_false`) and anchor times in the future (`call_home_period_false`). -/
theorem call_home_anchor_partial (now anchor : Int) (period : Nat) (hp : 0 < period) (hlt : period < 65536) :
    (∃ s, reconnectIn now 0 period = some s ∧ s = period * 60 ∧ waitMs s = 1000 * (period * 60)) ∧
    (anchor ≠ 0 → anchor ≤ now → ∃ s, reconnectIn now anchor period = some s ∧ waitMs s = 1000 * s ∧ s < period * 60 ∧
      (∃ k : Int, now - s = anchor + k * ((period * 60 : Nat) : Int)) ∧
      (NextInstant now anchor ((period * 60 : Nat) : Int) (now + s) ↔ 2 * s = period * 60)) := by
  refine ⟨⟨period * 60, by simp [reconnectIn], rfl, by unfold waitMs; omega⟩, ?_⟩
  intro ha hle
  obtain ⟨e1, e2⟩ := reconnect_anchor ha hle hp hlt
  refine ⟨_, e1, e2, ?_⟩
  have hP : (0 : Int) < ((period * 60 : Nat) : Int) := by omega
  have h2 := Int.emod_nonneg (now - anchor) (Int.ne_of_gt hP)
  have h3 := Int.emod_lt_of_pos (now - anchor) hP
  have h4 := Int.mul_ediv_add_emod (now - anchor) ((period * 60 : Nat) : Int)
  have hs : (((now - anchor) % ((period * 60 : Nat) : Int)).toNat : Int) = (now - anchor) % ((period * 60 : Nat) : Int) := Int.toNat_of_nonneg h2
  generalize hsn : ((now - anchor) % ((period * 60 : Nat) : Int)).toNat = s at *
  generalize hPn : ((period * 60 : Nat) : Int) = P at *
  generalize hq : (now - anchor) / P = q at *
  rw [← hs] at h2 h3 h4
  refine ⟨by omega, ⟨q, by rw [Int.mul_comm]; omega⟩, ?_⟩
  constructor
  · rintro ⟨g1, ⟨k, g2⟩, g3⟩
    have g4 := g3 (anchor + (q + 1) * P) (by rw [Int.add_mul, Int.mul_comm q P]; omega) ⟨_, rfl⟩
    have g5 : (q + 1) * P ≤ k * P := by
      apply Classical.byContradiction
      intro hlt
      have hk : k < q + 1 := by
        apply Classical.byContradiction
        intro hk
        exact hlt (Int.mul_le_mul_of_nonneg_right (by omega) (Int.le_of_lt hP))
      have : k * P ≤ q * P := Int.mul_le_mul_of_nonneg_right (by omega) (Int.le_of_lt hP)
      rw [Int.mul_comm q P] at this
      omega
    have g6 : now + s = anchor + (q + 1) * P := Int.le_antisymm g4 (by omega)
    rw [Int.add_mul, Int.mul_comm q P, Int.one_mul] at g6
    omega
  · intro h
    have hx : now + s = anchor + (q + 1) * P := by rw [Int.add_mul, Int.mul_comm q P, Int.one_mul]; omega
    refine ⟨by omega, ⟨q + 1, hx⟩, ?_⟩
    rintro y hy ⟨k, rfl⟩
    rw [hx]
    have hk : q < k := by
      apply Classical.byContradiction
      intro hk
      have : k * P ≤ q * P := Int.mul_le_mul_of_nonneg_right (by omega) (Int.le_of_lt hP)
      rw [Int.mul_comm q P] at this
      omega
    have : (q + 1) * P ≤ k * P := Int.mul_le_mul_of_nonneg_right (by omega) (Int.le_of_lt hP)
    omega

example : NextInstant 5400 3600 3600 7200 ∧ reconnectIn 5400 3600 60 = some 1800 := by
  refine ⟨⟨by omega, ⟨1, by omega⟩, ?_⟩, by decide⟩
  rintro y hy ⟨k, rfl⟩
  omega

/-- **C41 is false in general.** The example of the YANG module: with the anchor 15 minutes past midnight and a period of 24 hours, a session which ends at 01:15
is followed by an attempt at 02:15. -/
theorem call_home_anchor_false : ∃ now anchor : Int, ∃ s : Nat, anchor ≠ 0 ∧ anchor ≤ now ∧ reconnectIn now anchor 1440 = some s ∧
    ¬ NextInstant now anchor (1440 * 60) (now + s) := by
  refine ⟨4500, 900, 3600, by decide, by decide, by decide, ?_⟩
  rintro ⟨_, ⟨k, hk⟩, _⟩
  omega

/-- **C86, part.** Scheduling is defined unless the period is 0 and there is an anchor time. -/
theorem call_home_period_zero_partial (now anchor : Int) (period : Nat) : (∃ s, reconnectIn now anchor period = some s) ↔ ¬(anchor ≠ 0 ∧ period = 0) := by
  unfold reconnectIn
  by_cases ha : anchor = 0 <;> by_cases hp : period = 0 <;> simp [ha, hp]
  omega

example : ∃ s, reconnectIn 1000000 900 1440 = some s := ⟨48700, by decide⟩

/-- **C86 is false in general.** The YANG module allows a period of 0 minutes, with an anchor time the server divides by zero. -/
theorem call_home_period_zero_false : ∃ now anchor : Int, anchor ≠ 0 ∧ anchor ≤ now ∧ reconnectIn now anchor 0 = none := ⟨4500, 900, by decide⟩

/-- **C87, part.** Without an anchor time or with one in the past, a periodic client is contacted again within one period. -/
theorem call_home_period_partial (now anchor : Int) (period : Nat) (hp : 0 < period) (hlt : period < 65536) (ha : anchor ≤ now ∨ anchor = 0) :
    ∃ s, reconnectIn now anchor period = some s ∧ waitMs s ≤ 1000 * (period * 60) := by
  have h := call_home_anchor_partial now anchor period hp hlt
  by_cases h0 : anchor = 0
  · obtain ⟨s, e, _, h⟩ := h.1
    exact ⟨s, by rw [h0]; exact e, by omega⟩
  · obtain ⟨s, e, h1, h2, _⟩ := h.2 h0 (ha.resolve_right h0)
    exact ⟨s, e, by omega⟩

/-- **C87 is false in general.** With an anchor time in the future, even by one second, a client with a period of one hour is contacted again after more than 49 days. -/
theorem call_home_period_false : ∃ now anchor : Int, ∃ s, anchor = now + 1 ∧ reconnectIn now anchor 60 = some s ∧ waitMs s > 49 * 24 * 3600 * 1000 :=
  ⟨1000000, 1000001, 4294967295, by decide⟩

/-! ## Removing a client -/

/-- Before the client is unlinked, its thread is told to run and its data are allocated until it ends. -/
def Before (s : St) : Prop := s.del = .idle → s.present = true ∧ s.running = true ∧ s.dispatched = true ∧ s.ub = false ∧ (s.data = true ↔ s.pc ≠ .done)

theorem before_step {s t : St} (h : Before s) (a : Act) (e : step s a = some t) : Before t := by
  intro hd
  have hs : s.del = .idle := by
    cases a <;> simp only [step] at e <;> (try split at e) <;> (try split at e) <;> (try split at e) <;> simp_all <;> (subst e; simp_all)
  obtain ⟨h1, h2, h3, h4, h5⟩ := h hs
  obtain ⟨d, p, da, r, pc, de, l, u⟩ := s
  simp only at *
  subst h1 h2 h3 h4 hs
  cases a <;> cases pc <;> simp [step, holdsLock] at e <;> (subst e; simp_all) <;> split <;> simp

theorem exec_before : ∀ (as : List Act) {s t : St}, Before s → exec s as = some t → Before t
  | [], s, t, h, e => by cases e; exact h
  | a :: as, s, t, h, e => by
    simp only [exec] at e
    cases e1 : step s a with
    | none => rw [e1] at e; cases e
    | some s1 => rw [e1] at e; exact exec_before as (before_step h a e1) e

theorem before_dispatched : Before dispatched := by simp [Before, dispatched]

theorem exec_append : ∀ (as bs : List Act) (s : St), exec s (as ++ bs) = (exec s as).bind fun t => exec t bs
  | [], _, _ => rfl
  | a :: as, bs, s => by
    simp only [List.cons_append, exec]
    cases step s a with
    | none => rfl
    | some t => simp [exec_append as bs t]

/-- The client was removed and its thread told to stop. -/
structure Stopped (s : St) : Prop where
  present : s.present = false
  running : s.running = false
  ub : s.ub = false
  del : s.del = .joining ∨ (s.del = .finished ∧ s.pc = .done)
  pc : holdsLock s.pc = false ∧ s.pc ≠ .relockAssert
  data : s.data = true ↔ s.pc ≠ .done

/-- Steps left at most. -/
def left (s : St) : Nat :=
  (match s.pc with
    | .done => 0
    | .cleanup => 1
    | .given => 3
    | _ => 2) + (if s.del = .joining then 1 else 0)

theorem stopped_step {s t : St} (h : Stopped s) (a : Act) (e : step s a = some t) : Stopped t ∧ left t < left s ∧ ∀ ok, a ≠ .connected ok := by
  obtain ⟨h1, h2, h3, h4, h5, h6⟩ := h
  obtain ⟨d, p, da, r, pc, de, l, u⟩ := s
  simp only at h1 h2 h3 h4 h5 h6
  subst h1 h2 h3
  rcases h4 with rfl | ⟨rfl, rfl⟩
  · cases a <;> cases pc <;> simp [holdsLock] at h5 <;> simp [step, holdsLock] at e <;> subst e <;>
      (refine ⟨⟨rfl, rfl, rfl, ?_, ?_, ?_⟩, ?_, ?_⟩ <;> first | (simp [holdsLock, left]; done) | (simpa using h6) | (split <;> simp [holdsLock, left]; done) | (simp at h6; split <;> simp [h6]))
  · cases a <;> simp [step] at e

theorem stopped_exec : ∀ (as : List Act) {s t : St}, Stopped s → exec s as = some t → Stopped t ∧ as.length + left t ≤ left s ∧ ∀ ok, .connected ok ∉ as
  | [], s, t, h, e => by cases e; exact ⟨h, by simp, by simp⟩
  | a :: as, s, t, h, e => by
    simp only [exec] at e
    cases e1 : step s a with
    | none => rw [e1] at e; cases e
    | some s1 =>
      rw [e1] at e
      obtain ⟨g1, g2, g3⟩ := stopped_step h a e1
      obtain ⟨k1, k2, k3⟩ := stopped_exec as g1 e
      refine ⟨k1, by simp only [List.length_cons]; omega, fun ok => ?_⟩
      rw [List.mem_cons, not_or]
      exact ⟨fun he => g3 ok he.symm, k3 ok⟩

theorem stopped_progress {s : St} (h : Stopped s) (hd : s.del ≠ .finished) : ∃ a t, step s a = some t := by
  obtain ⟨h1, h2, h3, h4, h5, h6⟩ := h
  obtain ⟨d, p, da, r, pc, de, l, u⟩ := s
  simp only at h1 h2 h3 h4 h5 h6 hd
  rcases h4 with rfl | ⟨rfl, rfl⟩
  · cases pc <;> simp [holdsLock] at h5
    · exact ⟨.lockClient, _, rfl⟩
    · exact ⟨.checkEstablished, _, rfl⟩
    · exact ⟨.sessionEnds true, _, rfl⟩
    · exact ⟨.checkEnded, _, rfl⟩
    · exact ⟨.lockClient, _, rfl⟩
    · exact ⟨.wakes true, _, rfl⟩
    · exact ⟨.cleanup, _, rfl⟩
    · exact ⟨.join, _, rfl⟩
  · exact absurd rfl hd

/-- **C89, part.** If the thread of the client was started and has not ended, is not between the end of a wait and the following search for the client,
and does nothing between the removal of the client from the array and being told to stop, then the removal is safe: no invalid memory is accessed, no
connection is attempted any more, the thread and the removal take at most 4 more steps, one of them is always possible until the removal has finished,
and then the thread has ended.

Missing of the full claim: the assumptions about the thread (`call_home_removal_false`). -/
theorem call_home_removal_partial (as bs : List Act) (s1 s : St) (h1 : exec dispatched as = some s1) (hpc : s1.pc ≠ .done ∧ s1.pc ≠ .relockAssert)
    (h : exec s1 (.unlink :: .stop :: bs) = some s) :
    s.ub = false ∧ bs.length ≤ 4 ∧ (∀ ok, .connected ok ∉ bs) ∧ (s.del ≠ .finished → ∃ a t, step s a = some t) ∧
      (s.del = .finished → s.pc = .done ∧ s.data = false) := by
  have hb := exec_before as before_dispatched h1
  have hcond : s1.del = .idle ∧ holdsLock s1.pc = false := by
    apply Classical.byContradiction
    intro hc
    simp [exec, step, hc] at h
  obtain ⟨g1, g2, g3, g4, g5⟩ := hb hcond.1
  have hs : exec { s1 with present := false, running := false, del := .joining } bs = some s := by
    simpa [exec, step, hcond, g2, g3, g5.mpr hpc.1] using h
  obtain ⟨k1, k2, k3⟩ := stopped_exec bs (s := { s1 with present := false, running := false, del := .joining })
    ⟨rfl, rfl, g4, .inl rfl, ⟨hcond.2, hpc.2⟩, g5⟩ hs
  refine ⟨k1.ub, ?_, k3, stopped_progress k1, ?_⟩
  · have : left { s1 with present := false, running := false, del := .joining } ≤ 4 := by
      simp only [left]
      split <;> simp
    omega
  · intro hf
    rcases k1.del with hd | ⟨_, hd⟩
    · rw [hf] at hd; cases hd
    · refine ⟨hd, ?_⟩
      have := k1.data
      simpa [hd] using this

/-- Non-vacuous: the client is removed while a session is established. -/
example : ∃ s, exec dispatched [.lockClient, .checkRun, .connected true, .checkEstablished, .unlink, .stop, .noticeRemoved, .cleanup, .join] = some s ∧
    s.del = .finished ∧ s.ub = false := ⟨_, rfl, rfl, rfl⟩

/-- **C89 is false in general.** Removing a client whose thread was never started dereferences a null pointer. Removing a client while its thread notices the removal
accesses freed memory. A thread that searches for its client after waiting fails if the client was removed in between. -/
theorem call_home_removal_false :
    (∃ s, exec configured [.unlink, .stop] = some s ∧ s.ub = true) ∧
    (∃ s, exec dispatched [.lockClient, .checkRun, .connected true, .checkEstablished, .unlink, .noticeRemoved, .cleanup, .stop] = some s ∧ s.ub = true) ∧
    (∃ s, exec dispatched [.lockClient, .checkRun, .connected false, .wakes true, .unlink, .lockClient] = some s ∧ s.ub = true) :=
  ⟨⟨_, rfl, rfl⟩, ⟨_, rfl, rfl⟩, ⟨_, rfl, rfl⟩⟩

/-- Once the client is unlinked, its thread does not hold the lock; nothing is leaked before. -/
def Unlinked (s : St) : Prop :=
  (s.present = false → holdsLock s.pc = false) ∧ (s.running = false → s.present = false)

theorem unlinked_step {s t : St} (h : Unlinked s) (hp : s.del = .idle ↔ s.present = true) (a : Act) (e : step s a = some t) :
    Unlinked t ∧ (t.del = .idle ↔ t.present = true) := by
  obtain ⟨h1, h2⟩ := h
  obtain ⟨d, p, da, r, pc, de, l, u⟩ := s
  simp only at h1 h2 hp
  cases p
  · cases de <;> simp at hp <;> cases a <;> cases pc <;> simp [holdsLock] at h1 <;> simp [step, holdsLock] at e <;>
      (first | (subst e; simp [Unlinked, holdsLock]; done) | (subst e; constructor <;> (try split) <;> simp [Unlinked, holdsLock]; done) |
        (subst e; cases r <;> simp [Unlinked, holdsLock]; done) | (cases d <;> cases da <;> cases r <;> simp at e <;> subst e <;> simp [Unlinked, holdsLock]; done) |
        (subst e; rename_i b; cases b <;> cases r <;> simp [Unlinked, holdsLock]; done))
  · have hd : de = .idle := hp.mpr rfl
    subst hd
    have hr : r = true := by
      cases r
      · simp at h2
      · rfl
    subst hr
    cases a <;> cases pc <;> simp [step, holdsLock] at e <;> subst e <;> simp [Unlinked, holdsLock]

theorem lost_step {s t : St} (h : Unlinked s) (hp : s.del = .idle ↔ s.present = true) (a : Act) (e : step s a = some t) (hs : ¬(a = .stop ∧ s.pc = .established))
    (ht : t.leaked = true ∨ (t.running = false ∧ t.pc = .established)) : s.leaked = true ∨ (s.running = false ∧ s.pc = .established) := by
  obtain ⟨h1, h2⟩ := h
  obtain ⟨d, p, da, r, pc, de, l, u⟩ := s
  simp only at h1 h2 hp hs ⊢
  cases l
  · simp only [Bool.false_eq_true, false_or]
    cases r
    · have hp' : p = false := h2 rfl
      subst hp'
      have h1 := h1 rfl
      cases a <;> cases pc <;> simp [holdsLock] at h1 <;> simp [step, holdsLock] at e <;>
        (first | (simp; done) | (obtain ⟨_, rfl⟩ := e; simp at ht; done) | (subst e; simp at ht; done) | (subst e; (try split at ht) <;> simp at ht; done) |
          (exfalso; obtain ⟨_, e⟩ := e; (try split at e) <;> simp at e <;> subst e <;> simp at ht; done))
    · cases a <;> cases pc <;> simp [step, holdsLock] at e <;>
        (first | (simp at hs; done) | (obtain ⟨_, rfl⟩ := e; simp at ht; done) | (subst e; simp at ht; done) | (subst e; (try split at ht) <;> simp at ht; done) |
          (exfalso; obtain ⟨_, e⟩ := e; (try split at e) <;> simp at e <;> subst e <;> simp at ht; done))
  · exact .inl rfl

theorem lost_exec : ∀ (as : List Act) {s t : St}, Unlinked s → (s.del = .idle ↔ s.present = true) → exec s as = some t → t.leaked = true →
    (s.leaked = true ∨ (s.running = false ∧ s.pc = .established)) ∨ ∃ bs cs s1, as = bs ++ .stop :: cs ∧ exec s bs = some s1 ∧ s1.pc = .established
  | [], s, t, _, _, e, hl => by cases e; exact .inl (.inl hl)
  | a :: as, s, t, h, hp, e, hl => by
    simp only [exec] at e
    cases e1 : step s a with
    | none => rw [e1] at e; cases e
    | some s1 =>
      rw [e1] at e
      obtain ⟨k1, k2⟩ := unlinked_step h hp a e1
      rcases lost_exec as k1 k2 e hl with q | ⟨bs, cs, s2, q1, q2, q3⟩
      · by_cases hs : a = .stop ∧ s.pc = .established
        · exact .inr ⟨[], as, s, by rw [hs.1]; rfl, rfl, hs.2⟩
        · exact .inl (lost_step h hp a e1 hs q)
      · exact .inr ⟨a :: bs, cs, s2, by rw [q1]; rfl, by simp [exec, e1, q2], q3⟩

/-- **C88, part.** A session is only lost if the thread is told to stop right after the session was established, before it is given to the application.

Missing of the full claim: a client removed at that moment (`call_home_session_lost_false`). -/
theorem call_home_session_lost_partial (as : List Act) (s : St) (h : exec dispatched as = some s) (hl : s.leaked = true) :
    ∃ bs cs s1, as = bs ++ .stop :: cs ∧ exec dispatched bs = some s1 ∧ s1.pc = .established := by
  rcases lost_exec as (by simp [Unlinked, dispatched]) (by simp [dispatched]) h hl with q | q
  · simp [dispatched] at q
  · exact q

/-- Non-vacuous: a removal after which nothing is lost. -/
example : ∃ s, exec dispatched [.lockClient, .checkRun, .connected true, .checkEstablished, .unlink, .stop, .noticeRemoved, .cleanup, .join] = some s ∧
    s.leaked = false := ⟨_, rfl, rfl⟩

/-- **C88 is false in general.** If the client is removed right after a session was established, the session is neither given to the application nor closed,
and its context is not released. -/
theorem call_home_session_lost_false :
    ∃ s, exec dispatched [.lockClient, .checkRun, .connected true, .unlink, .stop, .checkEstablished, .cleanup, .join] = some s ∧
      s.leaked = true ∧ s.del = .finished ∧ s.ub = false := ⟨_, rfl, rfl, rfl, rfl⟩

end Verif.Props
