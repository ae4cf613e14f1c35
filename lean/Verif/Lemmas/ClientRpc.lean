import Verif.Model.ClientRpc

/-! # Lemmas about RPC objects of the client -/

namespace Verif.ClientRpc

/-- All blocks in use were allocated before. -/
def Mem.WF (m : Mem) : Prop := ∀ p ∈ m.live, p < m.next

/-- The blocks `os` were allocated since `m0` and nothing else changed. -/
structure Own (m0 m : Mem) (os : List (Option Nat)) : Prop where
  fails : m.fails = m0.fails
  text : ∀ p, p < m0.next → m.text p = m0.text p
  next : m0.next ≤ m.next
  live : m.live = os.filterMap id ++ m0.live
  sorted : (os.filterMap id).Pairwise (· > ·)
  range : ∀ p ∈ os.filterMap id, m0.next ≤ p ∧ p < m.next

theorem Own.refl (m : Mem) : Own m m [] := ⟨rfl, fun _ _ => rfl, Nat.le_refl _, rfl, List.Pairwise.nil, by simp⟩

theorem Own.fail {m0 m : Mem} {os : List (Option Nat)} (h : Own m0 m os) : Own m0 { m with next := m.next + 1 } (none :: os) :=
  ⟨h.fails, h.text, by have := h.next; show m0.next ≤ m.next + 1; omega, by simpa using h.live, by simpa using h.sorted, by
    intro p hp
    have := h.range p (by simpa using hp)
    show m0.next ≤ p ∧ p < m.next + 1
    omega⟩

theorem Own.null {m0 m : Mem} {os : List (Option Nat)} (h : Own m0 m os) : Own m0 m (none :: os) :=
  ⟨h.fails, h.text, h.next, by simpa using h.live, by simpa using h.sorted, by simpa using h.range⟩

theorem Own.new {m0 m : Mem} {os : List (Option Nat)} (h : Own m0 m os) (text : Nat → List Byte) (ht : ∀ p, p < m.next → text p = m.text p) :
    Own m0 { m with next := m.next + 1, live := m.next :: m.live, text := text } (some m.next :: os) := by
  refine ⟨h.fails, ?_, by have := h.next; show m0.next ≤ m.next + 1; omega, by simp [h.live], ?_, ?_⟩
  · intro p hp
    have := h.next
    show text p = m0.text p
    rw [ht p (by omega)]
    exact h.text p hp
  · simp only [List.filterMap_cons, id]
    exact List.pairwise_cons.mpr ⟨fun p hp => (h.range p hp).2, h.sorted⟩
  · intro p hp
    simp only [List.filterMap_cons, id, List.mem_cons] at hp
    show m0.next ≤ p ∧ p < m.next + 1
    have := h.next
    rcases hp with rfl | hp
    · omega
    · have := h.range p hp; omega

theorem Own.malloc {m0 m : Mem} {os : List (Option Nat)} (h : Own m0 m os) : Own m0 m.malloc.2 (m.malloc.1 :: os) := by
  unfold Mem.malloc
  split
  · exact h.fail
  · exact h.new m.text (fun _ _ => rfl)

theorem Own.strdup {m0 m : Mem} {os : List (Option Nat)} (h : Own m0 m os) (p : Nat) : Own m0 (m.strdup p).2 ((m.strdup p).1 :: os) := by
  unfold Mem.strdup
  split
  · exact h.fail
  · exact h.new _ (fun q hq => by simp; omega)

theorem Own.field {m0 m : Mem} {os : List (Option Nat)} (h : Own m0 m os) (a : Option Nat) :
    Own m0 (field .dupAndFree a m).2 ((field .dupAndFree a m).1 :: os) := by
  cases a with
  | none => exact h.null
  | some p => simpa [ClientRpc.field] using h.strdup p

theorem field_keep {pt : ParamType} (h : pt ≠ .dupAndFree) (a : Option Nat) (m : Mem) : field pt a m = (a, m) := by
  cases a <;> simp [field, h]

theorem freeAll_spec : ∀ (ps : List (Option Nat)) (m : Mem), (ps.filterMap id).Nodup → (∀ p ∈ ps.filterMap id, p ∈ m.live) →
    freeAll ps m = some { m with live := m.live.filter (fun p => decide (p ∉ ps.filterMap id)) }
  | [], m, _, _ => by
    have : m.live.filter (fun _ => true) = m.live := List.filter_eq_self.mpr (by simp)
    simp [freeAll, this]
  | none :: ps, m, h1, h2 => by
    simp only [freeAll, Mem.free, Option.bind_some, List.filterMap_cons, id] at h1 h2 ⊢
    exact freeAll_spec ps m h1 h2
  | some p :: ps, m, h1, h2 => by
    simp only [List.filterMap_cons, id, List.nodup_cons, List.mem_cons, forall_eq_or_imp] at h1 h2
    simp only [freeAll, Mem.free, h2.1, if_true, Option.bind_some, List.filterMap_cons, id]
    rw [freeAll_spec ps _ h1.2 (by
      intro q hq
      refine List.mem_filter.mpr ⟨h2.2 q hq, ?_⟩
      simp only [bne_iff_ne]
      rintro rfl
      exact h1.1 hq)]
    simp only [List.filter_filter, Option.some.injEq, Mem.mk.injEq, and_true]
    apply List.filter_congr
    intro q _
    by_cases hq : q = p <;> simp [hq]

theorem filter_own {os live : List Nat} (h : ∀ p ∈ live, p ∉ os) : (os ++ live).filter (fun p => decide (p ∉ os)) = live := by
  rw [List.filter_append]
  have : os.filter (fun p => decide (p ∉ os)) = [] := by
    rw [List.filter_eq_nil_iff]
    simp
  rw [this, List.nil_append]
  exact List.filter_eq_self.mpr (by simpa using h)

/-- Freeing what was allocated gives the memory before. -/
theorem Own.freeAll {m0 m : Mem} {os ps : List (Option Nat)} (h : Own m0 m os) (hw : m0.WF) (hpm : (ps.filterMap id).Perm (os.filterMap id)) :
    ∃ m', ClientRpc.freeAll ps m = some m' ∧ m'.live = m0.live := by
  have hnd : (os.filterMap id).Nodup := h.sorted.imp (fun h => by omega)
  refine ⟨_, freeAll_spec ps m (hpm.nodup_iff.mpr hnd) (fun p hm => by rw [h.live]; exact List.mem_append_left _ (hpm.mem_iff.mp hm)), ?_⟩
  show m.live.filter _ = m0.live
  rw [h.live]
  rw [show (fun p => decide (p ∉ ps.filterMap id)) = (fun p => decide (p ∉ os.filterMap id)) from by
    funext p; simp only [hpm.mem_iff]]
  exact filter_own (fun p hp1 hp2 => by have := hw p hp1; have := h.range p hp2; omega)

/-- A new object: its block is the first one. -/
theorem malloc_self {m m1 : Mem} {self : Nat} (hw : m.WF) (h : m.malloc = (some self, m1)) :
    m1.WF ∧ m1.live = self :: m.live ∧ self ∉ m.live ∧ m1.fails = m.fails ∧ m1.text = m.text ∧ m1.next = m.next + 1 ∧ self = m.next := by
  unfold Mem.malloc at h
  split at h
  · cases h
  · simp only [Prod.mk.injEq, Option.some.injEq] at h
    obtain ⟨rfl, rfl⟩ := h
    refine ⟨?_, rfl, fun hm => by have := hw _ hm; omega, rfl, rfl, rfl, rfl⟩
    intro p hp
    simp only [List.mem_cons] at hp
    show p < m.next + 1
    rcases hp with rfl | hp
    · omega
    · have := hw p hp; omega

theorem malloc_null {m m1 : Mem} (h : m.malloc = (none, m1)) : m1.live = m.live := by
  unfold Mem.malloc at h
  split at h
  · cases h; rfl
  · cases h

theorem free_self {self : Nat} {m : Mem} {live : List Nat} (h : m.live = self :: live) (hn : self ∉ live) : ∃ m', m.free (some self) = some m' ∧ m'.live = live := by
  refine ⟨{ m with live := m.live.filter (· != self) }, by simp [Mem.free, h], ?_⟩
  show m.live.filter _ = live
  rw [h]
  simp only [List.filter_cons, bne_self_eq_false, Bool.false_eq_true, if_false]
  refine List.filter_eq_self.mpr (fun p hp => ?_)
  simp only [bne_iff_ne]
  rintro rfl
  exact hn hp

/-- What happens to an object with copied strings. -/
theorem own_made {m m1 m2 : Mem} {self : Nat} {rpc : PRpc} {os : List (Option Nat)} (hw : m.WF) (h : m.malloc = (some self, m1)) (ho : Own m1 m2 os) (hp : ((freed rpc).filterMap id).Perm (os.filterMap id)) :
    (∃ m3, rpcFree ⟨self, rpc, true⟩ m2 = some m3 ∧ m3.live = m.live) ∧ ∀ p ∈ m.live, p ∈ m2.live ∧ m2.text p = m.text p := by
  obtain ⟨w1, h1, h2, _, h4, h5, _⟩ := malloc_self hw h
  obtain ⟨m', g1, g2⟩ := ho.freeAll w1 hp
  obtain ⟨m3, k1, k2⟩ := free_self (m := m') (g2.trans h1) h2
  refine ⟨⟨m3, by simp [rpcFree, g1, k1], k2⟩, ?_⟩
  intro p hp
  refine ⟨by rw [ho.live, h1]; exact List.mem_append_right _ (List.mem_cons_of_mem _ hp), ?_⟩
  rw [ho.text p (by have := hw p hp; omega), h4]

/-- The origin filters: all copies are owned. -/
theorem dupOrigins_own : ∀ (es : List Nat) {m0 m : Mem} {os : List (Option Nat)}, Own m0 m os →
    ∃ os', Own m0 (dupOrigins es m).2.2 (os' ++ os) ∧ os'.filterMap id = (dupOrigins es m).1.reverse
  | [], m0, m, os, h => ⟨[], h, rfl⟩
  | p :: ps, m0, m, os, h => by
    have hs := h.strdup p
    rcases hd : m.strdup p with ⟨_ | q, m1⟩
    · rw [hd] at hs
      simp only [dupOrigins, hd]
      exact ⟨[none], hs, by simp⟩
    · rw [hd] at hs
      obtain ⟨os', g1, g2⟩ := dupOrigins_own ps hs
      simp only [dupOrigins, hd]
      exact ⟨os' ++ [some q], by simpa using g1, by simp [g2]⟩

theorem Own.free {m0 m : Mem} {os : List (Option Nat)} (hw : m0.WF) (h : Own m0 m os) {p : Nat} (hp : p ∈ os.filterMap id) :
    ∃ m', m.free (some p) = some m' ∧ Own m0 m' (((os.filterMap id).filter (· != p)).map some) := by
  have e : ∀ l : List Nat, (l.map some).filterMap id = l := by intro l; induction l <;> simp_all
  refine ⟨{ m with live := m.live.filter (· != p) }, by simp only [Mem.free]; rw [if_pos (by rw [h.live]; exact List.mem_append_left _ hp)], h.fails, h.text, h.next, ?_, ?_, ?_⟩
  · show m.live.filter _ = _
    rw [h.live, List.filter_append, e]
    congr 1
    refine List.filter_eq_self.mpr (fun q hq => ?_)
    simp only [bne_iff_ne]
    rintro rfl
    have := hw q hq
    have := h.range q hp
    omega
  · rw [e]; exact h.sorted.filter _
  · rw [e]
    intro q hq
    exact h.range q (List.mem_filter.mp hq).1

/-- The excluded changes if no allocation fails: the array and the copies are owned. -/
theorem dupExcluded_own {m0 : Mem} (hw : m0.WF) (hf : ∀ n, m0.fails n = false) (base : List Nat) : ∀ (es : List Nat) (arr : Option Nat) (cs : List Nat) (m : Mem) (os : List (Option Nat)),
    Own m0 m os → (os.filterMap id).Perm (arr.toList ++ cs ++ base) → (arr = none → cs = []) →
    ∃ x m' os', dupExcluded es arr cs false m = some (x, m') ∧ Own m0 m' os' ∧
      (os'.filterMap id).Perm (((match x with | some (a, es) => es.map some ++ [some a] | none => []).filterMap id) ++ base)
  | [], none, cs, m, os, h, hp, hn => ⟨none, m, os, rfl, h, by simpa [hn rfl] using hp⟩
  | [], some a, cs, m, os, h, hp, _ => ⟨some (a, cs), m, os, rfl, h, by
      have e : (cs.map some).filterMap id = cs := by clear hp; induction cs <;> simp_all
      refine hp.trans ?_
      simp only [Option.toList, List.filterMap_append, e, List.filterMap_cons, id, List.filterMap_nil]
      exact List.perm_append_comm.append_right base⟩
  | p :: ps, arr, cs, m, os, h, hp, hn => by
    have hff : ∀ n, m.fails n = false := by rw [h.fails]; exact hf
    have h1 := h.malloc
    have e1 : m.malloc = (some m.next, { m with next := m.next + 1, live := m.next :: m.live }) := by simp [Mem.malloc, hff]
    rw [e1] at h1
    -- the old array is released
    obtain ⟨m2, os2, g1, g2, g3⟩ : ∃ m2 os2, ({ m with next := m.next + 1, live := m.next :: m.live } : Mem).free arr = some m2 ∧ Own m0 m2 os2 ∧
        (os2.filterMap id).Perm (m.next :: (cs ++ base)) := by
      cases arr with
      | none => exact ⟨_, _, rfl, h1, by simpa using hp⟩
      | some a =>
        have ha : a ∈ (some m.next :: os).filterMap id := by
          simp only [List.filterMap_cons, id, List.mem_cons]
          exact .inr (hp.mem_iff.mpr (by simp))
        obtain ⟨m2, k1, k2⟩ := h1.free hw ha
        refine ⟨m2, _, k1, k2, ?_⟩
        have e : ∀ l : List Nat, (l.map some).filterMap id = l := by intro l; induction l <;> simp_all
        have hnd : (os.filterMap id).Nodup := h.sorted.imp (fun h => by omega)
        have hnd2 := hp.nodup_iff.mp hnd
        simp only [Option.toList, List.cons_append, List.nil_append, List.nodup_cons] at hnd2
        have hlt : a < m.next := (h.range a (hp.mem_iff.mpr (by simp))).2
        rw [e]
        simp only [List.filterMap_cons, id]
        have := (hp.cons m.next).filter (· != a)
        refine this.trans ?_
        simp only [Option.toList, List.cons_append, List.nil_append]
        rw [List.filter_cons_of_pos (by simp; omega), List.filter_cons_of_neg (by simp)]
        refine List.Perm.cons _ (List.Perm.of_eq (List.filter_eq_self.mpr (fun q hq => ?_)))
        simp only [bne_iff_ne]
        rintro rfl
        exact hnd2.1 hq
    have hff2 : ∀ n, m2.fails n = false := by rw [g2.fails]; exact hf
    have h3 := g2.strdup p
    have e3 : (m2.strdup p).1 = some m2.next := by simp [Mem.strdup, hff2]
    obtain ⟨x, m', os', r1, r2, r3⟩ := dupExcluded_own hw hf base ps (some m.next) (cs ++ [m2.next]) _ _ h3 (by
      rw [e3]
      simp only [List.filterMap_cons, id, Option.toList, List.cons_append, List.nil_append, List.append_assoc]
      refine (List.Perm.cons _ g3).trans ((List.Perm.swap _ _ _).trans (List.Perm.cons _ ?_))
      exact List.perm_middle.symm) (by simp)
    refine ⟨x, m', os', ?_, r2, r3⟩
    · simp only [dupExcluded, e1, g1]
      rcases hd : m2.strdup p with ⟨y, m3⟩
      rw [hd] at e3 r1
      simp only at e3
      subst e3
      simpa using r1

/-- Later memory: what was allocated has kept its text. -/
structure Grow (m m' : Mem) : Prop where
  fails : m'.fails = m.fails
  next : m.next ≤ m'.next
  text : ∀ p, p < m.next → m'.text p = m.text p

theorem Grow.refl (m : Mem) : Grow m m := ⟨rfl, Nat.le_refl _, fun _ _ => rfl⟩

theorem Grow.trans {a b c : Mem} (h1 : Grow a b) (h2 : Grow b c) : Grow a c :=
  ⟨h2.fails.trans h1.fails, Nat.le_trans h1.next h2.next, fun p hp => (h2.text p (Nat.lt_of_lt_of_le hp h1.next)).trans (h1.text p hp)⟩

theorem Grow.malloc {m0 m : Mem} (h : Grow m0 m) : Grow m0 m.malloc.2 := by
  refine h.trans ?_
  unfold Mem.malloc
  split
  · exact ⟨rfl, Nat.le_succ _, fun _ _ => rfl⟩
  · exact ⟨rfl, Nat.le_succ _, fun _ _ => rfl⟩

theorem Grow.strdup {m0 m : Mem} (h : Grow m0 m) (p : Nat) : Grow m0 (m.strdup p).2 := by
  refine h.trans ?_
  unfold Mem.strdup
  split
  · exact ⟨rfl, Nat.le_succ _, fun _ _ => rfl⟩
  · exact ⟨rfl, Nat.le_succ _, fun q hq => by simp; omega⟩

theorem Grow.free {m0 m m' : Mem} (h : Grow m0 m) {p : Option Nat} (e : m.free p = some m') : Grow m0 m' := by
  refine h.trans ?_
  cases p with
  | none => cases e; exact Grow.refl _
  | some p =>
    simp only [Mem.free] at e
    split at e
    · cases e; exact ⟨rfl, Nat.le_refl _, fun _ _ => rfl⟩
    · cases e

theorem Grow.field {m0 m : Mem} {pt : ParamType} {a : Option Nat} (h : Grow m0 m) : Grow m0 (field pt a m).2 := by
  unfold ClientRpc.field
  cases a with
  | none => exact h
  | some p =>
    simp only
    split
    · exact h.strdup p
    · exact h

/-- No copy fails. -/
def NoFail (pt : ParamType) (m : Mem) : Prop := pt = .dupAndFree → ∀ n, m.fails n = false

theorem strdup_says {m0 m mF : Mem} {p : Nat} (h0 : Grow m0 m) (hF : Grow (m.strdup p).2 mF) (hp : p < m0.next) (hf : ∀ n, m0.fails n = false) :
    (m.strdup p).1 = some m.next ∧ mF.text m.next = m0.text p := by
  have e : m.fails m.next = false := by rw [h0.fails]; exact hf _
  have e2 : m.strdup p = (some m.next, { m with next := m.next + 1, live := m.next :: m.live, text := fun q => if q = m.next then m.text p else m.text q }) := by
    simp [Mem.strdup, e]
  refine ⟨by rw [e2], ?_⟩
  rw [e2] at hF
  rw [hF.text m.next (Nat.lt_succ_self _)]
  simp only [if_true]
  exact h0.text p hp

theorem field_says {m0 m mF : Mem} {pt : ParamType} {a : Option Nat} (h0 : Grow m0 m) (hF : Grow (field pt a m).2 mF) (ha : ∀ p, a = some p → p < m0.next) (hf : NoFail pt m0) :
    (field pt a m).1.map mF.text = a.map m0.text := by
  cases a with
  | none => rfl
  | some p =>
    unfold ClientRpc.field at hF ⊢
    simp only at hF ⊢
    have hp := ha p rfl
    by_cases h : pt = .dupAndFree
    · simp only [if_pos h] at hF ⊢
      obtain ⟨h1, h2⟩ := strdup_says h0 hF hp (hf h)
      rw [h1]
      simp [h2]
    · simp only [if_neg h] at hF ⊢
      simp only [Option.map_some, Option.some.injEq]
      rw [hF.text p (by have := h0.next; omega), h0.text p hp]

theorem dupOrigins_grow : ∀ (es : List Nat) {m0 m : Mem}, Grow m0 m → Grow m0 (dupOrigins es m).2.2
  | [], _, _, h => h
  | p :: ps, m0, m, h => by
    have hs := h.strdup p
    rcases hd : m.strdup p with ⟨_ | q, m1⟩
    · rw [hd] at hs; simp only [dupOrigins, hd]; exact hs
    · rw [hd] at hs; simp only [dupOrigins, hd]; exact dupOrigins_grow ps hs

theorem dupOrigins_says : ∀ (es : List Nat) {m0 m mF : Mem}, Grow m0 m → Grow (dupOrigins es m).2.2 mF → (∀ p ∈ es, p < m0.next) → (∀ n, m0.fails n = false) →
    (dupOrigins es m).2.1 = true ∧ (dupOrigins es m).1.map mF.text = es.map m0.text
  | [], _, _, _, _, _, _, _ => ⟨rfl, rfl⟩
  | p :: ps, m0, m, mF, h, hF, hp, hf => by
    have hs := h.strdup p
    have e : (m.strdup p).1 = some m.next := (strdup_says h (Grow.refl _) (hp p List.mem_cons_self) hf).1
    have hg : dupOrigins (p :: ps) m = (m.next :: (dupOrigins ps (m.strdup p).2).1, (dupOrigins ps (m.strdup p).2).2.1, (dupOrigins ps (m.strdup p).2).2.2) := by
      rcases hd : m.strdup p with ⟨y, m1⟩
      rw [hd] at e
      simp only at e
      subst e
      simp only [dupOrigins, hd]
    rw [hg] at hF ⊢
    obtain ⟨h1, h2⟩ := dupOrigins_says ps hs hF (fun q hq => hp q (List.mem_cons_of_mem _ hq)) hf
    refine ⟨h1, ?_⟩
    have hgr : Grow (m.strdup p).2 mF := (dupOrigins_grow ps (Grow.refl _)).trans hF
    simp only [List.map_cons, h2, (strdup_says h hgr (hp p List.mem_cons_self) hf).2]

theorem dupExcluded_grow : ∀ (es : List Nat) (arr : Option Nat) (cs : List Nat) (cut : Bool) {m0 m m' : Mem} {x : Option (Nat × List Nat)}, Grow m0 m →
    dupExcluded es arr cs cut m = some (x, m') → Grow m0 m'
  | [], arr, cs, cut, m0, m, m', x, h, e => by
    simp only [dupExcluded, Option.some.injEq, Prod.mk.injEq] at e
    rw [← e.2]; exact h
  | p :: ps, arr, cs, cut, m0, m, m', x, h, e => by
    have hm := h.malloc
    rcases hd : m.malloc with ⟨_ | a', m1⟩
    · rw [hd] at hm
      simp only [dupExcluded, hd] at e
      cases hfr : m1.free arr with
      | none => rw [hfr] at e; cases e
      | some m2 =>
        rw [hfr] at e
        simp only [Option.map_some, Option.some.injEq, Prod.mk.injEq] at e
        rw [← e.2]; exact hm.free hfr
    · rw [hd] at hm
      simp only [dupExcluded, hd] at e
      cases hfr : m1.free arr with
      | none => rw [hfr] at e; cases e
      | some m2 =>
        rw [hfr] at e
        simp only at e
        have hs := (hm.free hfr).strdup p
        rcases hd2 : m2.strdup p with ⟨_ | q, m3⟩
        · rw [hd2] at e hs; exact dupExcluded_grow ps _ _ _ hs e
        · rw [hd2] at e hs; exact dupExcluded_grow ps _ _ _ hs e

theorem dupExcluded_says : ∀ (es : List Nat) (arr : Option Nat) (cs : List Nat) {m0 m m' : Mem} {x : Option (Nat × List Nat)}, Grow m0 m → (∀ p ∈ es, p < m0.next) →
    (∀ n, m0.fails n = false) → (arr = none → cs = []) → (∀ q ∈ cs, q < m.next) → dupExcluded es arr cs false m = some (x, m') →
    (match x with | some (_, es) => es.map m'.text | none => []) = cs.map m'.text ++ es.map m0.text
  | [], none, cs, m0, m, m', x, h, hp, hf, hn, hc, e => by
    simp only [dupExcluded, Option.map_none, Option.some.injEq, Prod.mk.injEq] at e
    rw [← e.1, hn rfl]; rfl
  | [], some a, cs, m0, m, m', x, h, hp, hf, hn, hc, e => by
    simp only [dupExcluded, Option.map_some, Option.some.injEq, Prod.mk.injEq] at e
    rw [← e.1]; simp
  | p :: ps, arr, cs, m0, m, m', x, h, hp, hf, hn, hc, e => by
    have hm := h.malloc
    have e1 : m.malloc = (some m.next, { m with next := m.next + 1, live := m.next :: m.live }) := by simp [Mem.malloc, h.fails, hf]
    rw [e1] at hm
    simp only [dupExcluded, e1] at e
    cases hfr : ({ m with next := m.next + 1, live := m.next :: m.live } : Mem).free arr with
    | none => rw [hfr] at e; cases e
    | some m2 =>
      rw [hfr] at e
      simp only at e
      have h2 := hm.free hfr
      have h12 := (Grow.refl _ : Grow ({ m with next := m.next + 1, live := m.next :: m.live } : Mem) _).free hfr
      have hs := h2.strdup p
      have e3 := (strdup_says h2 (Grow.refl _) (hp p List.mem_cons_self) hf).1
      have hgr : ∀ m3, m2.strdup p = (some m2.next, m3) → m3.next = m2.next + 1 := by
        intro m3 e
        simp only [Mem.strdup] at e
        split at e
        · cases e
        · simp only [Prod.mk.injEq] at e; rw [← e.2]
      rcases hd2 : m2.strdup p with ⟨y, m3⟩
      rw [hd2] at e hs e3
      simp only at e3
      subst e3
      simp only [Bool.false_eq_true, if_false] at e
      have hn3 := hgr m3 hd2
      have hle : m.next + 1 ≤ m2.next := h12.next
      have ih := dupExcluded_says ps (some m.next) (cs ++ [m2.next]) hs (fun q hq => hp q (List.mem_cons_of_mem _ hq)) hf (by simp) (by
        intro q hq
        show q < m3.next
        rcases List.mem_append.mp hq with hq | hq
        · have := hc q hq
          omega
        · simp only [List.mem_singleton] at hq; omega) e
      rw [ih]
      have hF : Grow m3 m' := dupExcluded_grow ps _ _ _ (Grow.refl _) e
      have := (strdup_says h2 (by rw [hd2]; exact hF) (hp p List.mem_cons_self) hf).2
      simp [this]

end Verif.ClientRpc
