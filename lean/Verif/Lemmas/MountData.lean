import Verif.Model.MountData

/-!
# Lemmas: contexts and schema-mount data of client sessions
-/

namespace Verif.MountData

structure Inv (s : St) : Prop where
  nodup : (s.ring.map Sess.id).Nodup
  lt : ∀ y ∈ s.ring, y.id < s.sessions
  none : ∀ y ∈ s.ring, y.shared = true → y.ext = none
  own : ∀ y ∈ s.ring, y.shared = false → ∃ k, y.ctx = .lib k ∧ (k, y.id) ∈ s.clb ∧ k ∉ s.destroyed
  live : ∀ k i, (k, i) ∈ s.clb → k ∉ s.destroyed → ∃ y ∈ s.ring, y.id = i ∧ y.shared = false ∧ y.ctx = .lib k
  clt : ∀ k i, (k, i) ∈ s.clb → k < s.ctxs
  cone : ∀ k i j, (k, i) ∈ s.clb → (k, j) ∈ s.clb → i = j
  dlt : ∀ k ∈ s.destroyed, k < s.ctxs
  dnodup : s.destroyed.Nodup

theorem eq_of_id {l : List Sess} (hn : (l.map Sess.id).Nodup) {a b : Sess} (ha : a ∈ l) (hb : b ∈ l) (h : a.id = b.id) : a = b := by
  induction l with
  | nil => cases ha
  | cons z l ih =>
    simp only [List.map_cons, List.nodup_cons, List.mem_map, not_exists, not_and] at hn
    rcases List.mem_cons.mp ha with h1 | h1 <;> rcases List.mem_cons.mp hb with h2 | h2
    · exact h1.trans h2.symm
    · exact absurd (h1 ▸ h.symm) (hn.1 _ h2)
    · exact absurd (h2 ▸ h) (hn.1 _ h1)
    · exact ih hn.2 h1 h2

theorem mem_ins {l : List Sess} {x : Nat} {n y : Sess} : y ∈ ins l x n ↔ y ∈ l ∨ (y = n ∧ ∃ z ∈ l, z.id = x) := by
  induction l with
  | nil => simp [ins]
  | cons z l ih =>
    have h : ins (z :: l) x n = (if z.id = x then [z, n] else [z]) ++ ins l x n := by simp [ins]
    rw [h, List.mem_append, ih]
    by_cases hz : z.id = x
    · simp only [hz, if_true, List.mem_cons, List.not_mem_nil, or_false, exists_eq_or_imp, true_or, and_true]
      constructor
      · rintro ((h | h) | h | h)
        · exact .inl (.inl h)
        · exact .inr h
        · exact .inl (.inr h)
        · exact .inr h.1
      · rintro ((h | h) | h)
        · exact .inl (.inl h)
        · exact .inr (.inl h)
        · exact .inl (.inr h)
    · simp only [hz, if_false, List.mem_cons, List.not_mem_nil, or_false, exists_eq_or_imp, false_or]
      exact or_assoc.symm

theorem ins_none {l : List Sess} {x : Nat} {n : Sess} (h : ∀ z ∈ l, z.id ≠ x) : ins l x n = l := by
  induction l with
  | nil => rfl
  | cons z l ih =>
    have h' : ins (z :: l) x n = (if z.id = x then [z, n] else [z]) ++ ins l x n := by simp [ins]
    rw [h', ih fun z hz => h z (List.mem_cons_of_mem _ hz), if_neg (h z List.mem_cons_self)]
    rfl

theorem nodup_ins {l : List Sess} {x : Nat} {n : Sess} (hn : (l.map Sess.id).Nodup) (hf : ∀ z ∈ l, z.id ≠ n.id) : ((ins l x n).map Sess.id).Nodup := by
  induction l with
  | nil => simp [ins]
  | cons z l ih =>
    have h' : ins (z :: l) x n = (if z.id = x then [z, n] else [z]) ++ ins l x n := by simp [ins]
    simp only [List.map_cons, List.nodup_cons, List.mem_map, not_exists, not_and] at hn
    have hi := ih hn.2 fun z hz => hf z (List.mem_cons_of_mem _ hz)
    have hz := hf z List.mem_cons_self
    rw [h']
    by_cases hx : z.id = x
    · have : ins l x n = l := ins_none fun y hy he => hn.1 y hy (he.trans hx.symm)
      rw [if_pos hx, this]
      simp only [List.cons_append, List.nil_append, List.map_cons, List.nodup_cons, List.mem_cons, List.mem_map, not_or, not_exists, not_and]
      exact ⟨⟨hz, hn.1⟩, fun y hy => hf y (List.mem_cons_of_mem _ hy), hn.2⟩
    · rw [if_neg hx]
      simp only [List.cons_append, List.nil_append, List.map_cons, List.nodup_cons, List.mem_map, not_exists, not_and]
      refine ⟨fun y hy he => ?_, hi⟩
      rcases mem_ins.mp hy with hy | ⟨rfl, _⟩
      · exact hn.1 y hy he
      · exact hz he.symm

theorem mem_setExt {l : List Sess} {i : Nat} {e : Option Nat} {y : Sess} (h : y ∈ setExt l i e) :
    ∃ z ∈ l, y.id = z.id ∧ y.shared = z.shared ∧ y.ctx = z.ctx ∧ (y.ext = if z.id = i then e else z.ext) := by
  obtain ⟨z, hz, rfl⟩ := List.mem_map.mp h
  refine ⟨z, hz, ?_⟩
  by_cases hi : z.id = i <;> simp [hi]

theorem setExt_mem {l : List Sess} {i : Nat} {e : Option Nat} {z : Sess} (h : z ∈ l) :
    ∃ y ∈ setExt l i e, y.id = z.id ∧ y.shared = z.shared ∧ y.ctx = z.ctx := by
  refine ⟨_, List.mem_map_of_mem h, ?_⟩
  by_cases hi : z.id = i <;> simp [hi]

theorem map_setExt (l : List Sess) (i : Nat) (e : Option Nat) : (setExt l i e).map Sess.id = l.map Sess.id := by
  simp only [setExt, List.map_map]
  apply List.map_congr_left
  intro y _
  by_cases hi : y.id = i <;> simp [hi]

theorem setExt_same {l : List Sess} (hn : (l.map Sess.id).Nodup) {o : Sess} (ho : o ∈ l) : setExt l o.id o.ext = l := by
  conv => rhs; rw [← List.map_id l]
  apply List.map_congr_left
  intro y hy
  by_cases hi : y.id = o.id
  · simp [eq_of_id hn hy ho hi]
  · simp [hi]

theorem mem_of_succ {l : List Sess} {x : Nat} {o : Sess} (h : succ l x = some o) : o ∈ l := by
  have h := List.mem_of_mem_head? h
  rcases List.mem_append.mp h with h | h
  · exact (List.dropWhile_sublist _).subset (List.mem_of_mem_tail h)
  · exact (List.takeWhile_sublist _).subset h

/-- The state without `x` (src/session.c:934-953, 1009-1011). -/
def without (s : St) (x : Sess) : St :=
  { s with ring := s.ring.filter fun y => y.id ≠ x.id, freed := s.freed ++ x.ext.toList
           destroyed := s.destroyed ++ destroys x }

theorem inv_without {s : St} (h : Inv s) {x : Sess} (hx : x ∈ s.ring) : Inv (without s x) := by
  have hm : ∀ {y}, y ∈ (without s x).ring ↔ y ∈ s.ring ∧ y.id ≠ x.id := by simp [without]
  have hnd : ((without s x).ring.map Sess.id).Nodup := h.nodup.sublist (List.Sublist.map _ List.filter_sublist)
  cases hs : x.shared with
  | true =>
    have hd : (without s x).destroyed = s.destroyed := by simp [without, destroys, hs]
    refine ⟨hnd, fun y hy => h.lt y (hm.mp hy).1, fun y hy => h.none y (hm.mp hy).1, fun y hy => ?_, fun k i hk hkd => ?_, h.clt, h.cone, ?_, ?_⟩
    · rw [hd]; exact h.own y (hm.mp hy).1
    · rw [hd] at hkd
      obtain ⟨y, hy, hi, hys, hyc⟩ := h.live k i hk hkd
      refine ⟨y, hm.mpr ⟨hy, fun he => ?_⟩, hi, hys, hyc⟩
      rw [eq_of_id h.nodup hy hx he, hs] at hys
      cases hys
    · rw [hd]; exact h.dlt
    · rw [hd]; exact h.dnodup
  | false =>
    obtain ⟨k0, hc, hk0, hd0⟩ := h.own x hx hs
    have hd : (without s x).destroyed = s.destroyed ++ [k0] := by simp [without, destroys, hs, hc]
    refine ⟨hnd, fun y hy => h.lt y (hm.mp hy).1, fun y hy => h.none y (hm.mp hy).1, fun y hy hys => ?_, fun k i hk hkd => ?_, h.clt, h.cone, ?_, ?_⟩
    · obtain ⟨k, hyc, hk, hkd⟩ := h.own y (hm.mp hy).1 hys
      refine ⟨k, hyc, hk, ?_⟩
      rw [hd, List.mem_append, List.mem_singleton]
      rintro (hkk | rfl)
      · exact hkd hkk
      · exact (hm.mp hy).2 (h.cone _ _ _ hk hk0)
    · rw [hd, List.mem_append, List.mem_singleton, not_or] at hkd
      obtain ⟨y, hy, hi, hys, hyc⟩ := h.live k i hk hkd.1
      refine ⟨y, hm.mpr ⟨hy, fun he => ?_⟩, hi, hys, hyc⟩
      rw [eq_of_id h.nodup hy hx he, hc] at hyc
      exact hkd.2 (Ctx.lib.inj hyc).symm
    · rw [hd]
      intro k hk
      rcases List.mem_append.mp hk with hk | hk
      · exact h.dlt k hk
      · rw [List.mem_singleton.mp hk]; exact h.clt _ _ hk0
    · rw [hd, List.nodup_append]
      refine ⟨h.dnodup, by simp, ?_⟩
      intro a ha b hb he
      rw [List.mem_singleton.mp hb] at he
      exact hd0 (he ▸ ha)

theorem inv_setExt {s : St} (h : Inv s) {i : Nat} {e : Option Nat} {n : Nat} {f : List Nat} (he : e = none ∨ ∀ y ∈ s.ring, y.id = i → y.shared = false) :
    Inv { s with ring := setExt s.ring i e, datas := n, freed := f } := by
  refine ⟨by rw [map_setExt]; exact h.nodup, fun y hy => ?_, fun y hy hs => ?_, fun y hy hs => ?_, fun k j hk hd => ?_, h.clt, h.cone, h.dlt, h.dnodup⟩
  · obtain ⟨z, hz, h1, h2, h3, h4⟩ := mem_setExt hy
    rw [h1]; exact h.lt z hz
  · obtain ⟨z, hz, h1, h2, h3, h4⟩ := mem_setExt hy
    rw [h4]
    by_cases hi : z.id = i
    · rcases he with he | he
      · simp [hi, he]
      · rw [h2, he z hz hi] at hs; cases hs
    · rw [if_neg hi]; exact h.none z hz (h2 ▸ hs)
  · obtain ⟨z, hz, h1, h2, h3, h4⟩ := mem_setExt hy
    rw [h1, h3]; exact h.own z hz (h2 ▸ hs)
  · obtain ⟨z, hz, h1, h2, h3⟩ := h.live k j hk hd
    obtain ⟨y, hy, g1, g2, g3⟩ := setExt_mem (i := i) (e := e) hz
    exact ⟨y, hy, g1.trans h1, g2.trans h2, g3.trans h3⟩

/-- Freeing with assertions that hold is the same for all sessions. -/
theorem freeSess_asserts {s t : St} (h : Inv s) {x : Sess} (hx : x ∈ s.ring) (ht : freeSess true s x = some t) : t = without s x := by
  unfold freeSess at ht
  cases hs : x.shared with
  | false => simp only [hs, Option.some.injEq] at ht; rw [← ht]; simp [without]
  | true =>
    have hn := h.none x hx hs
    cases ho : succ s.ring x.id with
    | none => simp only [hs, ho, Option.some.injEq] at ht; rw [← ht]; simp [without]
    | some o =>
      simp only [hs, ho, Bool.true_and] at ht
      by_cases hos : o.ext.isSome = true
      · rw [if_pos hos] at ht; cases ht
      · rw [if_neg hos, Option.some.injEq] at ht
        have hoe : o.ext = none := by simpa using hos
        have := setExt_same h.nodup (mem_of_succ ho)
        rw [← ht, hn, ← hoe, this]
        simp [without, hn]

theorem inv_freeSess {a : Bool} {s t : St} (h : Inv s) {x : Sess} (hx : x ∈ s.ring) (ht : freeSess a s x = some t) : Inv t := by
  unfold freeSess at ht
  cases hs : x.shared with
  | false =>
    have : t = without s x := by simp only [hs, Option.some.injEq] at ht; rw [← ht]; simp [without]
    rw [this]; exact inv_without h hx
  | true =>
    have hn := h.none x hx hs
    cases ho : succ s.ring x.id with
    | none =>
      have : t = without s x := by simp only [hs, ho, Option.some.injEq] at ht; rw [← ht]; simp [without]
      rw [this]; exact inv_without h hx
    | some o =>
      simp only [hs, ho] at ht
      by_cases hos : (a && o.ext.isSome) = true
      · rw [if_pos hos] at ht; cases ht
      · rw [if_neg hos, Option.some.injEq, hn] at ht
        have h2 : Inv { s with ring := setExt s.ring o.id none } := inv_setExt (n := s.datas) (f := s.freed) h (.inl rfl)
        obtain ⟨y, hy, h1, g2, g3⟩ := setExt_mem (i := o.id) (e := none) hx
        have hye : y.ext = none := h2.none y hy (g2.trans hs)
        have h3 := inv_without h2 hy
        rw [← ht]
        simpa [without, destroys, g2, hs, h1, hye] using h3

theorem inv_channel {s : St} (h : Inv s) {x : Nat} (hx : ∃ z ∈ s.ring, z.id = x) (c : Option Ctx) :
    Inv { (newSess s c).2 with ring := ins s.ring x (newSess s c).1 } ∧ (newSess s c).1 ∈ ins s.ring x (newSess s c).1 := by
  refine ⟨?_, mem_ins.mpr (.inr ⟨rfl, hx⟩)⟩
  have hid : (newSess s c).1.id = s.sessions := by cases c <;> rfl
  have hnd := nodup_ins (x := x) (n := (newSess s c).1) h.nodup fun z hz => by rw [hid]; exact Nat.ne_of_lt (h.lt z hz)
  cases c with
  | some c =>
    refine ⟨hnd, fun y hy => ?_, fun y hy hs => ?_, fun y hy hs => ?_, fun k i hk hd => ?_, h.clt, h.cone, h.dlt, h.dnodup⟩
    · rcases mem_ins.mp hy with hy | ⟨rfl, _⟩
      · exact Nat.lt_succ_of_lt (h.lt y hy)
      · exact Nat.lt_succ_self _
    · rcases mem_ins.mp hy with hy | ⟨rfl, _⟩
      · exact h.none y hy hs
      · rfl
    · rcases mem_ins.mp hy with hy | ⟨rfl, _⟩
      · exact h.own y hy hs
      · cases hs
    · obtain ⟨y, hy, hr⟩ := h.live k i hk hd
      exact ⟨y, mem_ins.mpr (.inl hy), hr⟩
  | none =>
    have hnew : ∀ {k i}, (k, i) ∈ s.clb ++ [(s.ctxs, s.sessions)] → (k, i) ∈ s.clb ∨ (k = s.ctxs ∧ i = s.sessions) := by
      intro k i hk
      rcases List.mem_append.mp hk with hk | hk
      · exact .inl hk
      · have := List.mem_singleton.mp hk
        exact .inr ⟨congrArg Prod.fst this, congrArg Prod.snd this⟩
    refine ⟨hnd, fun y hy => ?_, fun y hy hs => ?_, fun y hy hs => ?_, fun k i hk hd => ?_, fun k i hk => ?_, fun k i j hi hj => ?_, fun k hk => Nat.lt_succ_of_lt (h.dlt k hk), h.dnodup⟩
    · rcases mem_ins.mp hy with hy | ⟨rfl, _⟩
      · exact Nat.lt_succ_of_lt (h.lt y hy)
      · exact Nat.lt_succ_self _
    · rcases mem_ins.mp hy with hy | ⟨rfl, _⟩
      · exact h.none y hy hs
      · rfl
    · rcases mem_ins.mp hy with hy | ⟨rfl, _⟩
      · obtain ⟨k, h1, h2, h3⟩ := h.own y hy hs
        exact ⟨k, h1, List.mem_append_left _ h2, h3⟩
      · exact ⟨s.ctxs, rfl, List.mem_append_right _ (by simp [newSess]), fun hd => Nat.lt_irrefl _ (h.dlt _ hd)⟩
    · rcases hnew hk with hk | ⟨rfl, rfl⟩
      · obtain ⟨y, hy, hr⟩ := h.live k i hk hd
        exact ⟨y, mem_ins.mpr (.inl hy), hr⟩
      · exact ⟨_, mem_ins.mpr (.inr ⟨rfl, hx⟩), rfl, rfl, rfl⟩
    · rcases hnew hk with hk | ⟨rfl, rfl⟩
      · exact Nat.lt_succ_of_lt (h.clt k i hk)
      · exact Nat.lt_succ_self _
    · rcases hnew hi with hi | ⟨rfl, rfl⟩ <;> rcases hnew hj with hj | ⟨hj, hj2⟩
      · exact h.cone k i j hi hj
      · exact absurd (h.clt k i hi) (by omega)
      · exact absurd (h.clt _ j hj) (by omega)
      · exact hj2.symm

theorem inv_first (c : Option Ctx) : Inv (first c) := by
  cases c <;> constructor <;> simp +contextual [first, newSess]

theorem find_mem {l : List Sess} {x : Nat} {y : Sess} (h : (l.find? fun y => y.id = x) = some y) : y ∈ l ∧ y.id = x :=
  ⟨List.mem_of_find?_eq_some h, by simpa using List.find?_some h⟩

theorem inv_step {a : Bool} {s t : St} (h : Inv s) {e : Ev} (ht : step a s e = some t) : Inv t := by
  cases e with
  | channel x c ok =>
    simp only [step] at ht
    by_cases hx : (s.ring.any fun y => y.id = x) = true
    · rw [if_pos hx] at ht
      have hc := inv_channel h (x := x) (by simpa using hx) c
      cases ok with
      | true => simp only [if_true, Option.some.injEq] at ht; rw [← ht]; exact hc.1
      | false => exact inv_freeSess hc.1 hc.2 ht
    · rw [if_neg hx, Option.some.injEq] at ht; rw [← ht]; exact h
  | mount x =>
    simp only [step] at ht
    cases hf : s.ring.find? fun y => y.id = x with
    | none => rw [hf] at ht; rw [← Option.some.inj ht]; exact h
    | some y =>
      rw [hf] at ht
      obtain ⟨hy, hi⟩ := find_mem hf
      cases hs : y.shared with
      | true => simp only [hs, if_true, Option.some.injEq] at ht; rw [← ht]; exact h
      | false =>
        simp only [hs, Bool.false_eq_true, if_false, Option.some.injEq] at ht
        rw [← ht]
        exact inv_setExt h (.inr fun z hz hzi => by rw [eq_of_id h.nodup hz hy (hzi.trans hi.symm), hs])
  | free x =>
    simp only [step] at ht
    cases hf : s.ring.find? fun y => y.id = x with
    | none => rw [hf] at ht; rw [← Option.some.inj ht]; exact h
    | some y => rw [hf] at ht; exact inv_freeSess h (find_mem hf).1 ht

theorem run_ind {P : St → Prop} {a : Bool} {evs : List Ev} (hstep : ∀ s t, ∀ e ∈ evs, P s → step a s e = some t → P t) {s t : St} (hs : P s) (hr : run a s evs = some t) : P t := by
  induction evs generalizing s with
  | nil => rw [← Option.some.inj hr]; exact hs
  | cons e h ih =>
    simp only [run, Option.bind_eq_some_iff] at hr
    obtain ⟨u, hu, hr⟩ := hr
    exact ih (fun s t e he => hstep s t e (List.mem_cons_of_mem _ he)) (hstep s u e List.mem_cons_self hs hu) hr

theorem inv_run {a : Bool} {c : Option Ctx} {evs : List Ev} {t : St} (hr : run a (first c) evs = some t) : Inv t :=
  run_ind (P := Inv) (fun _ _ _ _ h ht => inv_step h ht) (inv_first c) hr

/-- How often data `d` are held by sessions. -/
def held (d : Nat) (l : List Sess) : Nat := (l.filterMap Sess.ext).count d

theorem held_cons (d : Nat) (y : Sess) (l : List Sess) : held d (y :: l) = y.ext.toList.count d + held d l := by
  unfold held
  cases h : y.ext <;> simp [h, List.count_cons, Nat.add_comm]

theorem held_ins (d : Nat) {l : List Sess} {x : Nat} {n : Sess} (hn : n.ext = none) : held d (ins l x n) = held d l := by
  induction l with
  | nil => rfl
  | cons z l ih =>
    have h' : ins (z :: l) x n = (if z.id = x then [z, n] else [z]) ++ ins l x n := by simp [ins]
    rw [h']
    by_cases hz : z.id = x
    · simp [hz, held_cons, hn, ih]
    · simp [hz, held_cons, ih]

theorem held_setExt (d : Nat) {l : List Sess} (hn : (l.map Sess.id).Nodup) {y : Sess} (hy : y ∈ l) (e : Option Nat) :
    held d (setExt l y.id e) + y.ext.toList.count d = held d l + e.toList.count d := by
  induction l with
  | nil => cases hy
  | cons z l ih =>
    simp only [List.map_cons, List.nodup_cons, List.mem_map, not_exists, not_and] at hn
    have hc : setExt (z :: l) y.id e = (if z.id = y.id then { z with ext := e } else z) :: setExt l y.id e := rfl
    rw [hc, held_cons, held_cons]
    rcases List.mem_cons.mp hy with rfl | hy
    · have : setExt l y.id e = l := by
        conv => rhs; rw [← List.map_id l]
        apply List.map_congr_left
        intro w hw
        simp [hn.1 w hw]
      rw [this]
      simp only [if_true]
      omega
    · have hzy : z.id ≠ y.id := fun he => hn.1 y hy he.symm
      have := ih hn.2 hy
      rw [if_neg hzy]
      omega

theorem held_filter (d : Nat) {l : List Sess} (hn : (l.map Sess.id).Nodup) {y : Sess} (hy : y ∈ l) :
    held d (l.filter fun z => z.id ≠ y.id) + y.ext.toList.count d = held d l := by
  induction l with
  | nil => cases hy
  | cons z l ih =>
    simp only [List.map_cons, List.nodup_cons, List.mem_map, not_exists, not_and] at hn
    rcases List.mem_cons.mp hy with rfl | hy
    · have : (l.filter fun z => z.id ≠ y.id) = l := List.filter_eq_self.mpr fun w hw => by simpa using hn.1 w hw
      rw [List.filter_cons_of_neg (by simp), this, held_cons]
      omega
    · have hzy : z.id ≠ y.id := fun he => hn.1 y hy he.symm
      have := ih hn.2 hy
      rw [List.filter_cons_of_pos (by simpa using hzy), held_cons, held_cons]
      omega

/-- Each of the data received is freed or held, once. -/
def Data (s : St) : Prop := ∀ d, s.freed.count d + held d s.ring = if d < s.datas then 1 else 0

theorem data_without {s : St} (h : Inv s) (hd : Data s) {x : Sess} (hx : x ∈ s.ring) : Data (without s x) := by
  intro d
  have h1 := hd d
  have h2 := held_filter d h.nodup hx
  show (s.freed ++ x.ext.toList).count d + held d (s.ring.filter fun y => y.id ≠ x.id) = if d < s.datas then 1 else 0
  rw [List.count_append, ← h1]
  omega

theorem data_step {s t : St} (h : Inv s) (hd : Data s) {e : Ev} (ht : step true s e = some t) : Data t := by
  cases e with
  | channel x c ok =>
    simp only [step] at ht
    by_cases hx : (s.ring.any fun y => y.id = x) = true
    · rw [if_pos hx] at ht
      have hc := inv_channel h (x := x) (by simpa using hx) c
      have hdc : Data { (newSess s c).2 with ring := ins s.ring x (newSess s c).1 } := by
        intro d
        have h1 := hd d
        have h2 := held_ins d (l := s.ring) (x := x) (n := (newSess s c).1) (by cases c <;> rfl)
        cases c <;> simpa [newSess] using h2 ▸ h1
      cases ok with
      | true => simp only [if_true, Option.some.injEq] at ht; rw [← ht]; exact hdc
      | false =>
        have := freeSess_asserts hc.1 hc.2 ht
        rw [this]; exact data_without hc.1 hdc hc.2
    · rw [if_neg hx, Option.some.injEq] at ht; rw [← ht]; exact hd
  | mount x =>
    simp only [step] at ht
    cases hf : s.ring.find? fun y => y.id = x with
    | none => rw [hf] at ht; rw [← Option.some.inj ht]; exact hd
    | some y =>
      rw [hf] at ht
      obtain ⟨hy, rfl⟩ := find_mem hf
      cases hs : y.shared with
      | true => simp only [hs, if_true, Option.some.injEq] at ht; rw [← ht]; exact hd
      | false =>
        simp only [hs, Bool.false_eq_true, if_false, Option.some.injEq] at ht
        rw [← ht]
        intro d
        have h1 := hd d
        have h2 := held_setExt d h.nodup hy (some s.datas)
        have h3 : (some s.datas).toList.count d = if d = s.datas then 1 else 0 := by
          by_cases hds : d = s.datas
          · simp [hds]
          · simp [hds, Ne.symm hds]
        simp only [List.count_append]
        rw [h3] at h2
        by_cases hlt : d < s.datas
        · rw [if_pos hlt] at h1
          rw [if_neg (Nat.ne_of_lt hlt)] at h2
          rw [if_pos (Nat.lt_succ_of_lt hlt)]
          omega
        · rw [if_neg hlt] at h1
          by_cases hds : d = s.datas
          · rw [if_pos hds] at h2
            rw [if_pos (by omega)]
            omega
          · rw [if_neg hds] at h2
            rw [if_neg (by omega)]
            omega
  | free x =>
    simp only [step] at ht
    cases hf : s.ring.find? fun y => y.id = x with
    | none => rw [hf] at ht; rw [← Option.some.inj ht]; exact hd
    | some y =>
      rw [hf] at ht
      rw [freeSess_asserts h (find_mem hf).1 ht]
      exact data_without h hd (find_mem hf).1

theorem filter_ins {l : List Sess} {x : Nat} {n : Sess} (hf : ∀ z ∈ l, z.id ≠ n.id) : ((ins l x n).filter fun y => y.id ≠ n.id) = l := by
  induction l with
  | nil => rfl
  | cons z l ih =>
    have h' : ins (z :: l) x n = (if z.id = x then [z, n] else [z]) ++ ins l x n := by simp [ins]
    have hi := ih fun z hz => hf z (List.mem_cons_of_mem _ hz)
    have hz := hf z List.mem_cons_self
    rw [h', List.filter_append, hi]
    by_cases hx : z.id = x
    · rw [if_pos hx, List.filter_cons_of_pos (by simpa using hz)]
      simp
    · rw [if_neg hx, List.filter_cons_of_pos (by simpa using hz)]
      simp

theorem free_some {a : Bool} {s : St} {x : Sess} (h : x.shared = false ∨ ∀ o ∈ s.ring, o.ext = none) : freeSess a s x ≠ none := by
  unfold freeSess
  cases hs : x.shared with
  | false => simp
  | true =>
    rcases h with h | h
    · rw [h] at hs; cases hs
    · cases ho : succ s.ring x.id with
      | none => simp
      | some o => simp [h o (mem_of_succ ho)]

/-- All sessions of the ring have, or do not have, a context of the application. -/
def All (b : Bool) (s : St) : Prop := ∀ y ∈ s.ring, y.shared = b

theorem all_freeSess {a b : Bool} {s t : St} (h : All b s) {x : Sess} (ht : freeSess a s x = some t) : All b t := by
  have hset : ∀ i e, ∀ y ∈ setExt s.ring i e, y.shared = b := fun i e y hy => by
    obtain ⟨z, hz, _, h2, _⟩ := mem_setExt hy
    rw [h2]; exact h z hz
  unfold freeSess at ht
  dsimp only at ht
  split at ht
  · split at ht
    · cases ht
    · rw [← Option.some.inj ht]
      exact fun y hy => hset _ _ y (List.mem_filter.mp hy).1
  · rw [← Option.some.inj ht]
    exact fun y hy => h y (List.mem_filter.mp hy).1

theorem run_all {a b : Bool} {evs : List Ev} (hev : ∀ x c ok, Ev.channel x c ok ∈ evs → c.isSome = b) {s : St} (hi : Inv s) (ha : All b s) : run a s evs ≠ none := by
  have hfree : ∀ {u : St} {y : Sess}, Inv u → All b u → y ∈ u.ring → freeSess a u y ≠ none := fun {u y} hi ha hy => by
    apply free_some
    cases b with
    | false => exact .inl (ha y hy)
    | true => exact .inr fun o ho => hi.none o ho (ha o ho)
  induction evs generalizing s with
  | nil => simp [run]
  | cons e h ih =>
    have hih := fun {u} => @ih (fun x c ok hm => hev x c ok (List.mem_cons_of_mem _ hm)) u
    have hst : ∃ t, step a s e = some t ∧ All b t := by
      cases e with
      | channel x c ok =>
        have hb := hev x c ok List.mem_cons_self
        simp only [step]
        by_cases hx : (s.ring.any fun y => y.id = x) = true
        · rw [if_pos hx]
          have hc := inv_channel hi (x := x) (by simpa using hx) c
          have hac : All b { (newSess s c).2 with ring := ins s.ring x (newSess s c).1 } := by
            intro y hy
            rcases mem_ins.mp hy with hy | ⟨rfl, _⟩
            · exact ha y hy
            · rw [← hb]; cases c <;> rfl
          cases ok with
          | true => exact ⟨_, rfl, hac⟩
          | false =>
            obtain ⟨t, ht⟩ := Option.ne_none_iff_exists'.mp (hfree hc.1 hac hc.2)
            exact ⟨t, ht, all_freeSess hac ht⟩
        · rw [if_neg hx]; exact ⟨s, rfl, ha⟩
      | mount x =>
        simp only [step]
        cases hf : s.ring.find? fun y => y.id = x with
        | none => exact ⟨s, rfl, ha⟩
        | some y =>
          dsimp only
          split
          · exact ⟨s, rfl, ha⟩
          · refine ⟨_, rfl, fun w hw => ?_⟩
            obtain ⟨z, hz, _, h2, _⟩ := mem_setExt hw
            rw [h2]; exact ha z hz
      | free x =>
        simp only [step]
        cases hf : s.ring.find? fun y => y.id = x with
        | none => exact ⟨s, rfl, ha⟩
        | some y =>
          obtain ⟨t, ht⟩ := Option.ne_none_iff_exists'.mp (hfree hi ha (find_mem hf).1)
          exact ⟨t, ht, all_freeSess ha ht⟩
    obtain ⟨t, ht, hat⟩ := hst
    simp only [run, ht, Option.bind_some]
    exact hih (inv_step hi ht) hat

end Verif.MountData
