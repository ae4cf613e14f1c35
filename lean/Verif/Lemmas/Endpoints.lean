import Verif.Model.Endpoints

namespace Verif.Endpoints

/-- Endpoints in use with their sockets. -/
def active (s : Srv) : List (Endpt × Option Nat) := (s.endpts.take s.cnt).zip (s.binds.take s.cnt)

/-- Well-formed arrays. -/
def WF (s : Srv) : Prop := s.cnt ≤ s.endpts.length ∧ s.endpts.length = s.binds.length

theorem take_set_perm {α : Type} (l : List α) (i c : Nat) (hi : i ≤ c) (hc : c < l.length) :
    ((l.set i l[c]).take c).Perm ((l.take (c + 1)).eraseIdx i) := by
  by_cases hic : i = c
  · subst hic
    rw [List.set_getElem_self, List.eraseIdx_eq_take_drop_succ, List.take_take, Nat.min_eq_left (by omega),
      List.drop_eq_nil_of_le (by simp; omega)]
    simp
  · have hlt : i < c := by omega
    have h1 : (l.set i l[c]).take c = (l.take c).set i l[c] := by
      rw [List.take_set]
    have h2 : l.take (c + 1) = l.take c ++ [l[c]] := by rw [List.take_add_one, List.getElem?_eq_getElem hc]; rfl
    rw [h1, h2, List.eraseIdx_append_of_lt_length (by simp; omega)]
    have h3 : (l.take c).eraseIdx i = (l.take c).take i ++ (l.take c).drop (i + 1) := List.eraseIdx_eq_take_drop_succ _ _
    rw [h3, List.set_eq_take_append_cons_drop, if_pos (by simp; omega)]
    rw [List.append_assoc]
    refine List.Perm.append_left _ ?_
    exact (List.perm_append_comm (l₁ := (l.take c).drop (i + 1)) (l₂ := [l[c]])).symm

theorem zip_set_getElem {α β : Type} (a : List α) (b : List β) (i c : Nat) (ha : c < a.length) (hb : c < b.length) :
    (a.set i a[c]).zip (b.set i b[c]) = (a.zip b).set i ((a.zip b)[c]'(by simp; omega)) := by
  apply List.ext_getElem
  · simp
  · intro n h1 h2
    simp only [List.getElem_zip, List.getElem_set]
    split <;> simp

theorem active_eq (s : Srv) : active s = (s.endpts.zip s.binds).take s.cnt := by
  unfold active
  rw [List.zip_eq_zipWith, List.zip_eq_zipWith, List.take_zipWith]

theorem zip_length (s : Srv) (h : WF s) : (s.endpts.zip s.binds).length = s.endpts.length := by
  have := h.2
  simp
  omega

theorem active_length (s : Srv) (h : WF s) : (active s).length = s.cnt := by
  have h1 := h.1
  have h2 := h.2
  simp [active]
  omega

theorem active_getElem (s : Srv) (h : WF s) (i : Nat) (hi : i < s.cnt) :
    (active s)[i]? = some (s.endpts[i]'(by have := h.1; omega), s.binds[i]'(by have := h.1; have := h.2; omega)) := by
  have h1 := h.1
  have h2 := h.2
  rw [active_eq, List.getElem?_take_of_lt hi, List.getElem?_eq_getElem (by rw [zip_length s h]; omega)]
  simp

theorem active_map_fst (s : Srv) (h : WF s) : (active s).map (·.1) = s.endpts.take s.cnt := by
  have h2 := h.2
  unfold active
  rw [List.map_fst_zip]
  simp [h2]

theorem shrink_active (s : Srv) (i : Nat) (h : WF s) (hi : i < s.cnt) :
    WF (shrink s i) ∧ (active (shrink s i)).Perm ((active s).eraseIdx i) ∧
    (shrink s i).freedObj = s.freedObj ∧ (shrink s i).freedStr = s.freedStr ∧ (shrink s i).closed = s.closed := by
  have h1 := h.1
  have h2 := h.2
  unfold shrink
  by_cases hc : s.cnt - 1 = 0
  · simp only [hc, if_true]
    refine ⟨by simp [WF], ?_, by simp⟩
    have hl := active_length s h
    have : (active s).eraseIdx i = [] := by
      apply List.eq_nil_of_length_eq_zero
      rw [List.length_eraseIdx_of_lt (by omega)]; omega
    rw [this]
    simp [active]
  · simp only [hc, if_false]
    have he : s.endpts[s.cnt - 1]? = some (s.endpts[s.cnt - 1]'(by omega)) := List.getElem?_eq_getElem _
    have hb : s.binds[s.cnt - 1]? = some (s.binds[s.cnt - 1]'(by omega)) := List.getElem?_eq_getElem _
    simp only [he, hb]
    refine ⟨by simp [WF]; omega, ?_, by simp⟩
    rw [active_eq, active_eq]
    simp only
    rw [zip_set_getElem _ _ _ _ (by omega) (by omega)]
    have := take_set_perm (s.endpts.zip s.binds) i (s.cnt - 1) (by omega) (by rw [zip_length s h]; omega)
    rw [show s.cnt - 1 + 1 = s.cnt by omega] at this
    exact this

theorem delRefs_active (s : Srv) (n : Nat) (h : WF s) :
    WF (delRefs s n) ∧ active (delRefs s n) = (active s).map (fun p => (dropRef n p.1, p.2)) ∧
    (delRefs s n).cnt = s.cnt ∧
    (delRefs s n).freedStr = s.freedStr ++ ((active s).map (fun p => dropRefStr n p.1)).flatten := by
  have h1 := h.1
  have h2 := h.2
  refine ⟨?_, ?_, rfl, ?_⟩
  · simp [WF, delRefs]; omega
  · have ht : ((s.endpts.take s.cnt).map (dropRef n) ++ s.endpts.drop s.cnt).take s.cnt = (s.endpts.take s.cnt).map (dropRef n) := by
      rw [List.take_left']; simp; omega
    simp only [active, delRefs, ht]
    rw [List.zip_map_left]
    rfl
  · have : (active s).map (fun p => dropRefStr n p.1) = (s.endpts.take s.cnt).map (dropRefStr n) := by
      rw [← active_map_fst s h, List.map_map]; rfl
    rw [this]; rfl

/-- Effect of deleting cell `i` in use. -/
theorem delAt_active (s : Srv) (i : Nat) (h : WF s) (hi : i < s.cnt) :
    ∃ s' e b, delAt s i = some s' ∧ WF s' ∧ (active s)[i]? = some (e, b) ∧
      (let A := if e.ti = .unixSock then active s else (active s).map (fun p => (dropRef e.name p.1, p.2))
       let e' := if e.ti = .unixSock then e else dropRef e.name e
       (active s').Perm (A.eraseIdx i) ∧
       s'.freedObj = s.freedObj ++ [e.obj] ∧ s'.closed = s.closed ++ b.toList ∧
       s'.freedStr = s.freedStr ++ (if e.ti = .unixSock then [] else ((active s).map (fun p => dropRefStr e.name p.1)).flatten) ++ refStr e') := by
  have h1 := h.1
  have h2 := h.2
  have hget := active_getElem s h i hi
  suffices hsuff : ∃ s', delAt s i = some s' ∧ WF s' ∧
      (let e := s.endpts[i]
       let A := if e.ti = .unixSock then active s else (active s).map (fun p => (dropRef e.name p.1, p.2))
       let e' := if e.ti = .unixSock then e else dropRef e.name e
       (active s').Perm (A.eraseIdx i) ∧
       s'.freedObj = s.freedObj ++ [e.obj] ∧ s'.closed = s.closed ++ s.binds[i].toList ∧
       s'.freedStr = s.freedStr ++ (if e.ti = .unixSock then [] else ((active s).map (fun p => dropRefStr e.name p.1)).flatten) ++ refStr e') by
    obtain ⟨s', a1, a2, a3⟩ := hsuff
    exact ⟨s', s.endpts[i], s.binds[i], a1, a2, hget, a3⟩
  unfold delAt
  rw [List.getElem?_eq_getElem (by omega)]
  simp only
  by_cases hu : s.endpts[i].ti = .unixSock
  · simp only [hu, if_true]
    have he : s.endpts[i]? = some s.endpts[i] := List.getElem?_eq_getElem _
    have hb : s.binds[i]? = some s.binds[i] := List.getElem?_eq_getElem _
    simp only [he, hb]
    have hs := shrink_active { s with freedObj := s.freedObj ++ [s.endpts[i].obj], freedStr := s.freedStr ++ refStr s.endpts[i], closed := s.closed ++ s.binds[i].toList } i h hi
    refine ⟨_, rfl, hs.1, hs.2.1, hs.2.2.1, hs.2.2.2.2, ?_⟩
    rw [hs.2.2.2.1]
    simp
  · simp only [hu, if_false]
    obtain ⟨w, a, c, f⟩ := delRefs_active s s.endpts[i].name h
    have hg2 := active_getElem (delRefs s s.endpts[i].name) w i (by omega)
    rw [a, List.getElem?_map, hget] at hg2
    simp only [Option.map_some, Option.some.injEq, Prod.mk.injEq] at hg2
    have w1 := w.1
    have w2 := w.2
    have he : (delRefs s s.endpts[i].name).endpts[i]? = some (dropRef s.endpts[i].name s.endpts[i]) := by
      rw [List.getElem?_eq_getElem (by omega), hg2.1]
    have hb : (delRefs s s.endpts[i].name).binds[i]? = some s.binds[i] := List.getElem?_eq_getElem _
    simp only [he, hb]
    have hs := shrink_active { delRefs s s.endpts[i].name with freedObj := (delRefs s s.endpts[i].name).freedObj ++ [(dropRef s.endpts[i].name s.endpts[i]).obj], freedStr := (delRefs s s.endpts[i].name).freedStr ++ refStr (dropRef s.endpts[i].name s.endpts[i]), closed := (delRefs s s.endpts[i].name).closed ++ s.binds[i].toList } i w (by show i < (delRefs s s.endpts[i].name).cnt; omega)
    have hobj : (dropRef s.endpts[i].name s.endpts[i]).obj = s.endpts[i].obj := by unfold dropRef; split; split <;> rfl; rfl
    refine ⟨_, rfl, hs.1, ?_, ?_, hs.2.2.2.2, ?_⟩
    · refine hs.2.1.trans ?_
      have : active { delRefs s s.endpts[i].name with freedObj := (delRefs s s.endpts[i].name).freedObj ++ [(dropRef s.endpts[i].name s.endpts[i]).obj], freedStr := (delRefs s s.endpts[i].name).freedStr ++ refStr (dropRef s.endpts[i].name s.endpts[i]), closed := (delRefs s s.endpts[i].name).closed ++ s.binds[i].toList } = active (delRefs s s.endpts[i].name) := rfl
      rw [this, a]
    · rw [hs.2.2.1]; simp only [hobj]; rfl
    · rw [hs.2.2.2.1]; simp only [f]

theorem create_active (s : Srv) (e : Endpt) (b : Option Nat) (h : WF s) :
    WF (create s e b) ∧ active (create s e b) = active s ++ [(e, b)] := by
  have h1 := h.1
  have h2 := h.2
  have hl : (s.endpts.take s.cnt).length = (s.binds.take s.cnt).length := by simp [h2]
  refine ⟨?_, ?_⟩
  · simp [WF, create]; omega
  · unfold active create
    simp only
    have t1 : (s.endpts.take s.cnt ++ [e]).take (s.cnt + 1) = s.endpts.take s.cnt ++ [e] :=
      List.take_of_length_le (by simp; omega)
    have t2 : (s.binds.take s.cnt ++ [b]).take (s.cnt + 1) = s.binds.take s.cnt ++ [b] :=
      List.take_of_length_le (by simp; omega)
    rw [t1, t2, List.zip_append hl]
    rfl

/-- Removing the found element of a list with unique keys. -/
theorem eraseIdx_findIdx_filter {α : Type} (f : α → Nat) (n : Nat) (l : List α) : ∀ i, (l.map f).Nodup →
    l.findIdx? (fun x => f x == n) = some i → l.eraseIdx i = l.filter (fun x => f x != n) := by
  induction l with
  | nil => intro i _ h; simp at h
  | cons x l ih =>
    intro i hn hf
    simp only [List.map_cons, List.nodup_cons] at hn
    rw [List.findIdx?_cons] at hf
    by_cases hx : f x = n
    · simp [hx] at hf; subst hf
      have : l.filter (fun x => f x != n) = l := by
        rw [List.filter_eq_self]; intro y hy
        have : f y ≠ n := fun h => hn.1 (by rw [hx, ← h]; exact List.mem_map.mpr ⟨y, hy, rfl⟩)
        simpa using this
      simp [hx, this]
    · simp only [beq_iff_eq, hx, if_false] at hf
      cases hg : l.findIdx? (fun x => f x == n) with
      | none => simp [hg] at hf
      | some j =>
        simp [hg] at hf; subst hf
        simp [hx, ih j hn.2 hg]

/-! ## Arrays of objects -/

theorem Arr.del_active (a : Arr) (i : Nat) (hl : a.cnt ≤ a.slots.length) (hi : i < a.cnt) :
    ∃ a', a.del i = some a' ∧ a'.cnt ≤ a'.slots.length ∧ a'.active.Perm (a.active.eraseIdx i) ∧
      some a'.freed = (a.active[i]?).map (fun x => a.freed ++ [x]) := by
  have hx : a.slots[i]? = some (a.slots[i]'(by omega)) := List.getElem?_eq_getElem _
  have hax : a.active[i]? = some (a.slots[i]'(by omega)) := by
    rw [Arr.active, List.getElem?_take_of_lt hi, hx]
  unfold Arr.del
  simp only [hx]
  by_cases hc : a.cnt - 1 = 0
  · simp only [hc, if_true]
    refine ⟨_, rfl, by simp, ?_, by rw [hax]; rfl⟩
    have h0 : i = 0 := by omega
    have hlen : a.active.length = 1 := by simp [Arr.active]; omega
    have : a.active.eraseIdx i = [] := by
      apply List.eq_nil_of_length_eq_zero
      rw [List.length_eraseIdx_of_lt (by omega)]; omega
    rw [this]; simp [Arr.active]
  · simp only [hc, if_false]
    have hy : a.slots[a.cnt - 1]? = some (a.slots[a.cnt - 1]'(by omega)) := List.getElem?_eq_getElem _
    simp only [hy]
    refine ⟨_, rfl, ?_, ?_, by rw [hax]; rfl⟩
    · simp only; split <;> simp <;> omega
    · have hp := take_set_perm a.slots i (a.cnt - 1) (by omega) (by omega)
      rw [show a.cnt - 1 + 1 = a.cnt by omega] at hp
      unfold Arr.active
      simp only
      split
      · exact hp
      · rename_i hic
        have hic : i = a.cnt - 1 := by simpa using hic
        have : a.slots.set i (a.slots[a.cnt - 1]'(by omega)) = a.slots := by
          subst hic; rw [List.set_getElem_self]
        rw [this] at hp
        exact hp

theorem Arr.delLoop_spec : ∀ (n i : Nat) (a : Arr), a.cnt = n → i + n ≤ a.slots.length →
    ∃ a', a.delLoop i n = some a' ∧ a'.cnt = 0 ∧ a'.freed = a.freed ++ (a.slots.drop i).take n := by
  intro n
  induction n with
  | zero => intro i a hc hl; exact ⟨a, rfl, hc, by simp⟩
  | succ n ih =>
    intro i a hc hl
    have hx : a.slots[i]? = some (a.slots[i]'(by omega)) := List.getElem?_eq_getElem _
    have hd : a.slots.drop i = a.slots[i]'(by omega) :: a.slots.drop (i + 1) := List.drop_eq_getElem_cons (by omega)
    unfold Arr.delLoop Arr.del
    simp only [hx]
    by_cases h0 : a.cnt - 1 = 0
    · simp only [h0, if_true]
      have hn : n = 0 := by omega
      subst hn
      refine ⟨_, rfl, rfl, ?_⟩
      rw [hd]; rfl
    · simp only [h0, if_false]
      have hy : a.slots[a.cnt - 1]? = some (a.slots[a.cnt - 1]'(by omega)) := List.getElem?_eq_getElem _
      simp only [hy]
      obtain ⟨a', e1, e2, e3⟩ := ih (i + 1) ⟨if i ≠ a.cnt - 1 then a.slots.set i (a.slots[a.cnt - 1]'(by omega)) else a.slots, a.cnt - 1, a.freed ++ [a.slots[i]'(by omega)]⟩
        (by simp only; omega) (by split <;> simp <;> omega)
      refine ⟨a', e1, e2, ?_⟩
      rw [e3, hd]
      have : (if i ≠ a.cnt - 1 then a.slots.set i (a.slots[a.cnt - 1]'(by omega)) else a.slots).drop (i + 1) = a.slots.drop (i + 1) := by
        split
        · rw [List.drop_set_of_lt (by omega)]
        · rfl
      simp only [this, List.take_succ_cons, List.append_assoc, List.singleton_append]

theorem Arr.chLoop_spec : ∀ (n i : Nat) (a : Arr), a.cnt = n → a.slots.length = i + n →
    ∃ a', a.chLoop i n = some a' ∧ a'.cnt = 0 ∧ a'.freed = a.freed ++ a.slots.drop i := by
  intro n
  induction n with
  | zero => intro i a hc hl; refine ⟨a, rfl, hc, ?_⟩; rw [List.drop_eq_nil_of_le (by omega)]; simp
  | succ n ih =>
    intro i a hc hl
    have hx : a.slots[i]? = some (a.slots[i]'(by omega)) := List.getElem?_eq_getElem _
    have hd : a.slots.drop i = a.slots[i]'(by omega) :: a.slots.drop (i + 1) := List.drop_eq_getElem_cons (by omega)
    unfold Arr.chLoop Arr.chDel
    simp only [hx]
    by_cases h0 : a.cnt - 1 = 0
    · have hn : n = 0 := by omega
      subst hn
      refine ⟨_, rfl, h0, ?_⟩
      rw [hd, List.drop_eq_nil_of_le (by omega)]
    · simp only [h0, if_false]
      obtain ⟨a', e1, e2, e3⟩ := ih (i + 1) ⟨a.slots, a.cnt - 1, a.freed ++ [a.slots[i]'(by omega)]⟩
        (by simp only; omega) (by simp only; omega)
      refine ⟨a', e1, e2, ?_⟩
      rw [e3, hd]
      simp

end Verif.Endpoints
