import Verif.Model.ClientBind

namespace Verif.Props

open Verif.ClientBind

/-! ## C46: Call Home binds of the client -/

theorem bind_swap_perm (l : List Bind) (i : Nat) (z b : Bind) (hz : l.getLast? = some z) (hb : l[i]? = some b) : ((l.set i z).dropLast ++ [b]).Perm l := by
  obtain ⟨hi, rfl⟩ := List.getElem?_eq_some_iff.mp hb
  have hne : l ≠ [] := by rintro rfl; simp at hi
  obtain ⟨m, rfl⟩ : ∃ m, l = m ++ [z] := by
    rw [List.getLast?_eq_some_iff] at hz
    exact hz
  by_cases him : i < m.length
  · have h1 : ((m ++ [z]).set i z).dropLast = m.set i z := by
      rw [List.set_append_left _ _ him, List.dropLast_concat]
    rw [h1]
    have h2 : (m ++ [z])[i] = m[i] := List.getElem_append_left him
    rw [h2]
    have h3 : m.set i z = m.take i ++ z :: m.drop (i + 1) := by rw [List.set_eq_take_append_cons_drop, if_pos him]
    have h4 : m = m.take i ++ m[i] :: m.drop (i + 1) := by simp
    rw [h3]
    have p1 : (m.take i ++ z :: m.drop (i + 1) ++ [m[i]]).Perm (z :: m[i] :: (m.take i ++ m.drop (i + 1))) := by
      refine (List.perm_append_comm).trans ?_
      refine (List.Perm.cons _ List.perm_middle).trans ?_
      exact List.Perm.swap _ _ _
    have p2 : (m ++ [z]).Perm (z :: m[i] :: (m.take i ++ m.drop (i + 1))) := by
      refine List.perm_append_comm.trans ?_
      refine List.Perm.cons _ ?_
      refine (List.Perm.of_eq h4).trans ?_
      exact List.perm_middle
    exact p1.trans p2.symm
  · have : i = m.length := by simp at hi; omega
    subst this
    simp

theorem delLoop_spec (sel : Bind → Bool) : ∀ (fuel i : Nat) (st : State) (ret : Bool), st.binds.length < fuel + i →
    ∃ removed, ((delLoop sel fuel i st ret).1.binds ++ removed).Perm st.binds ∧ (delLoop sel fuel i st ret).1.closed = st.closed ++ removed.map (·.sock) ∧
      (∀ b ∈ removed, sel b = true) ∧ (delLoop sel fuel i st ret).2 = (ret || !removed.isEmpty) ∧
      ((∃ b ∈ st.binds.drop i, sel b = true) → removed ≠ []) := by
  intro fuel
  induction fuel with
  | zero =>
    intro i st ret h
    refine ⟨[], by simp [delLoop], by simp [delLoop], by simp, by simp [delLoop], ?_⟩
    rintro ⟨b, hb, -⟩
    rw [List.drop_eq_nil_of_le (by omega)] at hb
    simp at hb
  | succ fuel ih =>
    intro i st ret h
    rw [delLoop]
    cases hb : st.binds[i]? with
    | none =>
      refine ⟨[], by simp, by simp, by simp, by simp, ?_⟩
      rintro ⟨b, hb', -⟩
      rw [List.drop_eq_nil_of_le (List.getElem?_eq_none_iff.mp hb)] at hb'
      simp at hb'
    | some b =>
      obtain ⟨hi, hbi⟩ := List.getElem?_eq_some_iff.mp hb
      simp only []
      cases hs : sel b with
      | false =>
        rw [if_neg (by simp)]
        obtain ⟨rm, h1, h2, h3, h4, h5⟩ := ih (i + 1) st ret (by omega)
        refine ⟨rm, h1, h2, h3, h4, ?_⟩
        rintro ⟨c, hc, hsc⟩
        rw [List.drop_eq_getElem_cons hi, hbi] at hc
        rcases List.mem_cons.mp hc with rfl | hc
        · rw [hs] at hsc; cases hsc
        · exact h5 ⟨c, hc, hsc⟩
      | true =>
        rw [if_pos rfl]
        cases hz : st.binds.getLast? with
        | none => rw [List.getLast?_eq_none_iff] at hz; rw [hz] at hi; simp at hi
        | some z =>
          simp only []
          obtain ⟨rm, h1, h2, h3, h4, -⟩ := ih (i + 1) ⟨(st.binds.set i z).dropLast, st.closed ++ [b.sock]⟩ true (by simp; omega)
          refine ⟨b :: rm, ?_, by simp [h2], ?_, by simp [h4], by simp⟩
          · have p := bind_swap_perm st.binds i z b hz hb
            refine List.perm_middle.trans ?_
            refine (List.Perm.cons b h1).trans ?_
            exact List.perm_append_comm.trans p |>.symm |>.symm
          · intro c hc
            rcases List.mem_cons.mp hc with rfl | hc
            · exact hs
            · exact h3 c hc

/-- C46, partial: binds that do not match are kept with open sockets, the sockets of exactly the removed binds are closed, each once, all of them match; 0 is returned
exactly if one matches, and then at least one is removed; with at most one matching bind, or without a filter, no matching bind remains. Missing: all matching binds
are removed if there are several, see `bind_removal_false`. Full statement: the last conjunct without its hypothesis. -/
theorem bind_removal_partial (st : State) (addr : Option String) (port ti : Nat) :
    ∃ removed, ((delBind st addr port ti).1.binds ++ removed).Perm st.binds ∧ (delBind st addr port ti).1.closed = st.closed ++ removed.map (·.sock) ∧
      (∀ b ∈ removed, (∀ a, addr = some a → b.addr = a) ∧ (port ≠ 0 → b.port = port) ∧ (ti ≠ 0 → b.ti = ti)) ∧
      ((delBind st addr port ti).2 = true ↔ ∃ b ∈ st.binds, (∀ a, addr = some a → b.addr = a) ∧ (port ≠ 0 → b.port = port) ∧ (ti ≠ 0 → b.ti = ti)) ∧
      ((delBind st addr port ti).2 = true ↔ removed ≠ []) ∧
      ((st.binds.filter (selected addr port ti)).length ≤ 1 ∨ (addr = none ∧ port = 0 ∧ ti = 0) →
        ∀ b ∈ (delBind st addr port ti).1.binds, selected addr port ti b = false) := by
  have hsel : ∀ b, selected addr port ti b = true ↔ (∀ a, addr = some a → b.addr = a) ∧ (port ≠ 0 → b.port = port) ∧ (ti ≠ 0 → b.ti = ti) := by
    intro b
    unfold selected
    simp only [Bool.and_eq_true, Bool.or_eq_true, beq_iff_eq, and_assoc]
    refine and_congr ?_ (and_congr ?_ ?_)
    · cases addr <;> simp
    · constructor
      · rintro (h | h) h'
        · exact absurd h h'
        · exact h
      · intro h
        by_cases h0 : port = 0
        · exact .inl h0
        · exact .inr (h h0)
    · constructor
      · rintro (h | h) h'
        · exact absurd h h'
        · exact h
      · intro h
        by_cases h0 : ti = 0
        · exact .inl h0
        · exact .inr (h h0)
  by_cases hall : addr = none ∧ port = 0 ∧ ti = 0
  · obtain ⟨rfl, rfl, rfl⟩ := hall
    refine ⟨st.binds, by simp [delBind], by simp [delBind], by simp, ?_, ?_, by simp [delBind]⟩
    · cases hb : st.binds with
      | nil => simp [delBind, hb]
      | cons b l => simp [delBind, hb]
    · simp [delBind]
  · obtain ⟨rm, h1, h2, h3, h4, h5⟩ := delLoop_spec (selected addr port ti) (st.binds.length + 1) 0 st false (by omega)
    have he : delBind st addr port ti = delLoop (selected addr port ti) (st.binds.length + 1) 0 st false := by rw [delBind, if_neg hall]
    rw [he]
    have hret : (delLoop (selected addr port ti) (st.binds.length + 1) 0 st false).2 = true ↔ rm ≠ [] := by rw [h4]; simp
    have hex : (∃ b ∈ st.binds, selected addr port ti b = true) ↔ rm ≠ [] := by
      constructor
      · rintro ⟨b, hb, hs⟩
        exact h5 ⟨b, by simpa using hb, hs⟩
      · intro hne
        obtain ⟨b, l, rfl⟩ := List.exists_cons_of_ne_nil hne
        exact ⟨b, h1.subset (by simp), h3 b (by simp)⟩
    refine ⟨rm, h1, h2, fun b hb => (hsel b).mp (h3 b hb), ?_, hret, ?_⟩
    · rw [hret, ← hex]
      constructor
      · rintro ⟨b, hb, hs⟩; exact ⟨b, hb, (hsel b).mp hs⟩
      · rintro ⟨b, hb, hs⟩; exact ⟨b, hb, (hsel b).mpr hs⟩
    · rintro (hc | hc)
      · intro b hb
        cases hs : selected addr port ti b with
        | false => rfl
        | true =>
          exfalso
          have hne : rm ≠ [] := hex.mp ⟨b, h1.subset (by simp [hb]), hs⟩
          have hlen := (h1.filter (selected addr port ti)).length_eq
          rw [List.filter_append, List.length_append] at hlen
          have e1 : 0 < (List.filter (selected addr port ti) (delLoop (selected addr port ti) (st.binds.length + 1) 0 st false).1.binds).length :=
            List.length_pos_of_mem (List.mem_filter.mpr ⟨hb, hs⟩)
          obtain ⟨c, l, rfl⟩ := List.exists_cons_of_ne_nil hne
          have e2 : 0 < (List.filter (selected addr port ti) (c :: l)).length :=
            List.length_pos_of_mem (List.mem_filter.mpr ⟨List.mem_cons_self, h3 c (by simp)⟩)
          omega
      · exact absurd hc hall

example : delBind ⟨[⟨"a", 4334, 1, 3⟩, ⟨"b", 4334, 1, 4⟩, ⟨"c", 4335, 2, 5⟩], []⟩ (some "a") 0 0 = (⟨[⟨"c", 4335, 2, 5⟩, ⟨"b", 4334, 1, 4⟩], [3]⟩, true) := by decide +kernel

/-- C46: a bind that is added is there, the others are kept in front of it and no socket is closed; if no other bind matches it, removing it by its address, port and
transport gives back the binds there were before and closes its socket only. -/
theorem bind_added (st : State) (b : Bind) :
    (∀ x, x ∈ (addBind st b).binds ↔ x ∈ st.binds ∨ x = b) ∧ (addBind st b).binds.length = st.binds.length + 1 ∧ (addBind st b).closed = st.closed ∧
    ((∀ x ∈ st.binds, ¬ (x.addr = b.addr ∧ x.port = b.port ∧ x.ti = b.ti)) → b.port ≠ 0 → b.ti ≠ 0 →
      (delBind (addBind st b) (some b.addr) b.port b.ti).2 = true ∧
      (delBind (addBind st b) (some b.addr) b.port b.ti).1.binds.Perm st.binds ∧
      (delBind (addBind st b) (some b.addr) b.port b.ti).1.closed = st.closed ++ [b.sock]) := by
  refine ⟨by simp [addBind], by simp [addBind], rfl, fun hn hp ht => ?_⟩
  obtain ⟨rem, h1, h2, h3, h4, h5, -⟩ := bind_removal_partial (addBind st b) (some b.addr) b.port b.ti
  have ht' : (delBind (addBind st b) (some b.addr) b.port b.ti).2 = true := h4.mpr ⟨b, by simp [addBind], by simp, by simp, by simp⟩
  have hall : ∀ x ∈ rem, x = b := by
    intro x hx
    obtain ⟨g1, g2, g3⟩ := h3 x hx
    have hm : x ∈ (addBind st b).binds := h1.mem_iff.mp (by simp [hx])
    simp only [addBind, List.mem_append, List.mem_singleton] at hm
    rcases hm with hm | hm
    · exact absurd ⟨g1 _ rfl, g2 hp, g3 ht⟩ (hn x hm)
    · exact hm
  have hnb : b ∉ st.binds := fun hm => hn b hm ⟨rfl, rfl, rfl⟩
  have hc : (addBind st b).binds.count b = 1 := by simp [addBind, List.count_eq_zero.mpr hnb]
  have hrem : rem = [b] := by
    have hne := h5.mp ht'
    have hle : rem.count b ≤ 1 := by
      have := h1.count_eq b
      rw [List.count_append, hc] at this
      omega
    have hlen : rem.count b = rem.length := List.count_eq_length.mpr fun x hx => (hall x hx).symm
    match rem, hne, hlen, hle, hall with
    | [x], _, _, _, hall => rw [hall x (by simp)]
    | x :: y :: l, _, hlen, hle, _ => simp only [List.length_cons] at hlen; omega
  subst hrem
  refine ⟨ht', ?_, by simpa [addBind] using h2⟩
  exact (List.perm_append_right_iff [b]).mp (by simpa [addBind] using h1)

example : delBind (addBind ⟨[⟨"a", 4334, 1, 3⟩, ⟨"b", 4334, 1, 4⟩], []⟩ ⟨"a", 4335, 1, 5⟩) (some "a") 4335 1 = (⟨[⟨"a", 4334, 1, 3⟩, ⟨"b", 4334, 1, 4⟩], [5]⟩, true) := by decide +kernel

/-- C46: of two matching binds only one is removed, because the second one is moved to the place of the first one and skipped. -/
theorem bind_removal_false :
    delBind ⟨[⟨"a", 4334, 1, 3⟩, ⟨"b", 4334, 1, 4⟩], []⟩ none 4334 0 = (⟨[⟨"b", 4334, 1, 4⟩], [3]⟩, true) ∧
    selected none 4334 0 ⟨"b", 4334, 1, 4⟩ = true := by decide +kernel

end Verif.Props
