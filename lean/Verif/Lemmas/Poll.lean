import Verif.Model.Poll

namespace Verif.Poll

theorem delAt_perm (ps : Ps) (i : Nat) (h : i < ps.sessions.length) :
    (delAt ps i).sessions.Perm (ps.sessions.eraseIdx i) := by
  obtain ⟨l, last⟩ := ps
  simp only at h
  have hsplit : l = l.take i ++ l[i] :: l.drop (i + 1) := by simp
  generalize ha : l.take i = a at hsplit
  generalize hb : l.drop (i + 1) = b at hsplit
  have hal : a.length = i := by subst ha; simp; omega
  generalize l[i] = x at hsplit
  subst hsplit
  rcases List.eq_nil_or_concat b with rfl | ⟨c, y, rfl⟩
  · simp [delAt, ← hal, List.eraseIdx_append_of_length_le]
  · have hl : (a ++ x :: c.concat y).getLast? = some y := by
      rw [show a ++ x :: c.concat y = (a ++ x :: c) ++ [y] by simp, List.getLast?_concat]
    simp only [delAt, hl, ← hal]
    rw [List.set_append_right _ _ (Nat.le_refl _), List.eraseIdx_append_of_length_le (Nat.le_refl _)]
    simp only [Nat.sub_self, List.set_cons_zero, List.eraseIdx_cons_zero]
    rw [show a ++ y :: c.concat y = (a ++ y :: c) ++ [y] by simp, List.dropLast_concat]
    simp only [List.concat_eq_append]
    refine List.Perm.append_left a ?_
    exact (List.perm_append_comm (l₁ := c) (l₂ := [y])).symm

theorem delAt_length (ps : Ps) (i : Nat) (h : i < ps.sessions.length) :
    (delAt ps i).sessions.length + 1 = ps.sessions.length := by
  have := (delAt_perm ps i h).length_eq
  rw [List.length_eraseIdx_of_lt h] at this
  omega

theorem delAt_getElem_lt (ps : Ps) (i k : Nat) (h : i < ps.sessions.length) (hk : k < i) :
    (delAt ps i).sessions[k]? = ps.sessions[k]? := by
  obtain ⟨l, last⟩ := ps
  simp only at h
  unfold delAt
  cases hg : l.getLast? with
  | none => rfl
  | some y =>
    simp only
    rw [List.getElem?_dropLast]
    simp only [List.length_set]
    rw [if_pos (by omega), List.getElem?_set_ne (by omega)]

theorem eraseIdx_map_perm_erase (l : List PsSess) (s i : Nat) (h : l.findIdx? (fun x => x.sess == s) = some i) :
    (l.eraseIdx i).map (·.sess) = (l.map (·.sess)).erase s := by
  induction l generalizing i with
  | nil => simp at h
  | cons x l ih =>
    rw [List.findIdx?_cons] at h
    by_cases hx : x.sess = s
    · simp [hx] at h; subst h; simp [hx]
    · simp only [beq_iff_eq, hx, if_false] at h
      cases hf : l.findIdx? (fun x => x.sess == s) with
      | none => simp [hf] at h
      | some j =>
        simp [hf] at h
        subst h
        simp [hx, ih j hf]

/-! ## clear -/

theorem eraseIdx_cons_perm (l : List PsSess) (i : Nat) (x : PsSess) (h : l[i]? = some x) :
    l.Perm (x :: l.eraseIdx i) := by
  obtain ⟨hi, hx⟩ := List.getElem?_eq_some_iff.mp h
  subst hx
  have h2 : l = l.take i ++ l[i] :: l.drop (i + 1) := by simp
  rw [List.eraseIdx_eq_take_drop_succ]
  conv => lhs; rw [h2]
  exact List.perm_middle

theorem clearLoop_spec (running : Nat → Bool) : ∀ (fuel i : Nat) (ps : Ps) (freed : List Nat),
    ps.sessions.length + 1 ≤ fuel + i → i ≤ ps.sessions.length →
    (∀ k x, k < i → ps.sessions[k]? = some x → running x.sess = true) →
    ((clearLoop running fuel i ps freed).1.sessions.map (·.sess)).Perm ((ps.sessions.map (·.sess)).filter running) ∧
    (clearLoop running fuel i ps freed).2.Perm (freed ++ (ps.sessions.map (·.sess)).filter (fun s => !running s)) := by
  intro fuel
  induction fuel with
  | zero => intro i ps freed h1 h2; omega
  | succ fuel ih =>
    intro i ps freed h1 h2 hr
    unfold clearLoop
    cases hg : ps.sessions[i]? with
    | none =>
      have hlen : ps.sessions.length ≤ i := List.getElem?_eq_none_iff.mp hg
      have hall : ∀ x ∈ ps.sessions, running x.sess = true := by
        intro x hx
        obtain ⟨k, hk, rfl⟩ := List.mem_iff_getElem.mp hx
        exact hr k _ (by omega) (List.getElem?_eq_getElem hk)
      have e1 : (ps.sessions.map (·.sess)).filter running = ps.sessions.map (·.sess) := by
        rw [List.filter_eq_self]; intro a ha; obtain ⟨x, hx, rfl⟩ := List.mem_map.mp ha; exact hall x hx
      have e2 : (ps.sessions.map (·.sess)).filter (fun s => !running s) = [] := by
        rw [List.filter_eq_nil_iff]; intro a ha; obtain ⟨x, hx, rfl⟩ := List.mem_map.mp ha; simp [hall x hx]
      simp only [e1, e2, List.append_nil]
      exact ⟨.refl _, .refl _⟩
    | some x =>
      have hi : i < ps.sessions.length := (List.getElem?_eq_some_iff.mp hg).1
      simp only
      split
      · rename_i hrun
        refine ih (i + 1) ps freed (by omega) (by omega) ?_
        intro k y hk hy
        by_cases hki : k = i
        · subst hki; rw [hg] at hy; cases hy; exact hrun
        · exact hr k y (by omega) hy
      · rename_i hrun
        have hl := delAt_length ps i hi
        obtain ⟨r1, r2⟩ := ih i (delAt ps i) (freed ++ [x.sess]) (by omega) (by omega) (by
          intro k y hk hy
          rw [delAt_getElem_lt ps i k hi hk] at hy
          exact hr k y hk hy)
        have hp : (ps.sessions.map (·.sess)).Perm (x.sess :: (delAt ps i).sessions.map (·.sess)) := by
          have := (eraseIdx_cons_perm _ _ _ hg).map (·.sess)
          refine this.trans ?_
          rw [List.map_cons]
          exact (((delAt_perm ps i hi).map (·.sess)).symm).cons _
        refine ⟨r1.trans ?_, r2.trans ?_⟩
        · have := hp.filter running
          simp [hrun] at this
          exact this.symm
        · have := hp.filter (fun s => !running s)
          simp [hrun] at this
          simp only [List.append_assoc, List.singleton_append]
          exact (this.symm).append_left freed

/-! ## scan -/

/-- The index `t` steps after `last` in the circle of `n`, for `t ≥ 1`. -/
def after (n last t : Nat) : Nat := if last + t < n then last + t else last + t - n

theorem scanLoop_find (n last : Nat) (res : Nat → Nat) (hl : last < n) : ∀ (m t : Nat), t + m = n → 0 < m →
    scanLoop n res (after n last 1) m (after n last (t + 1)) =
      (((List.range' (t + 1) m).map (after n last)).find? (fun i => res i != rTimeout)).map (fun i => (i, res i)) := by
  intro m
  induction m with
  | zero => intro t _ h; omega
  | succ m ih =>
    intro t ht _
    unfold scanLoop
    simp only [List.range'_succ, List.map_cons, List.find?_cons]
    by_cases hr : res (after n last (t + 1)) = rTimeout
    · simp only [hr, ne_eq, not_true_eq_false, if_false, bne_self_eq_false]
      by_cases hm : m = 0
      · subst hm
        have : (if after n last (t + 1) = n - 1 then 0 else after n last (t + 1) + 1) = after n last 1 := by
          unfold after; repeat' split
          all_goals omega
        simp [this]
      · have hnext : (if after n last (t + 1) = n - 1 then 0 else after n last (t + 1) + 1) = after n last (t + 1 + 1) := by
          unfold after; repeat' split
          all_goals omega
        rw [hnext]
        have : after n last (t + 1 + 1) ≠ after n last 1 := by
          unfold after; repeat' split
          all_goals omega
        rw [if_neg this, ih (t + 1) (by omega) (by omega)]
    · have hb : (res (after n last (t + 1)) != rTimeout) = true := by simpa using hr
      simp [hr, hb]

theorem scan_find (n last : Nat) (res : Nat → Nat) (hl : last < n) :
    scan n last res =
      (((List.range' 1 n).map (after n last)).find? (fun i => res i != rTimeout)).map (fun i => (i, res i)) := by
  have h := scanLoop_find n last res hl n 0 (by omega) (by omega)
  have hj : (if last = n - 1 then 0 else last + 1) = after n last 1 := by
    unfold after; split <;> split <;> omega
  simp only [scan, hj]
  exact h

/-- `b` comes after `a` and before `k` when going round from `a` (`a = k` starts a whole round). -/
def Before (k a b : Nat) : Prop := (k ≤ a ∧ (a < b ∨ b < k)) ∨ (a < k ∧ a < b ∧ b < k)

theorem Before.trans {k a b c : Nat} (h1 : Before k a b) (h2 : Before k b c) : Before k a c := by
  unfold Before at *; omega

theorem Before.ne {k a b : Nat} (h : Before k a b) : a ≠ b := by
  unfold Before at h; omega

/-- Facts about one pass when session `k` has something to report. -/
theorem scan_before (n last k : Nat) (res : Nat → Nat) (hl : last < n) (hk : k < n) (hres : res k ≠ rTimeout) :
    ∃ i, scan n last res = some (i, res i) ∧ i < n ∧ res i ≠ rTimeout ∧ (i = k ∨ Before k last i) := by
  rw [scan_find n last res hl]
  -- position of k
  let tk := if last < k then k - last else n + k - last
  have htk : 1 ≤ tk ∧ tk ≤ n ∧ after n last tk = k := by
    simp only [tk, after]; split <;> refine ⟨by omega, by omega, ?_⟩ <;> split <;> omega
  have hmem : k ∈ (List.range' 1 n).map (after n last) :=
    List.mem_map.mpr ⟨tk, List.mem_range'_1.mpr ⟨htk.1, by omega⟩, htk.2.2⟩
  cases hf : ((List.range' 1 n).map (after n last)).find? (fun i => res i != rTimeout) with
  | none =>
    rw [List.find?_eq_none] at hf
    exact absurd (hf k hmem) (by simpa using hres)
  | some i =>
    refine ⟨i, rfl, ?_, by simpa using List.find?_some hf, ?_⟩
    · obtain ⟨t, ht, rfl⟩ := List.mem_map.mp (List.mem_of_find?_eq_some hf)
      have := List.mem_range'_1.mp ht
      unfold after; split <;> omega
    · rw [List.find?_map] at hf
      cases hg : (List.range' 1 n).find? ((fun i => res i != rTimeout) ∘ after n last) with
      | none => simp [hg] at hf
      | some t =>
        simp only [hg, Option.map_some, Option.some.injEq] at hf
        have hm := List.mem_range'_1.mp (List.mem_of_find?_eq_some hg)
        have hle : t ≤ tk := by
          rw [List.find?_range'_eq_some] at hg
          obtain ⟨_, _, h3⟩ := hg
          by_cases hlt : tk < t
          · have := h3 tk htk.1 hlt
            simp only [Function.comp, htk.2.2] at this
            exact absurd this (by simpa using hres)
          · omega
        by_cases hik : i = k
        · exact .inl hik
        · right
          have hne : t ≠ tk := by rintro rfl; exact hik (hf.symm.trans htk.2.2)
          subst hf
          have hlt : t < tk := by omega
          simp only [tk] at hlt
          unfold Before after
          split at hlt <;> split <;> omega

theorem after_lt (n last t : Nat) (hl : last < n) (ht : t ≤ n) : after n last t < n := by
  unfold after; split <;> omega

theorem scan_congr (n last : Nat) (res res' : Nat → Nat) (hl : last < n) (h : ∀ i, i < n → res i = res' i) : scan n last res = scan n last res' := by
  rw [scan_find _ _ _ hl, scan_find _ _ _ hl]
  have hm : ∀ i ∈ (List.range' 1 n).map (after n last), i < n := by
    intro i hi
    obtain ⟨t, ht, rfl⟩ := List.mem_map.mp hi
    rw [List.mem_range'_1] at ht
    exact after_lt n last t hl (by omega)
  generalize (List.range' 1 n).map (after n last) = l at hm
  induction l with
  | nil => rfl
  | cons a l ih =>
    have ha := h a (hm a (by simp))
    rw [List.find?_cons, List.find?_cons, ha]
    cases hx : (res' a != rTimeout)
    · exact ih (fun i hi => hm i (by simp [hi]))
    · simp [ha]

theorem scan_lt (n last : Nat) (res : Nat → Nat) (hl : last < n) {i r : Nat} (h : scan n last res = some (i, r)) : i < n ∧ r = res i := by
  rw [scan_find _ _ _ hl] at h
  obtain ⟨a, h1, h2⟩ := Option.map_eq_some_iff.mp h
  cases h2
  obtain ⟨t, ht, rfl⟩ := List.mem_map.mp (List.mem_of_find?_eq_some h1)
  rw [List.mem_range'_1] at ht
  exact ⟨after_lt n last t hl (by omega), rfl⟩

/-- The remembered index is 0 or inside the array. -/
def LastOk (ps : Ps) : Prop := (ps.sessions.length = 0 ∧ ps.last = 0) ∨ ps.last < ps.sessions.length

instance (ps : Ps) : Decidable (LastOk ps) := inferInstanceAs (Decidable (_ ∨ _))

theorem lastOk_add {ps ps' : Ps} {s : Nat} (h : LastOk ps) (ha : add ps s = some ps') : LastOk ps' := by
  unfold add at ha
  split at ha
  · cases ha
  · cases ha
    right
    simp only [List.length_append, List.length_cons, List.length_nil]
    rcases h with h | h <;> omega

theorem lastOk_delAt (ps : Ps) (i : Nat) (h : i < ps.sessions.length) : LastOk (delAt ps i) := by
  have hl : (delAt ps i).last = 0 := by
    unfold delAt
    cases hg : ps.sessions.getLast? with
    | none => rw [List.getLast?_eq_none_iff.mp hg] at h; simp at h
    | some l => rfl
  by_cases h0 : (delAt ps i).sessions.length = 0
  · exact .inl ⟨h0, hl⟩
  · right; omega

theorem lastOk_del {ps ps' : Ps} {s : Nat} (hd : del ps s = some ps') : LastOk ps' := by
  unfold del at hd
  split at hd
  · cases hd
  · rename_i i hi
    cases hd
    exact lastOk_delAt ps i (List.findIdx?_eq_some_iff_getElem.mp hi).1

theorem lastOk_clear (running : Nat → Bool) (all : Bool) {ps : Ps} (h : LastOk ps) : LastOk (clear running all ps).1 := by
  have hloop : ∀ (fuel i : Nat) (ps : Ps) (freed : List Nat), LastOk ps → LastOk (clearLoop running fuel i ps freed).1 := by
    intro fuel
    induction fuel with
    | zero => intro i ps freed h; exact h
    | succ fuel ih =>
      intro i ps freed h
      rw [clearLoop]
      split
      · exact h
      · rename_i x hx
        split
        · exact ih _ _ _ h
        · exact ih _ _ _ (lastOk_delAt ps i (List.getElem?_eq_some_iff.mp hx).1)
  unfold clear
  split
  · exact .inl ⟨rfl, rfl⟩
  · exact hloop _ _ _ _ h

theorem lastOk_poll {ps : Ps} (h : LastOk ps) (res : Nat → Nat) :
    LastOk { ps with last := newLast ps.last (scan ps.sessions.length ps.last res) } := by
  unfold newLast
  split
  · exact h
  · rename_i i r hs
    split
    · rcases h with ⟨h, h0⟩ | h
      · exfalso
        rw [h] at hs
        simp [scan, scanLoop] at hs
      · exact .inr (scan_lt _ _ _ h hs).1
    · exact h

end Verif.Poll
