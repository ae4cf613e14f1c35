import Verif.Model.Accept

/-! # Lemmas about accepting connections -/

namespace Verif.Accept

/-- A listening socket. -/
abbrev Bind.valid (b : Bind) : Bool := decide (0 ≤ b.sock)

/-- A listening socket with a remembered event. -/
abbrev Bind.marked (b : Bind) : Bool := b.valid && b.pollin

theorem scan_inl {k : Nat} : ∀ (bs : List Bind) (i : Nat), scan bs i = .inl k →
    ∃ m b, k = i + m ∧ bs[m]? = some b ∧ b.marked = true ∧ ∀ j, j < m → ∀ b', bs[j]? = some b' → b'.marked = false
  | [], _, h => by simp [scan] at h
  | b :: bs, i, h => by
    simp only [scan] at h
    by_cases hv : b.sock < 0
    · rw [if_pos hv] at h
      obtain ⟨m, b2, h1, h2, h3, h4⟩ := scan_inl bs (i + 1) h
      refine ⟨m + 1, b2, by omega, by simpa using h2, h3, ?_⟩
      intro j hj b' hb'
      cases j with
      | zero =>
        simp at hb'; subst hb'
        have : ¬ 0 ≤ b.sock := by omega
        simp [Bind.marked, Bind.valid, this]
      | succ j => exact h4 j (by omega) b' (by simpa using hb')
    · rw [if_neg hv] at h
      by_cases hp : b.pollin = true
      · rw [if_pos hp] at h
        cases h
        refine ⟨0, b, rfl, rfl, by simp [Bind.marked, Bind.valid, hp]; omega, ?_⟩
        intro j hj; omega
      · rw [if_neg hp] at h
        cases hs : scan bs (i + 1) with
        | inr pfd => rw [hs] at h; cases h
        | inl k2 =>
          rw [hs] at h
          cases h
          obtain ⟨m, b2, h1, h2, h3, h4⟩ := scan_inl bs (i + 1) hs
          refine ⟨m + 1, b2, by omega, by simpa using h2, h3, ?_⟩
          intro j hj b' hb'
          cases j with
          | zero => simp at hb'; subst hb'; simp [Bind.marked, hp]
          | succ j => exact h4 j (by omega) b' (by simpa using hb')

theorem scan_inr {pfd : List Int} : ∀ (bs : List Bind) (i : Nat), scan bs i = .inr pfd →
    (∀ b ∈ bs, b.marked = false) ∧ pfd = (bs.filter Bind.valid).map Bind.sock
  | [], _, h => by simp [scan] at h; simp [h]
  | b :: bs, i, h => by
    simp only [scan] at h
    by_cases hv : b.sock < 0
    · rw [if_pos hv] at h
      obtain ⟨h1, h2⟩ := scan_inr bs (i + 1) h
      have : ¬ 0 ≤ b.sock := by omega
      simp only [List.mem_cons, List.filter_cons, Bind.valid, this, decide_false, Bool.false_eq_true, if_false]
      refine ⟨?_, h2⟩
      rintro x (rfl | hx)
      · simp [Bind.marked, Bind.valid, this]
      · exact h1 x hx
    · rw [if_neg hv] at h
      by_cases hp : b.pollin = true
      · rw [if_pos hp] at h; cases h
      · rw [if_neg hp] at h
        cases hs : scan bs (i + 1) with
        | inl k2 => rw [hs] at h; cases h
        | inr pfd2 =>
          rw [hs] at h
          cases h
          obtain ⟨h1, h2⟩ := scan_inr bs (i + 1) hs
          have : 0 ≤ b.sock := by omega
          simp only [List.mem_cons, List.filter_cons, Bind.valid, this, decide_true, if_true, List.map_cons]
          refine ⟨?_, by rw [h2]⟩
          rintro x (rfl | hx)
          · simp [Bind.marked, hp]
          · exact h1 x hx

/-- Events of the polled sockets of a part of the array. -/
def evsOf (ev : Int → Ev) (bs : List Bind) : List (Int × Ev) := (bs.filter Bind.valid).map fun b => (b.sock, ev b.sock)

/-- Sockets with a new connection. -/
def ready (ev : Int → Ev) (b : Bind) : Bool := b.valid && (ev b.sock).pollin

theorem mark_skip (ev : Int → Ev) (pre bs : List Bind) (b : Bind) (ret : Nat) (h : b.valid = false) :
    mark (evsOf ev bs) pre.length ret (pre ++ b :: bs) = mark (evsOf ev bs) (pre ++ [b]).length ret ((pre ++ [b]) ++ bs) := by
  have hl : pre ++ b :: bs = (pre ++ [b]) ++ bs := by simp
  rw [hl]
  cases he : evsOf ev bs with
  | nil => simp [mark]
  | cons e evs =>
    obtain ⟨fd, e⟩ := e
    have hfd : 0 ≤ fd := by
      have : (fd, e) ∈ evsOf ev bs := by rw [he]; exact List.mem_cons_self
      obtain ⟨x, hx, hx2⟩ := List.mem_map.mp this
      rw [List.mem_filter] at hx
      cases hx2
      simpa using hx.2
    have hne : b.sock ≠ fd := by
      rintro rfl
      simp [Bind.valid, hfd] at h
    have h1 : ((pre ++ [b]) ++ bs).drop pre.length = b :: bs := by simp
    have h2 : ((pre ++ [b]) ++ bs).drop (pre ++ [b]).length = bs := List.drop_left
    have h3 : (pre ++ [b]).length = pre.length + 1 := by simp
    simp only [mark, h1, h2, seek, hne, if_false]
    rw [h3]

/-- What the second loop does. -/
theorem mark_spec (ev : Int → Ev) : ∀ (suf pre : List Bind) (ret : Nat), suf.countP (ready ev) ≤ ret → 0 < ret →
    ∃ suf' o, mark (evsOf ev suf) pre.length ret (pre ++ suf) = some (pre ++ suf', o.map (pre.length + ·)) ∧ suf'.length = suf.length ∧
      (∀ (j : Nat) (b : Bind), suf[j]? = some b → suf'[j]? = some { b with pollin := b.pollin || (ready ev b && o != some j) }) ∧
      (∀ k, o = some k → ∃ b, suf[k]? = some b ∧ ready ev b = true) ∧ (o = none ↔ suf.countP (ready ev) < ret)
  | [], pre, ret, _, hr => ⟨[], none, by simp [evsOf, mark], rfl, by simp, by simp, by simpa using hr⟩
  | b :: suf, pre, ret, hc, hr => by
    by_cases hv : b.valid = false
    · have he : evsOf ev (b :: suf) = evsOf ev suf := by simp only [evsOf, List.filter_cons, hv]; simp
      have hnr : ready ev b = false := by simp [ready, hv]
      rw [List.countP_cons] at hc
      simp only [hnr, Bool.false_eq_true, if_false, Nat.add_zero] at hc
      obtain ⟨suf', o, h1, h2, h3, h4, h5⟩ := mark_spec ev suf (pre ++ [b]) ret hc hr
      refine ⟨b :: suf', o.map (1 + ·), ?_, by simp [h2], ?_, ?_, ?_⟩
      · rw [he, mark_skip ev pre suf b ret hv, h1]
        cases o <;> simp [Nat.add_assoc]
      · intro j b' hb'
        cases j with
        | zero => simp at hb'; subst hb'; simp [hnr]
        | succ j =>
          rw [List.getElem?_cons_succ] at hb' ⊢
          rw [h3 j b' hb']
          cases o <;> simp [Nat.add_comm 1, bne]
      · intro k hk
        cases o with
        | none => cases hk
        | some m =>
          simp at hk; subst hk
          obtain ⟨b', hb1, hb2⟩ := h4 m rfl
          exact ⟨b', by rw [Nat.add_comm]; simpa using hb1, hb2⟩
      · rw [List.countP_cons]
        simp only [hnr, Bool.false_eq_true, if_false, Nat.add_zero, Option.map_eq_none_iff]
        exact h5
    · have hv : b.valid = true := by simpa using hv
      have he : evsOf ev (b :: suf) = (b.sock, ev b.sock) :: evsOf ev suf := by simp only [evsOf, List.filter_cons, hv]; simp
      have hseek : seek b.sock ((pre ++ b :: suf).drop pre.length) pre.length = some pre.length := by
        rw [List.drop_left]; simp [seek]
      rw [List.countP_cons] at hc
      by_cases hp : (ev b.sock).pollin = true
      · have hrd : ready ev b = true := by simp [ready, hv, hp]
        simp only [hrd, if_true] at hc
        by_cases h1 : ret = 1
        · subst h1
          have h0 : suf.countP (ready ev) = 0 := by omega
          rw [List.countP_eq_zero] at h0
          refine ⟨b :: suf, some 0, ?_, rfl, ?_, ?_, ?_⟩
          · rw [he]; simp only [mark, hseek, hp, if_true]; simp
          · intro j b' hb'
            cases j with
            | zero => simp at hb'; subst hb'; simp
            | succ j =>
              rw [List.getElem?_cons_succ] at hb' ⊢
              have := h0 b' (List.mem_of_getElem? hb')
              simp [this, hb']
          · rintro k ⟨⟩; exact ⟨b, rfl, hrd⟩
          · rw [List.countP_cons]; simp [hrd]
        · have hb' : (pre ++ b :: suf).modify pre.length (fun b => { b with pollin := true }) = (pre ++ [{ b with pollin := true }]) ++ suf := by
            rw [List.modify_eq_take_cons_drop (by simp)]
            simp
          obtain ⟨suf', o, g1, g2, g3, g4, g5⟩ := mark_spec ev suf (pre ++ [{ b with pollin := true }]) (ret - 1) (by omega) (by omega)
          refine ⟨{ b with pollin := true } :: suf', o.map (1 + ·), ?_, by simp [g2], ?_, ?_, ?_⟩
          · rw [he]
            have e2 : pre.length + 1 = (pre ++ [({ b with pollin := true } : Bind)]).length := by simp
            simp only [mark, hseek, hp, if_true, if_neg (by omega : ¬ ret - 1 = 0), hb']
            rw [e2, g1]
            cases o <;> simp [Nat.add_assoc]
          · intro j b' hb'
            cases j with
            | zero => simp at hb'; subst hb'; cases o <;> simp [hrd, bne]
            | succ j =>
              rw [List.getElem?_cons_succ] at hb' ⊢
              rw [g3 j b' hb']
              cases o <;> simp [Nat.add_comm 1, bne]
          · intro k hk
            cases o with
            | none => cases hk
            | some m =>
              simp at hk; subst hk
              obtain ⟨b', hb1, hb2⟩ := g4 m rfl
              exact ⟨b', by rw [Nat.add_comm]; simpa using hb1, hb2⟩
          · rw [List.countP_cons]
            simp only [hrd, if_true, Option.map_eq_none_iff]
            rw [g5]; omega
      · have hrd : ready ev b = false := by simp [ready, hp]
        simp only [hrd, Bool.false_eq_true, if_false, Nat.add_zero] at hc
        obtain ⟨suf', o, g1, g2, g3, g4, g5⟩ := mark_spec ev suf (pre ++ [b]) ret hc hr
        refine ⟨b :: suf', o.map (1 + ·), ?_, by simp [g2], ?_, ?_, ?_⟩
        · rw [he]
          have e1 : pre ++ b :: suf = (pre ++ [b]) ++ suf := by simp
          have e2 : pre.length + 1 = (pre ++ [b]).length := by simp
          simp only [mark, hseek, hp, Bool.false_eq_true, if_false]
          rw [e1, e2, g1]
          cases o <;> simp [Nat.add_assoc]
        · intro j b' hb'
          cases j with
          | zero => simp at hb'; subst hb'; simp [hrd]
          | succ j =>
            rw [List.getElem?_cons_succ] at hb' ⊢
            rw [g3 j b' hb']
            cases o <;> simp [Nat.add_comm 1, bne]
        · intro k hk
          cases o with
          | none => cases hk
          | some m =>
            simp at hk; subst hk
            obtain ⟨b', hb1, hb2⟩ := g4 m rfl
            exact ⟨b', by rw [Nat.add_comm]; simpa using hb1, hb2⟩
        · rw [List.countP_cons]
          simp only [hrd, Bool.false_eq_true, if_false, Nat.add_zero, Option.map_eq_none_iff]
          exact g5

theorem countP_modify {α : Type} (p : α → Bool) (f : α → α) : ∀ (l : List α) (k : Nat) (a : α), l[k]? = some a →
    (l.modify k f).countP p + (if p a then 1 else 0) = l.countP p + (if p (f a) then 1 else 0)
  | [], k, a, h => by simp at h
  | b :: l, 0, a, h => by simp at h; subst h; rw [List.modify_zero_cons, List.countP_cons, List.countP_cons]; omega
  | b :: l, k + 1, a, h => by
    rw [List.getElem?_cons_succ] at h
    rw [List.modify_succ_cons, List.countP_cons, List.countP_cons]
    have := countP_modify p f l k a h
    omega

/-- What is chosen, in terms of the array. -/
inductive Chosen (ev : Int → Ev) (ok : Bool) (bs : List Bind) : List Bind → Choice → Prop
  /-- The first remembered event is used. -/
  | leftover (k : Nat) (b : Bind) : bs[k]? = some b → b.marked = true → (∀ j, j < k → ∀ b', bs[j]? = some b' → b'.marked = false) →
      Chosen ev ok bs (bs.modify k fun b => { b with pollin := false }) (.at k)
  | pollError : ok = false → (∀ b ∈ bs, b.marked = false) → Chosen ev ok bs bs .error
  | timeout : ok = true → (∀ b ∈ bs, b.marked = false) → (∀ b ∈ bs, b.valid = true → (ev b.sock).pollin = false ∧ (ev b.sock).other = false) → Chosen ev ok bs bs .timeout
  /-- One of the sockets with a connection is used, the others are remembered. -/
  | polled (bs' : List Bind) (k : Nat) (b : Bind) : ok = true → (∀ b ∈ bs, b.marked = false) → bs[k]? = some b → ready ev b = true → bs'.length = bs.length →
      (∀ (j : Nat) (b : Bind), bs[j]? = some b → bs'[j]? = some { b with pollin := b.pollin || (ready ev b && some k != some j) }) → Chosen ev ok bs bs' (.at k)
  /-- All sockets with a connection are remembered. -/
  | other (bs' : List Bind) (b : Bind) : ok = true → (∀ b ∈ bs, b.marked = false) → b ∈ bs → b.valid = true → (ev b.sock).other = true → bs'.length = bs.length →
      (∀ (j : Nat) (b : Bind), bs[j]? = some b → bs'[j]? = some { b with pollin := b.pollin || ready ev b }) → Chosen ev ok bs bs' .error

theorem countP_evs (ev : Int → Ev) (q : Ev → Bool) (bs : List Bind) : (evsOf ev bs).countP (fun e => q e.2) = bs.countP (fun b => b.valid && q (ev b.sock)) := by
  rw [evsOf, List.countP_map, List.countP_filter]
  apply List.countP_congr
  intro x _
  simp [and_comm]

theorem choose_spec (ev : Int → Ev) (ok : Bool) (bs : List Bind) :
    ∃ bs' ch, choose (if ok then some ev else none) bs = some (bs', ch) ∧ Chosen ev ok bs bs' ch := by
  simp only [choose]
  cases hs : scan bs 0 with
  | inl k =>
    obtain ⟨m, b, h1, h2, h3, h4⟩ := scan_inl bs 0 hs
    have hk : m = k := by omega
    subst hk
    exact ⟨_, _, rfl, .leftover m b h2 h3 h4⟩
  | inr pfd =>
    obtain ⟨h1, h2⟩ := scan_inr bs 0 hs
    cases ok with
    | false => exact ⟨_, _, rfl, .pollError rfl h1⟩
    | true =>
      have he : pfd.map (fun fd => (fd, ev fd)) = evsOf ev bs := by rw [h2]; simp [evsOf]
      simp only [if_true, he]
      have hle : bs.countP (ready ev) ≤ (evsOf ev bs).countP (fun e => e.2.pollin || e.2.other) := by
        rw [countP_evs ev (fun e => e.pollin || e.other)]
        apply List.countP_mono_left
        intro x _
        simp only [ready, Bool.and_eq_true, Bool.or_eq_true]
        rintro ⟨a, b⟩; exact ⟨a, Or.inl b⟩
      by_cases h0 : (evsOf ev bs).countP (fun e => e.2.pollin || e.2.other) = 0
      · rw [if_pos h0]
        refine ⟨_, _, rfl, .timeout rfl h1 ?_⟩
        rw [countP_evs ev (fun e => e.pollin || e.other), List.countP_eq_zero] at h0
        intro b hb hv
        have := h0 b hb
        simpa [hv] using this
      · rw [if_neg h0]
        obtain ⟨bs', o, g1, g2, g3, g4, g5⟩ := mark_spec ev bs [] _ hle (Nat.pos_of_ne_zero h0)
        simp only [List.length_nil, List.nil_append] at g1
        rw [g1]
        cases o with
        | none =>
          have hlt := g5.mp rfl
          rw [countP_evs ev (fun e => e.pollin || e.other)] at hlt
          have : ∃ b ∈ bs, b.valid = true ∧ (ev b.sock).other = true := by
            apply Classical.byContradiction
            intro hne
            have : bs.countP (fun b => b.valid && ((ev b.sock).pollin || (ev b.sock).other)) ≤ bs.countP (ready ev) := by
              apply List.countP_mono_left
              intro x hx
              simp only [ready, Bool.and_eq_true, Bool.or_eq_true]
              rintro ⟨a, b | b⟩
              · exact ⟨a, b⟩
              · exact absurd ⟨x, hx, a, b⟩ hne
            omega
          obtain ⟨b, hb, hv, ho⟩ := this
          refine ⟨_, _, rfl, .other bs' b rfl h1 hb hv ho g2 ?_⟩
          intro j b hb
          rw [g3 j b hb]
          simp [bne]
        | some k =>
          obtain ⟨b, hb1, hb2⟩ := g4 k rfl
          refine ⟨bs', .at k, by simp, .polled bs' k b rfl h1 hb1 hb2 g2 g3⟩

end Verif.Accept
