import Verif.Model.PsQueue

/-! # Lemmas about the poll structure lock -/

namespace Verif.PsQueue

/-- The tickets in the ring, oldest first. -/
def content (r : Ring) : List Nat := (List.range r.len).map fun j => r.queue ((r.beg + j) % 6)

theorem content_length (r : Ring) : (content r).length = r.len := by simp [content]

theorem content_getElem (r : Ring) (j : Nat) (h : j < r.len) :
    (content r)[j]'(by rw [content_length]; exact h) = r.queue ((r.beg + j) % 6) := by simp [content]

theorem head_content (r : Ring) (hb : r.beg < 6) (x : Nat) (l : List Nat) (h : content r = x :: l) : head r = x := by
  have hl : 0 < r.len := by rw [← content_length, h]; simp
  have := content_getElem r 0 hl
  simp only [h, List.getElem_cons_zero, Nat.add_zero, Nat.mod_eq_of_lt hb] at this
  rw [this]; rfl

theorem addId_content (r : Ring) (hl : r.len < 6) :
    content (addId r).2 = content r ++ [(addId r).1] := by
  unfold addId
  dsimp only
  generalize (if r.len ≠ 0 then _ else 0) = v
  apply List.ext_getElem
  · simp [content_length]
  · intro j h1 h2
    rw [content_length] at h1
    rw [content_getElem _ _ h1]
    have h1' : j < r.len + 1 := h1
    show (if (r.beg + j) % 6 = (r.beg + (r.len + 1) - 1) % 6 then v else r.queue ((r.beg + j) % 6)) = _
    rw [List.getElem_append]
    by_cases he : (r.beg + j) % 6 = (r.beg + (r.len + 1) - 1) % 6
    · rw [if_pos he]
      split
      · rename_i hj
        rw [content_length] at hj
        omega
      · simp
    · rw [if_neg he]
      split
      · rename_i hj
        rw [content_length] at hj
        rw [content_getElem _ _ hj]
      · rename_i hj
        rw [content_length] at hj
        exfalso; apply he
        have : j = r.len := by omega
        subst this; congr 1

theorem addId_fst (r : Ring) (l : List Nat) (x : Nat) (h : content r = l ++ [x]) (hl : r.len ≤ 6) : (addId r).1 = (x + 1) % 256 := by
  have hn : r.len = l.length + 1 := by rw [← content_length, h]; simp
  have := content_getElem r l.length (by omega)
  simp only [h, List.getElem_append_right (Nat.le_refl _), Nat.sub_self, List.getElem_cons_zero] at this
  unfold addId
  dsimp only
  rw [if_pos (by omega), this]
  congr 3
  unfold qsize; omega

theorem addId_fst_nil (r : Ring) (h : r.len = 0) : (addId r).1 = 0 := by simp [addId, h]

theorem removeLoop_two_succ (b id n i : Nat) (q : Nat → Nat) :
    removeLoop b id (n + 1) i 2 q =
      removeLoop b id n (i + 1) 2 (upd q (if (b + i) % 6 ≠ 0 then (b + i) % 6 - 1 else 6 - 1) (q ((b + i) % 6))) := rfl

theorem removeLoop_zero_succ (b id n i : Nat) (q : Nat → Nat) :
    removeLoop b id (n + 1) i 0 q = if q ((b + i) % 6) = id then removeLoop b id n (i + 1) (if i = 0 then 1 else 2) q
    else removeLoop b id n (i + 1) 0 q := rfl

theorem removeLoop_one (b id n i : Nat) (q : Nat → Nat) : removeLoop b id n i 1 q = (1, q) := by
  induction n generalizing i with
  | zero => rfl
  | succ n ih => simp [removeLoop, ih]

theorem removeLoop_two (b id n i : Nat) (q : Nat → Nat) (hi : 1 ≤ i) (hn : i + n ≤ 6) :
    ∃ q', removeLoop b id n i 2 q = (2, q') ∧
      ∀ j < 6, q' ((b + j) % 6) = if i - 1 ≤ j ∧ j < i - 1 + n then q ((b + j + 1) % 6) else q ((b + j) % 6) := by
  induction n generalizing i q with
  | zero => exact ⟨q, rfl, fun j _ => by rw [if_neg]; omega⟩
  | succ n ih =>
    have hk : (if (b + i) % 6 ≠ 0 then (b + i) % 6 - 1 else 6 - 1) = (b + i - 1) % 6 := by
      split <;> omega
    rw [removeLoop_two_succ, hk]
    obtain ⟨q', h1, h2⟩ := ih (i + 1) (upd q ((b + i - 1) % 6) (q ((b + i) % 6))) (by omega) (by omega)
    refine ⟨q', h1, ?_⟩
    intro j hj
    rw [h2 j hj]
    unfold upd
    by_cases hA : i + 1 - 1 ≤ j ∧ j < i + 1 - 1 + n
    · rw [if_pos hA, if_neg (by omega), if_pos (by omega)]
    · rw [if_neg hA]
      by_cases hB : j = i - 1
      · subst hB
        rw [if_pos (by omega), if_pos (by omega)]
        congr 2; omega
      · rw [if_neg (by omega), if_neg (by omega)]

theorem removeLoop_zero (b id p n i : Nat) (q : Nat → Nat) (hp : q ((b + p) % 6) = id)
    (hlt : ∀ j < p, q ((b + j) % 6) ≠ id) (hi : i ≤ p) (hpn : p < i + n) (hn : i + n ≤ 6) :
    ∃ f q', removeLoop b id n i 0 q = (f, q') ∧ f = (if p = 0 then 1 else 2) ∧
      ∀ j < 6, q' ((b + j) % 6) = if p ≠ 0 ∧ p ≤ j ∧ j + 1 < i + n then q ((b + j + 1) % 6) else q ((b + j) % 6) := by
  induction n generalizing i with
  | zero => omega
  | succ n ih =>
    by_cases he : i = p
    · subst he
      rw [removeLoop_zero_succ, if_pos hp]
      by_cases h0 : i = 0
      · subst h0
        simp only [↓reduceIte, removeLoop_one]
        exact ⟨1, q, rfl, rfl, fun j _ => by simp⟩
      · rw [if_neg h0]
        obtain ⟨q', h1, h2⟩ := removeLoop_two b id n (i + 1) q (by omega) (by omega)
        refine ⟨2, q', h1, by simp, ?_⟩
        intro j hj
        rw [h2 j hj]
        congr 1
        apply propext
        constructor <;> intro h <;> omega
    · have := hlt i (by omega)
      rw [removeLoop_zero_succ, if_neg this]
      obtain ⟨f, q', h1, h2, h3⟩ := ih (i + 1) (by omega) (by omega) (by omega)
      refine ⟨f, q', h1, h2, ?_⟩
      intro j hj
      rw [h3 j hj]
      congr 1
      apply propext
      constructor <;> intro h <;> omega

theorem removeId_content (r : Ring) (id : Nat) (A B : List Nat) (h : content r = A ++ id :: B) (hA : id ∉ A)
    (hl : r.len ≤ 6) :
    content (removeId r id) = A ++ B ∧ (removeId r id).len = r.len - 1 ∧ (r.beg < 6 → (removeId r id).beg < 6) := by
  have hlen : r.len = A.length + (B.length + 1) := by rw [← content_length, h]; simp
  have hget := fun j (hj : j < r.len) => content_getElem r j hj
  have hp : r.queue ((r.beg + A.length) % 6) = id := by
    rw [← hget A.length (by omega)]; simp [h]
  have hlt : ∀ j < A.length, r.queue ((r.beg + j) % 6) ≠ id := by
    intro j hj he
    rw [← hget j (by omega)] at he
    simp only [h, List.getElem_append_left hj] at he
    exact hA (he ▸ List.getElem_mem hj)
  obtain ⟨f, q', h1, h2, h3⟩ := removeLoop_zero r.beg id A.length r.len 0 r.queue hp hlt (by omega) (by omega) (by omega)
  have hf : f ≠ 0 := by rw [h2]; split <;> omega
  have hr : removeId r id = ⟨q', if f = 1 then (r.beg + 1) % 6 else r.beg, r.len - 1⟩ := by
    unfold removeId
    rw [h1]
    simp [hf, qsize]
  refine ⟨?_, by rw [hr], ?_⟩
  · rw [hr]
    apply List.ext_getElem
    · rw [content_length]; simp; omega
    · intro j hj1 hj2
      rw [content_length] at hj1
      rw [content_getElem _ _ hj1]
      dsimp only at hj1 ⊢
      have hAB : (A ++ B)[j] = r.queue ((r.beg + (if j < A.length then j else j + 1)) % 6) := by
        split
        · rename_i hjA
          rw [← hget j (by omega)]
          simp [h, List.getElem_append_left hjA]
        · rename_i hjA
          rw [← hget (j + 1) (by omega)]
          simp only [h]
          rw [List.getElem_append_right (by omega), List.getElem_append_right (by omega)]
          have : j + 1 - A.length = (j - A.length) + 1 := by omega
          simp only [this, List.getElem_cons_succ]
      rw [hAB, h2]
      by_cases hz : A.length = 0
      · have hz' : ¬ j < A.length := by omega
        rw [if_pos hz, if_pos rfl, if_neg hz']
        have he : ((r.beg + 1) % 6 + j) % 6 = (r.beg + (j + 1)) % 6 := by omega
        rw [he, h3 (j + 1) (by omega), if_neg (by omega)]
      · rw [if_neg hz, if_neg (by omega), h3 j (by omega)]
        by_cases hjA : j < A.length
        · rw [if_neg (by omega), if_pos hjA]
        · rw [if_pos (by omega), if_neg hjA, Nat.add_assoc]
  · intro hb; rw [hr]; dsimp only; split <;> omega

/-! ## The invariant -/

/-- Relation between an older and a younger present thread; the second component is the ticket not reduced modulo 256. -/
def Older (a b : Thr × Nat) : Prop :=
  a.2 < b.2 ∧ b.2 + a.1.call ≤ b.1.call + a.2 ∧ b.1.call < a.1.call + 256

/-- Invariant of the system. -/
def Inv (s : Sys) : Prop :=
  ∃ L : List (Thr × Nat), s.thr = L.map (·.1) ∧ L.Pairwise Older ∧ (∀ x ∈ L, x.1.id = x.2 % 256 ∧ x.1.call < s.calls) ∧
    content s.ring = s.thr.map (·.id) ∧ s.ring.beg < 6 ∧ s.thr.length ≤ 6 ∧
    (∀ t l, s.thr = t :: l → t.st ≠ .asleep ∧ ∀ u ∈ l, u.st ≠ .owner)

theorem Older.call_lt {a b : Thr × Nat} (h : Older a b) : a.1.call < b.1.call := by unfold Older at h; omega

theorem Older.id_ne {a b : Thr × Nat} (h : Older a b) (ha : a.1.id = a.2 % 256) (hb : b.1.id = b.2 % 256) : a.1.id ≠ b.1.id := by
  unfold Older at h; omega

theorem Inv.len {s : Sys} (h : Inv s) : s.ring.len = s.thr.length := by
  obtain ⟨L, -, -, -, h4, -⟩ := h
  rw [← content_length, h4]; simp

theorem Inv.calls {s : Sys} (h : Inv s) : s.thr.Pairwise (fun a b => a.call < b.call) := by
  obtain ⟨L, h1, h2, -⟩ := h
  rw [h1, List.pairwise_map]
  exact h2.imp fun h => h.call_lt

theorem Inv.ids {s : Sys} (h : Inv s) : s.thr.Pairwise (fun a b => a.id ≠ b.id) := by
  obtain ⟨L, h1, h2, h3, -⟩ := h
  rw [h1, List.pairwise_map]
  exact h2.imp_of_mem fun ha hb h => h.id_ne (h3 _ ha).1 (h3 _ hb).1

theorem Inv.head_eq {s : Sys} (h : Inv s) (t : Thr) (l : List Thr) (he : s.thr = t :: l) (u : Thr) (hu : u ∈ s.thr) :
    head s.ring = u.id ↔ u = t := by
  have hids := h.ids
  obtain ⟨L, -, -, -, h4, h5, -⟩ := h
  have hh : head s.ring = t.id := head_content _ h5 _ (l.map (·.id)) (by rw [h4, he]; rfl)
  rw [hh]
  constructor
  · intro hid
    rw [he] at hu hids
    rcases List.mem_cons.mp hu with rfl | hu
    · rfl
    · exact absurd hid (List.rel_of_pairwise_cons hids hu)
  · rintro rfl; rfl

theorem find_mem {s : Sys} {c : Nat} {t : Thr} (h : find s c = some t) : t ∈ s.thr ∧ t.call = c := by
  unfold find at h
  exact ⟨List.mem_of_find?_eq_some h, by simpa using List.find?_some h⟩

theorem find_of_mem {s : Sys} (h : Inv s) {t : Thr} (ht : t ∈ s.thr) : find s t.call = some t := by
  have hc := h.calls
  unfold find
  revert ht hc
  generalize s.thr = l
  intro ht hc
  induction l with
  | nil => simp at ht
  | cons x l ih =>
    rw [List.find?_cons]
    rcases List.mem_cons.mp ht with rfl | ht
    · simp
    · have := List.rel_of_pairwise_cons hc ht
      have hne : (x.call == t.call) = false := by rw [beq_eq_false_iff_ne]; omega
      rw [hne]
      exact ih ht (List.Pairwise.of_cons hc)

theorem init_inv : Inv init := ⟨[], by simp [init, content]⟩

theorem enter_inv (s : Sys) (h : Inv s) (hsp : ∀ t l, s.thr = t :: l → s.calls < t.call + 256) : Inv (step s .enter).2 := by
  have hlen := h.len
  have hcalls := h.calls
  obtain ⟨L, h1, h2, h3, h4, h5, h6, h7⟩ := h
  simp only [step]
  split
  · refine ⟨L, h1, h2, ?_, h4, h5, h6, h7⟩
    intro x hx
    have := h3 x hx
    refine ⟨this.1, ?_⟩
    simp only; omega
  · rename_i hfull
    have hl6 : s.ring.len < 6 := by unfold qsize at hfull; omega
    have hcont := addId_content s.ring hl6
    have hbeg : (addId s.ring).2.beg = s.ring.beg := rfl
    -- the unreduced ticket
    have hu : ∃ u, (addId s.ring).1 = u % 256 ∧ (∀ x ∈ L, Older x (⟨s.calls, (addId s.ring).1, .owner⟩, u)) ∧
        (L = [] → u = 0) := by
      rcases List.eq_nil_or_concat L with hL | ⟨L', x, hL⟩
      · subst hL
        simp only [List.map_nil] at h1
        rw [h1] at hlen
        exact ⟨0, addId_fst_nil _ hlen, by simp, fun _ => rfl⟩
      · subst hL
        rw [List.concat_eq_append] at *
        have hx := h3 x (by simp)
        have h10 : content s.ring = L'.map (fun x => x.1.id) ++ [x.1.id] := by
          rw [h4, h1]; simp [Function.comp_def]
        refine ⟨x.2 + 1, ?_, ?_, by simp⟩
        · rw [addId_fst s.ring _ _ h10 (by omega), hx.1]; omega
        · intro y hy
          have hyc := (h3 y hy).2
          have hsp' : s.calls < y.1.call + 256 := by
            cases hthr : s.thr with
            | nil => rw [h1] at hthr; simp at hthr
            | cons t l =>
              have h0 := hsp t l hthr
              have : t.call ≤ y.1.call := by
                have hy' : y.1 ∈ s.thr := by rw [h1]; exact List.mem_map_of_mem hy
                rw [hthr] at hy' hcalls
                rcases List.mem_cons.mp hy' with e | e
                · rw [e]; exact Nat.le_refl _
                · exact Nat.le_of_lt (List.rel_of_pairwise_cons hcalls e)
              omega
          unfold Older
          dsimp only
          rcases List.mem_append.mp hy with hy | hy
          · have := (List.pairwise_append.mp h2).2.2 y hy x (by simp)
            unfold Older at this
            omega
          · simp only [List.mem_singleton] at hy
            subst hy; omega
    obtain ⟨u, hu1, hu2, hu3⟩ := hu
    have key : ∀ st : TSt, ((L = [] → st ≠ .asleep) ∧ (L ≠ [] → st ≠ .owner)) →
        Inv ⟨(addId s.ring).2, s.thr ++ [⟨s.calls, (addId s.ring).1, st⟩], s.calls + 1⟩ := by
      intro st hst
      refine ⟨L ++ [(⟨s.calls, (addId s.ring).1, st⟩, u)], ?_, ?_, ?_, ?_, ?_, ?_, ?_⟩
      · simp [h1]
      · rw [List.pairwise_append]
        refine ⟨h2, by simp, ?_⟩
        intro a ha b hb
        simp only [List.mem_singleton] at hb
        subst hb
        exact hu2 a ha
      · intro x hx
        rcases List.mem_append.mp hx with hx | hx
        · have := h3 x hx
          exact ⟨this.1, by simp only; omega⟩
        · simp only [List.mem_singleton] at hx
          subst hx; exact ⟨hu1, Nat.lt_succ_self _⟩
      · simp only [hcont, h4]; simp
      · exact h5
      · simp only [List.length_append, List.length_singleton]; omega
      · intro t l htl
        simp only at htl
        cases hthr : s.thr with
        | nil =>
          have hL : L = [] := by rw [h1] at hthr; simpa using hthr
          rw [hthr] at htl
          simp only [List.nil_append, List.cons.injEq] at htl
          obtain ⟨rfl, rfl⟩ := htl
          exact ⟨hst.1 hL, by simp⟩
        | cons t0 l0 =>
          have hL : L ≠ [] := by rintro rfl; rw [h1] at hthr; simp at hthr
          rw [hthr] at htl
          simp only [List.cons_append, List.cons.injEq] at htl
          obtain ⟨rfl, rfl⟩ := htl
          obtain ⟨g1, g2⟩ := h7 _ _ hthr
          refine ⟨g1, ?_⟩
          intro v hv
          rcases List.mem_append.mp hv with hv | hv
          · exact g2 v hv
          · simp only [List.mem_singleton] at hv
            subst hv; exact hst.2 hL
    have hhead : head (addId s.ring).2 = (addId s.ring).1 ↔ L = [] := by
      cases L with
      | nil =>
        simp only [List.map_nil] at h1
        rw [h4, h1] at hcont
        simp only [iff_true]
        exact head_content _ (by rw [hbeg]; exact h5) _ [] hcont
      | cons x L =>
        rw [h4, h1] at hcont
        have := head_content _ (by rw [hbeg]; exact h5) x.1.id _ hcont
        rw [this]
        have hne := (hu2 x (by simp)).id_ne (h3 x (by simp)).1 hu1
        simp only at hne
        simp [hne]
    split
    · rename_i hh
      exact key .owner ⟨fun _ => by simp, fun hne => absurd (hhead.mp hh) hne⟩
    · rename_i hh
      exact key .asleep ⟨fun hL => absurd (hhead.mpr hL) hh, fun _ => by simp⟩

/-- Changing states only, keeping the constraint about the first thread, preserves the invariant. -/
theorem map_inv (s : Sys) (h : Inv s) (f : Thr → Thr) (hid : ∀ t, (f t).id = t.id) (hcall : ∀ t, (f t).call = t.call)
    (h7 : ∀ t l, s.thr = t :: l → (f t).st ≠ .asleep ∧ ∀ u ∈ l, (f u).st ≠ .owner) : Inv { s with thr := s.thr.map f } := by
  obtain ⟨L, h1, h2, h3, h4, h5, h6, -⟩ := h
  refine ⟨L.map (fun x => (f x.1, x.2)), ?_, ?_, ?_, ?_, h5, by simpa using h6, ?_⟩
  · simp [h1, Function.comp_def]
  · rw [List.pairwise_map]
    exact h2.imp fun h => by unfold Older at *; simp only [hcall]; exact h
  · intro x hx
    obtain ⟨y, hy, rfl⟩ := List.mem_map.mp hx
    simp only [hid, hcall]
    exact h3 y hy
  · simp only [h4, List.map_map]
    congr 1; funext t; simp [hid]
  · intro t l htl
    cases hthr : s.thr with
    | nil => simp [hthr] at htl
    | cons t0 l0 =>
      simp only [hthr, List.map_cons, List.cons.injEq] at htl
      obtain ⟨rfl, rfl⟩ := htl
      obtain ⟨g1, g2⟩ := h7 _ _ hthr
      refine ⟨g1, ?_⟩
      intro u hu
      obtain ⟨v, hv, rfl⟩ := List.mem_map.mp hu
      exact g2 v hv

theorem setSt_inv (s : Sys) (h : Inv s) (t : Thr) (ht : t ∈ s.thr) (st : TSt)
    (hst : ∀ t0 l0, s.thr = t0 :: l0 → (t = t0 → st ≠ .asleep) ∧ (t ≠ t0 → st ≠ .owner)) :
    Inv { s with thr := setSt s.thr t.call st } := by
  have hc := h.calls
  have h7 : ∀ t l, s.thr = t :: l → t.st ≠ .asleep ∧ ∀ u ∈ l, u.st ≠ .owner := by
    obtain ⟨L, -, -, -, -, -, -, h7⟩ := h; exact h7
  apply map_inv s h
  · intro t; split <;> rfl
  · intro t; split <;> rfl
  · intro t0 l0 he
    obtain ⟨g1, g2⟩ := h7 _ _ he
    have hinj : ∀ u ∈ s.thr, u.call = t.call → u = t := by
      intro u hu hut
      have h1 := find_of_mem h hu
      have h2 := find_of_mem h ht
      rw [hut, h2] at h1
      exact (Option.some.inj h1).symm
    constructor
    · split
      · rename_i hh
        have := hinj t0 (by rw [he]; simp) hh
        exact (hst _ _ he).1 this.symm
      · exact g1
    · intro u hu
      split
      · rename_i hh
        have := hinj u (by rw [he]; simp [hu]) hh
        subst this
        refine (hst _ _ he).2 ?_
        rintro rfl
        rw [he] at hc
        exact Nat.lt_irrefl _ (List.rel_of_pairwise_cons hc hu)
      · exact g2 u hu

theorem filter_split (l : List Thr) (hc : l.Pairwise (fun a b => a.call < b.call)) (t : Thr) (ht : t ∈ l) :
    ∃ A B, l = A ++ t :: B ∧ l.filter (·.call != t.call) = A ++ B := by
  obtain ⟨A, B, rfl⟩ := List.append_of_mem ht
  refine ⟨A, B, rfl, ?_⟩
  rw [List.pairwise_append] at hc
  obtain ⟨-, h2, h3⟩ := hc
  rw [List.filter_append, List.filter_cons_of_neg (by simp)]
  congr 1
  · rw [List.filter_eq_self]
    intro a ha
    have := h3 a ha t (by simp)
    simp only [bne_iff_ne, ne_eq]; omega
  · rw [List.filter_eq_self]
    intro a ha
    have := List.rel_of_pairwise_cons h2 ha
    simp only [bne_iff_ne, ne_eq]; omega

/-- Removing a thread that is not the first one, or removing the first one and waking everybody. -/
theorem remove_inv (s : Sys) (h : Inv s) (t : Thr) (ht : t ∈ s.thr) (f : Thr → Thr) (hid : ∀ t, (f t).id = t.id)
    (hcall : ∀ t, (f t).call = t.call)
    (hst : ∀ u ∈ s.thr, u ≠ t → (f u).st ≠ .asleep ∨ s.thr.head? ≠ some t)
    (hf : ∀ u, ((f u).st = .owner → u.st = .owner) ∧ ((f u).st = .asleep → u.st = .asleep)) :
    Inv { s with ring := removeId s.ring t.id, thr := (s.thr.filter (·.call != t.call)).map f } := by
  have hc := h.calls
  have hids := h.ids
  have hlen := h.len
  obtain ⟨A, B, hs, hfil⟩ := filter_split s.thr hc t ht
  obtain ⟨L, h1, h2, h3, h4, h5, h6, h7⟩ := h
  have hA : t.id ∉ A.map (·.id) := by
    intro hm
    obtain ⟨a, ha, he⟩ := List.mem_map.mp hm
    rw [hs, List.pairwise_append] at hids
    exact hids.2.2 a ha t (by simp) he
  obtain ⟨r1, r2, r3⟩ := removeId_content s.ring t.id (A.map (·.id)) (B.map (·.id)) (by rw [h4, hs]; simp) hA (by omega)
  rw [hfil]
  -- split the ghost list
  have hsplit : ∃ LA LB u, L = LA ++ (t, u) :: LB ∧ LA.map (·.1) = A ∧ LB.map (·.1) = B := by
    rw [hs] at h1
    obtain ⟨LA, L2, hL, hLA, hL2⟩ := List.map_eq_append_iff.mp h1.symm
    obtain ⟨x, LB, hL2', hx, hLB⟩ := List.map_eq_cons_iff.mp hL2
    refine ⟨LA, LB, x.2, ?_, hLA, hLB⟩
    rw [hL, hL2', ← hx]
  obtain ⟨LA, LB, u, hL, hLA, hLB⟩ := hsplit
  refine ⟨(LA ++ LB).map (fun x => (f x.1, x.2)), ?_, ?_, ?_, ?_, r3 h5, ?_, ?_⟩
  · rw [← hLA, ← hLB]; simp [Function.comp_def]
  · rw [List.pairwise_map]
    have : (LA ++ LB).Pairwise Older := by
      rw [hL] at h2
      exact h2.sublist (List.Sublist.append (List.Sublist.refl _) (List.sublist_cons_self _ _))
    exact this.imp fun h => by unfold Older at *; simp only [hcall]; exact h
  · intro x hx
    obtain ⟨y, hy, rfl⟩ := List.mem_map.mp hx
    simp only [hid, hcall]
    apply h3
    rw [hL]
    rcases List.mem_append.mp hy with hy | hy <;> simp [hy]
  · simp only [r1, List.map_map]
    rw [show ((fun x : Thr => x.id) ∘ f) = (fun x => x.id) by funext z; simp [hid]]
    simp
  · have : s.thr.length = A.length + (B.length + 1) := by rw [hs]; simp
    simp only [List.length_map, List.length_append]; omega
  · intro t1 l1 htl
    simp only at htl
    cases A with
    | nil =>
      -- the first thread was removed
      simp only [List.nil_append] at htl hs
      cases B with
      | nil => simp at htl
      | cons b B =>
        simp only [List.map_cons, List.cons.injEq] at htl
        obtain ⟨rfl, rfl⟩ := htl
        obtain ⟨g1, g2⟩ := h7 _ _ hs
        have hb : b ∈ s.thr := by rw [hs]; simp
        constructor
        · rcases hst b hb (by
            rintro rfl
            rw [hs] at hc
            exact Nat.lt_irrefl _ (List.rel_of_pairwise_cons hc (by simp))) with hh | hh
          · exact hh
          · rw [hs] at hh; simp at hh
        · intro v hv
          obtain ⟨w, hw, rfl⟩ := List.mem_map.mp hv
          intro ho
          exact g2 w (by simp [hw]) ((hf w).1 ho)
    | cons a A =>
      simp only [List.cons_append, List.map_cons, List.cons.injEq] at htl hs
      obtain ⟨rfl, rfl⟩ := htl
      obtain ⟨g1, g2⟩ := h7 _ _ hs
      constructor
      · intro ho; exact g1 ((hf a).2 ho)
      · intro v hv
        obtain ⟨w, hw, rfl⟩ := List.mem_map.mp hv
        intro ho
        refine g2 w ?_ ((hf w).1 ho)
        rcases List.mem_append.mp hw with hw | hw <;> simp [hw]

end Verif.PsQueue
