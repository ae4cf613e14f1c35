import Verif.Model.SshRing

namespace Verif.SshRing

/-- The `next` pointers lead from `a` through `l` to `b`. -/
def Seg (m : Mem) : Nat → List Nat → Nat → Prop
  | a, [], b => nextOf m a = some (some b)
  | a, x :: l, b => nextOf m a = some (some x) ∧ Seg m x l b

theorem Seg_congr {m m' : Mem} : ∀ {a : Nat} {l : List Nat} {b : Nat}, (∀ x ∈ a :: l, nextOf m' x = nextOf m x) → Seg m a l b → Seg m' a l b
  | a, [], b, h, hs => by
    have := h a (by simp)
    simpa [Seg, this] using hs
  | a, x :: l, b, h, hs => by
    have := h a (by simp)
    exact ⟨by rw [this]; exact hs.1, Seg_congr (fun y hy => h y (List.mem_cons_of_mem _ hy)) hs.2⟩

theorem Seg_append {m : Mem} : ∀ {a : Nat} {l1 : List Nat} {t : Nat} {l2 : List Nat} {b : Nat}, Seg m a (l1 ++ t :: l2) b ↔ Seg m a l1 t ∧ Seg m t l2 b
  | a, [], t, l2, b => Iff.rfl
  | a, x :: l1, t, l2, b => by
    rw [List.cons_append]
    simp only [Seg]
    rw [Seg_append (a := x)]
    exact ⟨fun h => ⟨⟨h.1, h.2.1⟩, h.2.2⟩, fun h => ⟨h.1.1, h.1.2, h.2⟩⟩

/-- The allocated sessions form the ring `s :: l`. -/
structure Ring (m : Mem) (s : Nat) (l : List Nat) : Prop where
  nodup : (s :: l).Nodup
  alloc : ∀ x, (m x).isSome = true ↔ x ∈ s :: l
  single : l = [] → nextOf m s = some none
  many : l ≠ [] → Seg m s l s

theorem Ring.rotate {m : Mem} {s : Nat} {l : List Nat} (h : Ring m s l) {t : Nat} (ht : t ∈ s :: l) : ∃ l', Ring m t l' := by
  rw [List.mem_cons] at ht
  rcases ht with rfl | ht
  · exact ⟨l, h⟩
  · obtain ⟨l1, l2, rfl⟩ := List.append_of_mem ht
    have hs := Seg_append.mp (h.many (by simp))
    have hp : (t :: (l2 ++ s :: l1)).Perm (s :: (l1 ++ t :: l2)) := by
      have : (t :: (l2 ++ s :: l1)) = (t :: l2) ++ (s :: l1) := by simp
      rw [this]
      refine List.perm_append_comm.trans ?_
      simp
    refine ⟨l2 ++ s :: l1, hp.nodup_iff.mpr h.nodup, ?_, by simp, ?_⟩
    · intro x; rw [h.alloc x]; exact hp.symm.mem_iff
    · intro _
      exact Seg_append.mpr ⟨hs.2, hs.1⟩

theorem alloc_of {m : Mem} {a : Nat} (h : (m a).isSome = true) : ∃ st nx, m a = some ⟨st, nx⟩ := by
  cases hm : m a with
  | none => rw [hm] at h; cases h
  | some n => exact ⟨n.status, n.next, rfl⟩

theorem seg_head {m : Mem} {a : Nat} {l : List Nat} {b : Nat} (h : Seg m a l b) : ∃ st, m a = some ⟨st, some ((l ++ [b]).head (by simp))⟩ := by
  have : nextOf m a = some (some ((l ++ [b]).head (by simp))) := by
    cases l with
    | nil => exact h
    | cons x l => exact h.1
  unfold nextOf at this
  cases hm : m a with
  | none => rw [hm] at this; simp at this
  | some n =>
    rw [hm] at this
    simp only [Option.map_some, Option.some.injEq] at this
    exact ⟨n.status, by rw [← this]⟩

/-- Another session is there that is not starting. -/
def Busy (m : Mem) (l : List Nat) : Prop := ∃ x ∈ l, ∃ nx, m x = some ⟨.other, nx⟩

theorem scan_seg {m : Mem} {s : Nat} : ∀ {l : List Nat} {a fuel : Nat}, Seg m a l s → s ∉ a :: l → l.length + 2 ≤ fuel →
    ∃ r, scan m s fuel a = some r ∧ (r = true ↔ Busy m (a :: l))
  | [], a, fuel, h, hs, hf => by
    obtain ⟨st, hm⟩ := seg_head h
    match fuel, hf with
    | f + 2, _ =>
      have ha : a ≠ s := fun e => hs (by simp [e])
      simp only [scan, if_neg ha, hm]
      cases st with
      | starting =>
        refine ⟨false, by simp, ?_⟩
        simp [Busy, hm]
      | other => exact ⟨true, by simp, by simp [Busy, hm]⟩
  | x :: l, a, fuel, h, hs, hf => by
    obtain ⟨st, hm⟩ := seg_head h
    match fuel, hf with
    | f + 1, hf =>
      have ha : a ≠ s := fun e => hs (by simp [e])
      simp only [scan, if_neg ha, hm]
      cases st with
      | starting =>
        obtain ⟨r, h1, h2⟩ := scan_seg h.2 (fun e => hs (List.mem_cons_of_mem _ e)) (by simp at hf; omega : l.length + 2 ≤ f)
        refine ⟨r, by simpa using h1, ?_⟩
        rw [h2]
        constructor
        · rintro ⟨y, hy, nx, h3⟩; exact ⟨y, List.mem_cons_of_mem _ hy, nx, h3⟩
        · rintro ⟨y, hy, nx, h3⟩
          rw [List.mem_cons] at hy
          rcases hy with rfl | hy
          · rw [hm] at h3; cases h3
          · exact ⟨y, hy, nx, h3⟩
      | other => exact ⟨true, by simp, by simp only [true_iff]; exact ⟨a, by simp, _, hm⟩⟩

theorem findPrev_seg {m : Mem} {s : Nat} : ∀ {l : List Nat} {a fuel : Nat}, Seg m a l s → s ∉ l → l.length + 1 ≤ fuel →
    findPrev m s fuel a = some ((a :: l).getLast (by simp))
  | [], a, fuel, h, hs, hf => by
    obtain ⟨st, hm⟩ := seg_head h
    match fuel, hf with
    | f + 1, _ => simp [findPrev, hm]
  | x :: l, a, fuel, h, hs, hf => by
    obtain ⟨st, hm⟩ := seg_head h
    match fuel, hf with
    | f + 1, hf =>
      have hx : x ≠ s := fun e => hs (by simp [e])
      simp only [findPrev, hm, List.cons_append, List.head_cons, if_neg hx]
      rw [findPrev_seg h.2 (fun e => hs (List.mem_cons_of_mem _ e)) (by simp at hf; omega)]
      simp

theorem nextOf_upd_ne {m : Mem} {a b : Nat} {n : Option Node} (h : b ≠ a) : nextOf (upd m a n) b = nextOf m b := by
  simp [nextOf, upd, h]

theorem nextOf_upd_self {m : Mem} {a : Nat} {n : Node} : nextOf (upd m a (some n)) a = some n.next := by
  simp [nextOf, upd]

/-- Redirecting the last pointer. -/
theorem seg_redirect {m : Mem} {s b : Nat} {st : Status} : ∀ {l : List Nat} {a : Nat}, (a :: l).Nodup → Seg m a l s →
    Seg (upd m ((a :: l).getLast (by simp)) (some ⟨st, some b⟩)) a l b
  | [], a, _, _ => by simp [Seg, nextOf_upd_self]
  | x :: l, a, hn, h => by
    rw [List.nodup_cons] at hn
    have hl : (a :: x :: l).getLast (by simp) = (x :: l).getLast (by simp) := by simp
    have ha : a ≠ (x :: l).getLast (by simp) := fun e => hn.1 (by rw [e]; exact List.getLast_mem _)
    refine ⟨?_, ?_⟩
    · rw [hl, nextOf_upd_ne ha]; exact h.1
    · have := seg_redirect (b := b) (st := st) hn.2 h.2
      rw [hl]; exact this

theorem freeStarting_seg {s : Nat} : ∀ {l : List Nat} {a fuel : Nat} {m : Mem} {fr : List Nat} {st : Status}, (s :: a :: l).Nodup → m s = some ⟨st, some a⟩ → Seg m a l s → l.length + 1 ≤ fuel →
    ∃ m', freeStarting s fuel m fr = some (m', fr ++ a :: l) ∧ (∀ x ∈ a :: l, m' x = none) ∧ ∀ x, x ∉ s :: a :: l → m' x = m x
  | [], a, fuel, m, fr, st, hn, hs, h, hf => by
    obtain ⟨sta, hm⟩ := seg_head h
    match fuel, hf with
    | f + 1, _ =>
      refine ⟨upd (upd m s (some ⟨st, some s⟩)) a none, by simp only [freeStarting, hs, hm, List.nil_append, List.head_cons, ne_eq, not_true, if_false], ?_, ?_⟩
      · intro x hx; simp at hx; subst hx; simp [upd]
      · intro x hx; simp at hx; simp [upd, hx.1, hx.2]
  | b :: l, a, fuel, m, fr, st, hn, hs, h, hf => by
    obtain ⟨sta, hm⟩ := seg_head h
    match fuel, hf with
    | f + 1, hf =>
      have hbs : b ≠ s := by rintro rfl; simp at hn
      have hsa : a ≠ s := by rintro rfl; simp at hn
      have hn2 : (s :: b :: l).Nodup := by
        rw [List.nodup_cons] at hn ⊢
        exact ⟨fun e => hn.1 (List.mem_cons_of_mem _ e), (List.nodup_cons.mp hn.2).2⟩
      have hal : a ∉ b :: l := (List.nodup_cons.mp (List.nodup_cons.mp hn).2).1
      have hsl : s ∉ b :: l := (List.nodup_cons.mp hn2).1
      obtain ⟨m', h1, h2, h3⟩ := freeStarting_seg (m := upd (upd m s (some ⟨st, some b⟩)) a none) (fr := fr ++ [a]) (st := st) (fuel := f) hn2
        (by simp [upd]; exact fun e => hsa e.symm) (Seg_congr (fun x hx => by
          rw [nextOf_upd_ne (fun e => hal (by rw [← e]; exact hx)), nextOf_upd_ne (fun e => hsl (by rw [← e]; exact hx))]) h.2) (by simp at hf; omega)
      refine ⟨m', ?_, ?_, ?_⟩
      · simp only [freeStarting, hs, hm, List.cons_append, List.head_cons]
        rw [if_pos hbs, h1]
        simp
      · intro x hx
        rw [List.mem_cons] at hx
        rcases hx with rfl | hx
        · rw [h3 x (by simp at hal ⊢; exact ⟨hsa, hal⟩)]; simp [upd]
        · exact h2 x hx
      · intro x hx
        simp only [List.mem_cons, not_or] at hx
        rw [h3 x (by simp; exact ⟨hx.1, hx.2.2.1, hx.2.2.2⟩)]
        simp [upd, hx.1, hx.2.1]

end Verif.SshRing
