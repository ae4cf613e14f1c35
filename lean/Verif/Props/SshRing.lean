import Verif.Lemmas.SshRing

/-!
# Properties of sessions sharing an SSH connection (C35, C84)
-/

namespace Verif.Props
open Verif.SshRing

/-! ## What should happen -/

/-- The sessions of a connection that exist, with their states. -/
abbrev Live := List (Nat × Status)

/-- The effect of an operation: freeing a session leaves the others, unless all of them are still starting; then all are freed with the connection. -/
def liveStep (a : Live) : Op → Live
  | .insert _ new => (new, .starting) :: a
  | .setStatus s st => a.map fun x => if x.1 = s then (s, st) else x
  | .free s => let rest := a.filter (·.1 ≠ s)
    if rest.any (·.2 ≠ .starting) then rest else []

/-- The sessions created by a sequence of operations. -/
def created (os : List Op) : List Nat := 0 :: os.filterMap fun o => match o with | .insert _ new => some new | _ => none

/-- Operations are called with existing sessions, and new sessions are new. -/
def Valid : List Op → Live → List Nat → Prop
  | [], _, _ => True
  | o :: os, a, used =>
    (match o with
      | .insert s new => (∃ st, (s, st) ∈ a) ∧ new ∉ used
      | .setStatus s _ => ∃ st, (s, st) ∈ a
      | .free s => ∃ st, (s, st) ∈ a) ∧
    Valid os (liveStep a o) (match o with | .insert _ new => new :: used | _ => used)

/-- Following `next` pointers. -/
def follow (m : Mem) : Nat → Nat → Option Nat
  | 0, a => some a
  | k + 1, a => match m a with
    | none => none
    | some n => match n.next with
      | none => none
      | some b => follow m k b

/-! ## The proof -/

/-- The connection agrees with the sessions that should exist. -/
structure Agrees (c : Conn) (a : Live) (used : List Nat) : Prop where
  ids : (a.map (·.1)).Nodup
  mem : ∀ x st, (x, st) ∈ a ↔ ∃ nx, c.mem x = some ⟨st, nx⟩
  ring : a ≠ [] → ∃ s l, Ring c.mem s l
  closed : c.closed = if a = [] then 1 else 0
  freed : c.freed.Nodup
  freedIff : ∀ x, x ∈ c.freed ↔ x ∈ used ∧ c.mem x = none
  usedAll : ∀ x, c.mem x ≠ none → x ∈ used
  size : a.length ≤ used.length

theorem ring_length {c : Conn} {a : Live} {used : List Nat} (h : Agrees c a used) {s : Nat} {l : List Nat} (hr : Ring c.mem s l) : (s :: l).length = a.length := by
  have hp : (s :: l).Perm (a.map (·.1)) := by
    rw [List.perm_ext_iff_of_nodup hr.nodup h.ids]
    intro x
    rw [← hr.alloc x]
    constructor
    · intro hx
      obtain ⟨st, nx, hx⟩ := alloc_of hx
      exact List.mem_map.mpr ⟨(x, st), (h.mem x st).mpr ⟨nx, hx⟩, rfl⟩
    · intro hx
      obtain ⟨⟨y, st⟩, hy, rfl⟩ := List.mem_map.mp hx
      obtain ⟨nx, hy⟩ := (h.mem y st).mp hy
      simp [hy]
  simpa using hp.length_eq

theorem agrees_insert {c : Conn} {a : Live} {used : List Nat} (h : Agrees c a used) {s new : Nat} (hs : ∃ st, (s, st) ∈ a) (hnew : new ∉ used) :
    ∃ c', SshRing.insert s new c = some c' ∧ Agrees c' ((new, .starting) :: a) (new :: used) := by
  obtain ⟨st, hs⟩ := hs
  obtain ⟨nx, hm⟩ := (h.mem s st).mp hs
  have hnone : c.mem new = none := by
    cases hc : c.mem new with
    | none => rfl
    | some n => exact absurd (h.usedAll new (by simp [hc])) hnew
  have hne : s ≠ new := by rintro rfl; rw [hm] at hnone; cases hnone
  obtain ⟨s0, l0, hr0⟩ := h.ring (by intro e; rw [e] at hs; cases hs)
  obtain ⟨l, hr⟩ := hr0.rotate (t := s) ((hr0.alloc s).mp (by simp [hm]))
  simp only [SshRing.insert, hm]
  refine ⟨_, rfl, ?_⟩
  have hnl : new ∉ s :: l := fun e => by have := (hr.alloc new).mpr e; simp [hnone] at this
  constructor
  · simp only [List.map_cons, List.nodup_cons]
    refine ⟨?_, h.ids⟩
    intro e
    obtain ⟨⟨y, st'⟩, hy, rfl⟩ := List.mem_map.mp e
    obtain ⟨nx', hy⟩ := (h.mem y st').mp hy
    rw [hnone] at hy; cases hy
  · intro x st'
    simp only [List.mem_cons, Prod.mk.injEq, upd]
    by_cases hx : x = new
    · subst hx
      have : (x, st') ∉ a := fun e => by obtain ⟨n, hn⟩ := (h.mem x st').mp e; rw [hnone] at hn; cases hn
      simp [this, eq_comm]
    · simp only [hx, false_and, false_or, if_false]
      by_cases hxs : x = s
      · subst hxs
        rw [h.mem, hm]
        simp
      · simp only [hxs, if_false]; exact h.mem x st'
  · intro _
    refine ⟨s, new :: l, ?_, ?_, by simp, ?_⟩
    · have := hr.nodup
      rw [List.nodup_cons] at this
      simp only [List.mem_cons, not_or] at hnl
      simp only [List.nodup_cons, List.mem_cons, not_or]
      exact ⟨⟨hne, this.1⟩, hnl.2, this.2⟩
    · intro x
      have := hr.alloc x
      simp only [upd, List.mem_cons] at this ⊢
      by_cases hx : x = new
      · simp [hx]
      · by_cases hxs : x = s
        · subst hxs; simp [hx]
        · simp [hx, hxs] at this ⊢; exact this
    · intro _
      refine ⟨?_, ?_⟩
      · rw [nextOf_upd_ne hne, nextOf_upd_self]
      · cases l with
        | nil =>
          have : nx = none := by have := hr.single rfl; simpa [nextOf, hm] using this
          subst this
          simp [Seg, nextOf_upd_self]
        | cons b l =>
          have hb := hr.many (by simp)
          have : nx = some b := by have := hb.1; simpa [nextOf, hm] using this
          subst this
          refine ⟨by rw [nextOf_upd_self], Seg_congr ?_ hb.2⟩
          intro x hx
          have h1 : x ≠ new := fun e => hnl (List.mem_cons_of_mem _ (by rw [← e]; exact hx))
          have h2 : x ≠ s := fun e => (List.nodup_cons.mp hr.nodup).1 (by rw [← e]; exact hx)
          rw [nextOf_upd_ne h1, nextOf_upd_ne h2]
  · have := h.closed
    have ha : a ≠ [] := by intro e; rw [e] at hs; cases hs
    simpa [ha] using this
  · exact h.freed
  · intro x
    show x ∈ c.freed ↔ _
    rw [h.freedIff]
    simp only [upd, List.mem_cons]
    by_cases hx : x = new
    · subst hx; simp [hnew]
    · by_cases hxs : x = s
      · subst hxs; simp [hx, hm]
      · simp [hx, hxs]
  · intro x hx
    simp only [upd] at hx
    by_cases hxn : x = new
    · simp [hxn]
    · rw [if_neg hxn] at hx
      by_cases hxs : x = s
      · subst hxs; exact List.mem_cons_of_mem _ (h.usedAll x (by simp [hm]))
      · rw [if_neg hxs] at hx; exact List.mem_cons_of_mem _ (h.usedAll x hx)
  · simpa using h.size

theorem agrees_setStatus {c : Conn} {a : Live} {used : List Nat} (h : Agrees c a used) {s : Nat} (st' : Status) (hs : ∃ st, (s, st) ∈ a) :
    ∃ c', setStatus s st' c = some c' ∧ Agrees c' (a.map fun x => if x.1 = s then (s, st') else x) used := by
  obtain ⟨st, hs⟩ := hs
  obtain ⟨nx, hm⟩ := (h.mem s st).mp hs
  simp only [setStatus, hm]
  refine ⟨_, rfl, ?_⟩
  have hids : (a.map fun x => if x.1 = s then (s, st') else x).map (·.1) = a.map (·.1) := by
    rw [List.map_map]
    apply List.map_congr_left
    intro x _
    simp only [Function.comp]
    split <;> simp_all
  have hnext : ∀ x, nextOf (upd c.mem s (some ⟨st', nx⟩)) x = nextOf c.mem x := by
    intro x
    by_cases hx : x = s
    · subst hx; simp [nextOf, upd, hm]
    · exact nextOf_upd_ne hx
  have hsome : ∀ x, ((upd c.mem s (some ⟨st', nx⟩)) x).isSome = (c.mem x).isSome := by
    intro x
    by_cases hx : x = s
    · subst hx; simp [upd, hm]
    · simp [upd, hx]
  constructor
  · rw [hids]; exact h.ids
  · intro x stx
    simp only [List.mem_map, upd]
    by_cases hx : x = s
    · subst hx
      simp only [if_true, Option.some.injEq, Node.mk.injEq]
      constructor
      · rintro ⟨⟨y, sty⟩, hy, he⟩
        split at he
        · cases he; exact ⟨nx, rfl, rfl⟩
        · rename_i hne
          cases he; exact absurd rfl hne
      · rintro ⟨_, rfl, _⟩
        exact ⟨(x, st), hs, by simp⟩
    · rw [if_neg hx, ← h.mem x stx]
      constructor
      · rintro ⟨⟨y, sty⟩, hy, he⟩
        split at he
        · cases he; exact absurd rfl hx
        · cases he; exact hy
      · intro hy
        exact ⟨(x, stx), hy, by simp [hx]⟩
  · intro _
    obtain ⟨s0, l0, hr⟩ := h.ring (by intro e; rw [e] at hs; cases hs)
    exact ⟨s0, l0, hr.nodup, fun x => by rw [← hr.alloc x]; exact iff_of_eq (congrArg (· = true) (hsome x)), fun e => by rw [← hr.single e]; exact hnext s0, fun e => Seg_congr (fun x _ => hnext x) (hr.many e)⟩
  · have ha : a ≠ [] := by intro e; rw [e] at hs; cases hs
    have := h.closed
    simpa [ha] using this
  · exact h.freed
  · intro x
    show x ∈ c.freed ↔ _
    rw [h.freedIff]
    have := hsome x
    simp only [← Option.not_isSome_iff_eq_none]
    rw [this]
  · intro x hx
    apply h.usedAll x
    have := hsome x
    intro e
    rw [e] at this
    exact hx (by simpa using this)
  · simpa using h.size

theorem agrees_free {c : Conn} {a : Live} {used : List Nat} (h : Agrees c a used) {s fuel : Nat} (hs : ∃ st, (s, st) ∈ a) (hf : a.length + 1 ≤ fuel) :
    ∃ c', free fuel s c = some c' ∧ c'.locked = c.locked ∧ Agrees c' (liveStep a (.free s)) used := by
  obtain ⟨st, hs⟩ := hs
  obtain ⟨nx, hm⟩ := (h.mem s st).mp hs
  have ha : a ≠ [] := by intro e; rw [e] at hs; cases hs
  obtain ⟨s0, l0, hr0⟩ := h.ring ha
  obtain ⟨l, hr⟩ := hr0.rotate (t := s) ((hr0.alloc s).mp (by simp [hm]))
  have hlen := ring_length h hr
  have hclosed : c.closed = 0 := by simpa [ha] using h.closed
  have hsu : s ∈ used := h.usedAll s (by simp [hm])
  have hsf : s ∉ c.freed := fun e => by have := ((h.freedIff s).mp e).2; rw [hm] at this; cases this
  -- what is left is busy exactly if the filtered list has a session that is not starting
  have hbusy : (a.filter (·.1 ≠ s)).any (·.2 ≠ .starting) = true ↔ Busy c.mem l := by
    rw [List.any_eq_true]
    constructor
    · rintro ⟨⟨x, stx⟩, hx, hst⟩
      rw [List.mem_filter] at hx
      have hxs : x ≠ s := by simpa using hx.2
      obtain ⟨nx', hx'⟩ := (h.mem x stx).mp hx.1
      have : x ∈ s :: l := (hr.alloc x).mp (by simp [hx'])
      refine ⟨x, ?_, nx', ?_⟩
      · simpa [hxs] using this
      · have : stx = .other := by cases stx <;> simp_all
        rw [← this]; exact hx'
    · rintro ⟨x, hx, nx', hx'⟩
      refine ⟨(x, .other), ?_, by simp⟩
      rw [List.mem_filter]
      refine ⟨(h.mem x .other).mpr ⟨nx', hx'⟩, ?_⟩
      have : x ≠ s := fun e => (List.nodup_cons.mp hr.nodup).1 (by rw [← e]; exact hx)
      simpa using this
  -- the connection is closed and everything freed
  have finish : ∀ m' : Mem, (∀ x, m' x = none) → ∀ fr, fr.Perm (s :: l) → ¬ Busy c.mem l →
      Agrees { c with mem := m', closed := c.closed + 1, freed := c.freed ++ fr } (liveStep a (.free s)) used := by
    intro m' hm' fr hfr hnb
    have hl : liveStep a (.free s) = [] := by
      simp only [liveStep]
      rw [if_neg (fun e => hnb (hbusy.mp e))]
    rw [hl]
    constructor
    · simp
    · intro x stx; simp [hm']
    · intro e; exact absurd rfl e
    · simp [hclosed]
    · rw [List.nodup_append]
      refine ⟨h.freed, hfr.nodup_iff.mpr hr.nodup, ?_⟩
      rintro x hx y hy rfl
      have h1 := ((h.freedIff x).mp hx).2
      have h2 := (hr.alloc x).mpr (hfr.mem_iff.mp hy)
      rw [h1] at h2; cases h2
    · intro x
      show x ∈ c.freed ++ fr ↔ _
      rw [List.mem_append, h.freedIff, hfr.mem_iff, ← hr.alloc x]
      simp only [hm', and_true]
      constructor
      · rintro (h1 | h1)
        · exact h1.1
        · exact h.usedAll x (by intro e; rw [e] at h1; cases h1)
      · intro h1
        cases hc : c.mem x with
        | none => exact Or.inl ⟨h1, rfl⟩
        | some n => right; rfl
    · intro x hx; exact absurd (hm' x) hx
    · simp
  cases l with
  | nil =>
    have : nx = none := by have := hr.single rfl; simpa [nextOf, hm] using this
    subst this
    simp only [free, hm]
    refine ⟨_, rfl, rfl, finish _ ?_ [s] (List.Perm.refl _) (by rintro ⟨x, hx, _⟩; cases hx)⟩
    intro x
    by_cases hx : x = s
    · simp [upd, hx]
    · simp only [upd, if_neg hx]
      cases hc : c.mem x with
      | none => rfl
      | some n => have := (hr.alloc x).mp (by simp [hc]); simp [hx] at this
  | cons b l =>
    have hseg := hr.many (by simp)
    have : nx = some b := by have := hseg.1; simpa [nextOf, hm] using this
    subst this
    have hnd := hr.nodup
    have hsl : s ∉ b :: l := (List.nodup_cons.mp hnd).1
    have hnd2 : (b :: l).Nodup := (List.nodup_cons.mp hnd).2
    have hfl : l.length + 2 ≤ fuel := by simp at hlen; omega
    obtain ⟨r, hscan, hr2⟩ := scan_seg hseg.2 hsl hfl
    simp only [free, hm, hscan]
    cases r with
    | false =>
      have hnb : ¬ Busy c.mem (b :: l) := fun e => by simpa using hr2.mpr e
      obtain ⟨m', h1, h2, h3⟩ := freeStarting_seg (fr := c.freed) hnd hm hseg.2 (by omega : l.length + 1 ≤ fuel)
      simp only [h1]
      refine ⟨_, rfl, rfl, ?_⟩
      have := finish (upd m' s none) ?_ ((b :: l) ++ [s]) (List.perm_append_singleton _ _) hnb
      · simpa [List.append_assoc] using this
      · intro x
        by_cases hx : x = s
        · simp [upd, hx]
        · simp only [upd, if_neg hx]
          by_cases hxl : x ∈ b :: l
          · exact h2 x hxl
          · have hxn : x ∉ s :: b :: l := by simp only [List.mem_cons, not_or] at hxl ⊢; exact ⟨hx, hxl⟩
            rw [h3 x hxn]
            cases hc : c.mem x with
            | none => rfl
            | some n => exact absurd ((hr.alloc x).mp (by simp [hc])) hxn
    | true =>
      have hb : Busy c.mem (b :: l) := hr2.mp rfl
      have hprev := findPrev_seg hseg.2 (fun e => hsl (List.mem_cons_of_mem _ e)) (by omega : l.length + 1 ≤ fuel)
      generalize hp : (b :: l).getLast (by simp) = p at hprev
      have hpm : p ∈ b :: l := by rw [← hp]; exact List.getLast_mem _
      obtain ⟨pst, pnx, hpn⟩ := alloc_of ((hr.alloc p).mpr (List.mem_cons_of_mem _ hpm))
      have hps : p ≠ s := fun e => hsl (by rw [← e]; exact hpm)
      simp only [hprev, hpn]
      refine ⟨_, rfl, rfl, ?_⟩
      have hl : liveStep a (.free s) = a.filter (·.1 ≠ s) := by
        simp only [liveStep]
        rw [if_pos (hbusy.mpr hb)]
      rw [hl]
      have hstat : ∀ x, x ≠ s → ∀ stx, (∃ n, (upd (upd c.mem p (some ⟨pst, if b = p then none else some b⟩)) s none) x = some ⟨stx, n⟩) ↔ ∃ n, c.mem x = some ⟨stx, n⟩ := by
        intro x hx stx
        simp only [upd, if_neg hx]
        by_cases hxp : x = p
        · subst hxp; simp [hpn]
        · simp [hxp]
      have hisSome : ∀ x, ((upd (upd c.mem p (some ⟨pst, if b = p then none else some b⟩)) s none) x).isSome = true ↔ x ≠ s ∧ (c.mem x).isSome = true := by
        intro x
        by_cases hx : x = s
        · subst hx; simp [upd]
        · simp only [upd, if_neg hx]
          by_cases hxp : x = p
          · subst hxp; simp [hpn, hx]
          · simp [hxp, hx]
      constructor
      · exact List.Sublist.nodup (List.filter_sublist.map _) h.ids
      · intro x stx
        rw [List.mem_filter]
        by_cases hx : x = s
        · subst hx; simp [upd]
        · simp only [hstat x hx stx, ← h.mem x stx]
          simp [hx]
      · intro _
        refine ⟨b, l, hnd2, ?_, ?_, ?_⟩
        · intro x
          rw [hisSome, hr.alloc x]
          simp only [List.mem_cons, ne_eq]
          constructor
          · rintro ⟨h1, h2 | h2⟩
            · exact absurd h2 h1
            · exact h2
          · intro h2
            exact ⟨fun e => hsl (by rw [← e]; simpa using h2), Or.inr h2⟩
        · intro e
          subst e
          have : b = p := by simpa using hp
          subst this
          rw [nextOf_upd_ne hps, nextOf_upd_self]
          simp
        · intro e
          have hbp : b ≠ p := by
            intro e2
            have hlast : (b :: l).getLast (by simp) = l.getLast e := List.getLast_cons e
            rw [hp] at hlast
            exact (List.nodup_cons.mp hnd2).1 (by rw [e2, hlast]; exact List.getLast_mem _)
          have := seg_redirect (b := b) (st := pst) hnd2 hseg.2
          rw [hp] at this
          simp only [hbp, if_false]
          refine Seg_congr ?_ this
          intro x hx
          exact nextOf_upd_ne (fun e => hsl (by rw [← e]; exact hx))
      · have hne : a.filter (·.1 ≠ s) ≠ [] := by
          intro e
          have := hbusy.mpr hb
          rw [e] at this; simp at this
        simp only [hne, if_false]
        exact hclosed
      · rw [List.nodup_append]
        refine ⟨h.freed, by simp, ?_⟩
        rintro x hx y hy rfl
        simp at hy; subst hy
        exact hsf hx
      · intro x
        show x ∈ c.freed ++ [s] ↔ _
        have h1 := hisSome x
        rw [List.mem_append, h.freedIff]
        simp only [← Option.not_isSome_iff_eq_none]
        rw [h1]
        simp only [List.mem_cons, List.not_mem_nil, or_false]
        by_cases hx : x = s
        · subst hx; simp [hsu]
        · simp [hx]
      · intro x hx
        have : ((upd (upd c.mem p (some ⟨pst, if b = p then none else some b⟩)) s none) x).isSome = true := by
          rw [Option.isSome_iff_ne_none]; exact hx
        have := ((hisSome x).mp this).2
        exact h.usedAll x (by intro e; rw [e] at this; cases this)
      · exact Nat.le_trans (List.length_filter_le _ _) h.size

theorem ring_run (os : List Op) : ∀ (c : Conn) (a : Live) (used : List Nat) (fuel : Nat), Agrees c a used → Valid os a used → used.length + os.length + 1 ≤ fuel →
    ∃ c', run fuel os c = some c' ∧ Agrees c' (os.foldl liveStep a) (os.foldl (fun u o => match o with | .insert _ new => new :: u | _ => u) used) := by
  induction os with
  | nil => intro c a used fuel h _ _; exact ⟨c, rfl, h⟩
  | cons o os ih =>
    intro c a used fuel h hv hf
    obtain ⟨h1, h2⟩ := hv
    have hsz := h.size
    simp only [List.length_cons] at hf
    cases o with
    | insert s new =>
      obtain ⟨c', e, ha⟩ := agrees_insert h h1.1 h1.2
      obtain ⟨c2, e2, ha2⟩ := ih c' _ _ fuel ha h2 (by simp; omega)
      exact ⟨c2, by simp only [run, step, e, e2], ha2⟩
    | setStatus s st =>
      obtain ⟨c', e, ha⟩ := agrees_setStatus h st h1
      obtain ⟨c2, e2, ha2⟩ := ih c' _ _ fuel ha h2 (by omega)
      exact ⟨c2, by simp only [run, step, e, e2], ha2⟩
    | free s =>
      obtain ⟨c', e, -, ha⟩ := agrees_free h (fuel := fuel) h1 (by omega)
      obtain ⟨c2, e2, ha2⟩ := ih c' _ _ fuel ha h2 (by omega)
      exact ⟨c2, by simp only [run, step, e, e2], ha2⟩

theorem agrees_init : Agrees init [(0, .starting)] [0] := by
  constructor
  · simp
  · intro x st
    simp only [init, upd]
    by_cases hx : x = 0
    · simp [hx, eq_comm]
    · simp [hx]
  · intro _
    refine ⟨0, [], by simp, ?_, ?_, by simp⟩
    · intro x; simp only [init, upd]; by_cases hx : x = 0 <;> simp [hx]
    · intro _; simp [nextOf, init, upd]
  · simp [init]
  · simp [init]
  · intro x
    simp only [init, upd]; by_cases hx : x = 0 <;> simp [hx]
  · intro x hx
    simp only [init, upd] at hx
    by_cases h : x = 0
    · simp [h]
    · simp [h] at hx
  · simp

theorem follow_seg {m : Mem} : ∀ {l : List Nat} {a b : Nat}, Seg m a l b → ∀ x ∈ a :: l, ∃ k, follow m k a = some x
  | [], a, b, _, x, hx => by simp at hx; subst hx; exact ⟨0, rfl⟩
  | y :: l, a, b, h, x, hx => by
    rw [List.mem_cons] at hx
    rcases hx with rfl | hx
    · exact ⟨0, rfl⟩
    · obtain ⟨k, hk⟩ := follow_seg h.2 x hx
      obtain ⟨st, hm⟩ := seg_head h
      exact ⟨k + 1, by simpa [follow, hm] using hk⟩

theorem step_locked {fuel : Nat} {c c' : Conn} {o : Op} (h : step fuel c o = some c') : c'.locked = c.locked := by
  cases o with
  | insert s new =>
    simp only [step, SshRing.insert] at h
    split at h <;> cases h; rfl
  | setStatus s st =>
    simp only [step, setStatus] at h
    split at h <;> cases h; rfl
  | free s =>
    simp only [step, free] at h
    repeat' split at h
    all_goals first | (cases h; done) | (cases h; rfl)

theorem run_locked {fuel : Nat} : ∀ (os : List Op) (c c' : Conn), run fuel os c = some c' → c'.locked = c.locked
  | [], c, c', h => by cases h; rfl
  | o :: os, c, c', h => by
    simp only [run] at h
    split at h
    · cases h
    · rename_i c1 h1
      rw [run_locked os c1 c' h, step_locked h1]

/-- C35: for every sequence of new channels, accepted channels and freed sessions on a connection: nothing freed is touched and nothing is freed twice; exactly the sessions remain that should;
each of them leads to all others by its pointers; the connection is closed exactly if none remains, that is, when the last accepted one was freed, and then all unaccepted ones are freed.
Messages can be sent and received on all that remain, and on no others. -/
theorem ssh_ring (os : List Op) (hv : Valid os [(0, .starting)] [0]) (fuel : Nat) (hf : os.length + 2 ≤ fuel) :
    ∃ c, run fuel os init = some c ∧
      (∀ x st, (x, st) ∈ os.foldl liveStep [(0, .starting)] ↔ ∃ nx, c.mem x = some ⟨st, nx⟩) ∧
      (∀ x y, c.mem x ≠ none → c.mem y ≠ none → ∃ k, follow c.mem k x = some y) ∧
      c.closed = (if os.foldl liveStep [(0, .starting)] = [] then 1 else 0) ∧
      c.freed.Nodup ∧ (∀ x, x ∈ c.freed ↔ x ∈ created os ∧ ∀ st, (x, st) ∉ os.foldl liveStep [(0, .starting)]) ∧
      ∀ x, usable c x = true ↔ ∃ st, (x, st) ∈ os.foldl liveStep [(0, .starting)] := by
  obtain ⟨c, hc, h⟩ := ring_run os init _ _ fuel agrees_init hv (by simp; omega)
  refine ⟨c, hc, h.mem, ?_, h.closed, h.freed, ?_, fun x => ?_⟩
  · intro x y hx hy
    have hne : os.foldl liveStep [(0, .starting)] ≠ [] := by
      intro e
      obtain ⟨st, nx, hx⟩ := alloc_of (Option.isSome_iff_ne_none.mpr hx)
      have := (h.mem x st).mpr ⟨nx, hx⟩
      rw [e] at this; cases this
    obtain ⟨s, l, hr⟩ := h.ring hne
    obtain ⟨l', hr'⟩ := hr.rotate ((hr.alloc x).mp (Option.isSome_iff_ne_none.mpr hx))
    have hyl := (hr'.alloc y).mp (Option.isSome_iff_ne_none.mpr hy)
    cases l' with
    | nil => simp at hyl; subst hyl; exact ⟨0, rfl⟩
    | cons b l' => exact follow_seg (hr'.many (by simp)) y hyl
  · intro x
    rw [h.freedIff]
    have hused : ∀ (os : List Op) (u : List Nat), x ∈ os.foldl (fun u o => match o with | .insert _ new => new :: u | _ => u) u ↔
        x ∈ u ∨ x ∈ os.filterMap (fun o => match o with | .insert _ new => some new | _ => none) := by
      intro os
      induction os with
      | nil => intro u; simp
      | cons o os ih =>
        intro u
        rw [List.foldl_cons, ih]
        cases o <;> simp [or_assoc, or_left_comm]
    rw [hused]
    have hnone : c.mem x = none ↔ ∀ st, (x, st) ∉ os.foldl liveStep [(0, .starting)] := by
      constructor
      · intro e st hst
        obtain ⟨nx, h1⟩ := (h.mem x st).mp hst
        rw [e] at h1; cases h1
      · intro hst
        cases hc : c.mem x with
        | none => rfl
        | some n => exact absurd ((h.mem x n.status).mpr ⟨n.next, hc⟩) (hst n.status)
    rw [hnone]
    simp [created]
  · have hl : c.locked = false := run_locked os init c hc
    constructor
    · intro hu
      simp only [usable, Bool.and_eq_true] at hu
      obtain ⟨st, nx, hx⟩ := alloc_of hu.1
      exact ⟨st, (h.mem x st).mpr ⟨nx, hx⟩⟩
    · rintro ⟨st, hx⟩
      obtain ⟨nx, hm⟩ := (h.mem x st).mp hx
      simp [usable, hm, hl]

/-- Three sessions; the second one is never accepted; the first one is freed, then the third one, which closes the connection and frees the second one too. -/
example : Valid [.setStatus 0 .other, .insert 0 1, .insert 0 2, .setStatus 2 .other, .free 0, .free 2] [(0, .starting)] [0] := by
  simp [Valid, liveStep]
example : ((run 9 [.setStatus 0 .other, .insert 0 1, .insert 0 2, .setStatus 2 .other, .free 0] init).map fun c => (c.mem 1, c.mem 2, c.closed, c.freed)) =
    some (some ⟨.starting, some 2⟩, some ⟨.other, some 1⟩, 0, [0]) ∧
  ((run 9 [.setStatus 0 .other, .insert 0 1, .insert 0 2, .setStatus 2 .other, .free 0, .free 2] init).map fun c => (c.closed, c.freed)) = some (1, [0, 1, 2]) := by
  decide +kernel

/-! ## C84: opening another channel -/

/-- C84: if another channel of a usable connection is opened but anything after it fails, or nothing fails, the original session stays usable, and after a failure the new session is gone.
Missing: failing to open the channel or its subsystem (`new_channel_false`). -/
theorem new_channel_partial (c : Conn) (a : Live) (used : List Nat) (h : Agrees c a used) (e : ChanEnv) (s new fuel : Nat) (hs : (s, .other) ∈ a) (hnew : new ∉ used) (hl : c.locked = false)
    (ho : e.opened = true) (hf : a.length + 2 ≤ fuel) :
    (∃ c', connectChannel fuel e s new c = some (.session c') ∧ usable c' s = true ∧ usable c' new = true ∧ e.ctx = true ∧ e.hello = true ∧ e.filled = true) ∨
    (∃ c', connectChannel fuel e s new c = some (.null c') ∧ usable c' s = true ∧ c'.mem new = none ∧ c'.closed = 0 ∧ (e.ctx && e.hello && e.filled) = false) := by
  obtain ⟨c1, h1, ha1⟩ := agrees_insert h ⟨_, hs⟩ hnew
  have hl1 : c1.locked = false := by
    obtain ⟨nx, hm⟩ := (h.mem s _).mp hs
    simp only [SshRing.insert, hm, Option.some.injEq] at h1
    subst h1; exact hl
  have hsn : s ≠ new := by
    rintro rfl
    obtain ⟨nx, hm⟩ := (h.mem s _).mp hs
    exact hnew (h.usedAll s (by simp [hm]))
  have hc1 : { ({ c1 with locked := true } : Conn) with locked := false } = c1 := by
    cases c1; simp at hl1; subst hl1; rfl
  -- freeing the new session
  have hfree : ∀ (c2 : Conn) (a2 : Live), Agrees c2 a2 (new :: used) → c2.locked = false → (s, .other) ∈ a2 → (∃ st, (new, st) ∈ a2) → a2.length + 1 ≤ fuel →
      ∃ c', free fuel new c2 = some c' ∧ usable c' s = true ∧ c'.mem new = none ∧ c'.closed = 0 := by
    intro c2 a2 h2 hl2 hs2 hn2 hf2
    obtain ⟨c', e1, e2, h3⟩ := agrees_free h2 hn2 hf2
    have hany : (a2.filter (·.1 ≠ new)).any (·.2 ≠ .starting) = true := by
      rw [List.any_eq_true]
      exact ⟨(s, .other), by rw [List.mem_filter]; exact ⟨hs2, by simpa using hsn⟩, by simp⟩
    have hls : liveStep a2 (.free new) = a2.filter (·.1 ≠ new) := by simp only [liveStep]; rw [if_pos hany]
    rw [hls] at h3
    refine ⟨c', e1, ?_, ?_, ?_⟩
    · obtain ⟨nx, hm⟩ := (h3.mem s .other).mp (by rw [List.mem_filter]; exact ⟨hs2, by simpa using hsn⟩)
      simp [usable, hm, e2, hl2]
    · cases hc : c'.mem new with
      | none => rfl
      | some n =>
        have := (h3.mem new n.status).mpr ⟨n.next, hc⟩
        rw [List.mem_filter] at this
        simp at this
    · have := h3.closed
      have hne : a2.filter (·.1 ≠ new) ≠ [] := by intro e; rw [e] at hany; simp at hany
      rwa [if_neg hne] at this
  simp only [connectChannel, h1, hl1, ho, hc1]
  simp only [Bool.false_eq_true, if_false, Bool.not_true]
  obtain ⟨cf, f1, f2, f3, f4⟩ := hfree c1 _ ha1 hl1 (List.mem_cons_of_mem _ hs) ⟨.starting, by simp⟩ (by simp; omega)
  cases hctx : e.ctx with
  | false => right; exact ⟨cf, by simp [f1], f2, f3, f4, by simp⟩
  | true =>
    cases hhello : e.hello with
    | false => right; exact ⟨cf, by simp [f1], f2, f3, f4, by simp⟩
    | true =>
      obtain ⟨c4, h4, ha4⟩ := agrees_setStatus ha1 .other ⟨.starting, List.mem_cons_self⟩
      have hl4 : c4.locked = false := by
        have : ∃ n, c1.mem new = some n := by
          obtain ⟨nx, hm⟩ := (ha1.mem new .starting).mp List.mem_cons_self
          exact ⟨_, hm⟩
        obtain ⟨⟨n1, n2⟩, hm⟩ := this
        simp only [setStatus, hm, Option.some.injEq] at h4
        subst h4; exact hl1
      have hs4 : (s, Status.other) ∈ (((new, Status.starting) :: a).map fun x => if x.1 = new then (new, Status.other) else x) :=
        List.mem_map.mpr ⟨(s, .other), List.mem_cons_of_mem _ hs, by simp [hsn]⟩
      have hn4 : (new, Status.other) ∈ (((new, Status.starting) :: a).map fun x => if x.1 = new then (new, Status.other) else x) :=
        List.mem_map.mpr ⟨(new, .starting), List.mem_cons_self, by simp⟩
      simp only [Bool.not_true, Bool.false_eq_true, if_false, h4]
      cases hfill : e.filled with
      | false =>
        right
        obtain ⟨cf, f1, f2, f3, f4⟩ := hfree c4 _ ha4 hl4 hs4 ⟨_, hn4⟩ (by simp; omega)
        exact ⟨cf, by simp [f1], f2, f3, f4, by simp⟩
      | true =>
        left
        obtain ⟨n1, m1⟩ := (ha4.mem s .other).mp hs4
        obtain ⟨n2, m2⟩ := (ha4.mem new .other).mp hn4
        exact ⟨c4, by simp, by simp [usable, m1, hl4], by simp [usable, m2, hl4], by simp⟩

/-- A running client session to start with. -/
def running : Conn := ⟨upd (fun _ => none) 0 (some ⟨.other, none⟩), 0, [], false⟩

/-- What the result of opening a channel leaves: whether there is a new session, whether session 0 is usable. -/
def chanUsable : Option ChanRes → Option (Bool × Bool)
  | some (.session c) => some (true, usable c 0)
  | some (.null c) => some (false, usable c 0)
  | _ => none

example : chanUsable (connectChannel 5 ⟨true, true, true, true⟩ 0 1 running) = some (true, true) ∧ chanUsable (connectChannel 5 ⟨true, true, false, true⟩ 0 1 running) = some (false, true) := by
  decide +kernel

/-- C84: the server refuses the channel; the IO lock stays locked, the original session can neither send nor receive any more, and the next attempt waits for ever. -/
theorem new_channel_false : ∃ c', connectChannel 5 ⟨false, true, true, true⟩ 0 1 running = some (.null c') ∧ (c'.mem 0).isSome = true ∧ usable c' 0 = false ∧
    ∀ e new fuel, connectChannel fuel e 0 new c' = some .hang := by
  refine ⟨_, rfl, by decide +kernel, by decide +kernel, ?_⟩
  intro e new fuel
  simp [connectChannel, SshRing.insert, running, upd]

end Verif.Props
