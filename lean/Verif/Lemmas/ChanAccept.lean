import Verif.Model.ChanAccept

/-!
# Lemmas: accepting further channels of one SSH connection
-/

namespace Verif.ChanAccept

theorem runs_iff (l : List Sess) (x : Nat) : runs l x = true ↔ (⟨x, .running⟩ : Sess) ∈ l := by
  simp [runs]

theorem mem_after {l : List Sess} {x : Nat} {y : Sess} (h : y ∈ after l x) : y ∈ l := by
  rcases List.mem_append.mp h with h | h
  · exact (List.dropWhile_sublist _).subset (List.mem_of_mem_tail h)
  · exact (List.takeWhile_sublist _).subset h

theorem after_mem : ∀ {l : List Sess} {x : Nat} {y : Sess}, y ∈ l → y.id ≠ x → y ∈ after l x := by
  intro l x y hy hx
  have hs : l.takeWhile (fun y => decide (y.id ≠ x)) ++ l.dropWhile (fun y => decide (y.id ≠ x)) = l := List.takeWhile_append_dropWhile
  rw [← hs] at hy
  rcases List.mem_append.mp hy with h | h
  · exact List.mem_append_right _ h
  · refine List.mem_append_left _ ?_
    cases hd : l.dropWhile (fun y => decide (y.id ≠ x)) with
    | nil => rw [hd] at h; cases h
    | cons z zs =>
      have hz : z.id = x := by
        have hz := List.head?_dropWhile_not (fun y : Sess => decide (y.id ≠ x)) l
        rw [hd] at hz
        simpa using hz
      rw [hd] at h
      rcases List.mem_cons.mp h with rfl | h
      · exact absurd hz hx
      · simpa using h

theorem pick_some : ∀ {l : List Sess} {xs : List Nat} {i : Nat}, pick l xs = some i → (⟨i, .starting⟩ : Sess) ∈ l
  | l, [], i, h => by cases h
  | l, x :: xs, i, h => by
    simp only [pick] at h
    split at h
    · next y hy =>
      cases h
      split at hy
      · have hs := List.find?_some hy
        have hm := mem_after (List.mem_of_find?_eq_some hy)
        simp only [decide_eq_true_eq] at hs
        rw [← hs]; exact hm
      · cases hy
    · exact pick_some h

theorem pick_none : ∀ {l : List Sess} {xs : List Nat}, pick l xs = none ↔ ∀ x ∈ xs, runs l x = true → ∀ y ∈ after l x, y.status ≠ .starting
  | l, [] => by simp [pick]
  | l, x :: xs => by
    simp only [pick, List.forall_mem_cons]
    by_cases hr : runs l x = true
    · rw [if_pos hr]
      cases hf : (after l x).find? fun y => decide (y.status = .starting) with
      | some y =>
        simp only [reduceCtorEq, false_iff]
        intro h
        have hs := List.find?_some hf
        exact h.1 hr y (List.mem_of_find?_eq_some hf) (by simpa using hs)
      | none =>
        have hn : ∀ y ∈ after l x, y.status ≠ .starting := by simpa using hf
        simp only
        rw [pick_none]
        exact ⟨fun h => ⟨fun _ => hn, h⟩, fun h => h.2⟩
    · rw [if_neg hr]
      simp only
      rw [pick_none]
      exact ⟨fun h => ⟨fun h' => absurd h' hr, h⟩, fun h => h.2⟩

theorem mem_set {l : List Sess} {i : Nat} {st : Status} {y : Sess} :
    y ∈ setStatus l i st ↔ (y ∈ l ∧ y.id ≠ i) ∨ (y = ⟨i, st⟩ ∧ ∃ z ∈ l, z.id = i) := by
  simp only [setStatus, List.mem_map]
  constructor
  · rintro ⟨z, hz, rfl⟩
    by_cases h : z.id = i
    · rw [if_pos h]; exact .inr ⟨by rw [← h], z, hz, h⟩
    · rw [if_neg h]; exact .inl ⟨hz, h⟩
  · rintro (⟨h, hi⟩ | ⟨rfl, z, hz, h⟩)
    · exact ⟨y, h, if_neg hi⟩
    · exact ⟨z, hz, by rw [if_pos h, ← h]⟩

theorem set_ids (l : List Sess) (i : Nat) (st : Status) : (setStatus l i st).map (·.id) = l.map (·.id) := by
  simp only [setStatus, List.map_map]
  apply List.map_congr_left
  intro y _
  simp only [Function.comp]
  split <;> rfl

/-- The ring with a new session (src/session_server_ssh.c:1410-1415). -/
def ins (l : List Sess) (x n : Nat) : List Sess := l.flatMap fun y => if y.id = x then [y, ⟨n, .starting⟩] else [y]

theorem mem_ins {l : List Sess} {x n : Nat} {y : Sess} : y ∈ ins l x n ↔ y ∈ l ∨ (y = ⟨n, .starting⟩ ∧ ∃ z ∈ l, z.id = x) := by
  simp only [ins, List.mem_flatMap]
  constructor
  · rintro ⟨z, hz, h⟩
    split at h
    · next hx =>
      simp only [List.mem_cons, List.not_mem_nil, or_false] at h
      rcases h with rfl | rfl
      · exact .inl hz
      · exact .inr ⟨rfl, z, hz, hx⟩
    · simp only [List.mem_cons, List.not_mem_nil, or_false] at h
      rw [h]; exact .inl hz
  · rintro (h | ⟨rfl, z, hz, hx⟩)
    · exact ⟨y, h, by split <;> simp⟩
    · exact ⟨z, hz, by rw [if_pos hx]; simp⟩

theorem ins_none : ∀ {l : List Sess} {x n : Nat}, (∀ z ∈ l, z.id ≠ x) → ins l x n = l
  | [], _, _, _ => rfl
  | z :: zs, x, n, h => by
    have := ins_none (n := n) (fun w hw => h w (List.mem_cons_of_mem _ hw))
    simp only [ins, List.flatMap_cons] at this ⊢
    rw [if_neg (h z (by simp)), this]; rfl

theorem ins_nodup : ∀ {l : List Sess} {x n : Nat}, (l.map (·.id)).Nodup → (∀ z ∈ l, z.id ≠ n) → ((ins l x n).map (·.id)).Nodup
  | [], _, _, _, _ => by simp [ins]
  | z :: zs, x, n, h, hn => by
    rw [List.map_cons, List.nodup_cons] at h
    have hrec := ins_nodup (x := x) h.2 (fun w hw => hn w (List.mem_cons_of_mem _ hw))
    have hzn := hn z (by simp)
    have hc : ins (z :: zs) x n = (if z.id = x then [z, ⟨n, .starting⟩] else [z]) ++ ins zs x n := rfl
    rw [hc]
    by_cases hx : z.id = x
    · have hz : ∀ w ∈ zs, w.id ≠ x := fun w hw hwx => h.1 (List.mem_map.mpr ⟨w, hw, by rw [hwx, hx]⟩)
      rw [if_pos hx, ins_none hz]
      simp only [List.cons_append, List.nil_append, List.map_cons, List.nodup_cons, List.mem_cons]
      refine ⟨?_, ?_, h.2⟩
      · rintro (e | e)
        · exact hzn e
        · exact h.1 e
      · intro e
        obtain ⟨w, hw, e⟩ := List.mem_map.mp e
        exact hn w (List.mem_cons_of_mem _ hw) e
    · rw [if_neg hx]
      simp only [List.cons_append, List.nil_append, List.map_cons, List.nodup_cons]
      refine ⟨?_, hrec⟩
      intro e
      obtain ⟨w, hw, e⟩ := List.mem_map.mp e
      rcases mem_ins.mp hw with hw | ⟨rfl, _⟩
      · exact h.1 (List.mem_map.mpr ⟨w, hw, e⟩)
      · exact hzn e.symm

/-- What holds of every connection (src/session_server_ssh.c:1404-1427, 2015-2127, src/session.c:752-813). -/
structure Inv (c : Conn) : Prop where
  nodup : (c.ring.map (·.id)).Nodup
  lt : ∀ y ∈ c.ring, y.id < c.next
  givenLt : ∀ i ∈ c.given, i < c.next
  freedLt : ∀ i ∈ c.freed, i < c.next
  own : ∀ i ∈ c.given, i ∉ c.freed → ∃ y ∈ c.ring, y.id = i
  starting : ∀ y ∈ c.ring, y.status = .starting → y.id ∉ c.given
  running : ∀ y ∈ c.ring, y.status = .running → y.id ∈ c.given
  alive : ∀ y ∈ c.ring, y.id ∉ c.freed
  givenNodup : c.given.Nodup
  freedNodup : c.freed.Nodup
  closed : c.closed = true ↔ c.ring = []
  all : ∀ i, i < c.next → i ∈ c.freed ∨ ∃ y ∈ c.ring, y.id = i
  some : c.ring ≠ [] → ∃ y ∈ c.ring, y.status ≠ .starting

theorem Inv.uniq {c : Conn} (h : Inv c) {y z : Sess} (hy : y ∈ c.ring) (hz : z ∈ c.ring) (e : y.id = z.id) : y = z := by
  have := h.nodup
  generalize c.ring = l at hy hz this
  induction l with
  | nil => cases hy
  | cons w ws ih =>
    rw [List.map_cons, List.nodup_cons] at this
    rcases List.mem_cons.mp hy with rfl | hy <;> rcases List.mem_cons.mp hz with rfl | hz
    · rfl
    · exact absurd (List.mem_map.mpr ⟨z, hz, e.symm⟩) this.1
    · exact absurd (List.mem_map.mpr ⟨y, ‹_›, e⟩) this.1
    · exact ih hy hz this.2

theorem inv_start : Inv Conn.start := by
  constructor <;> simp [Conn.start]

theorem inv_set {c : Conn} (h : Inv c) {i : Nat} {st : Status} {g : List Nat} (hi : ∃ z ∈ c.ring, z.id = i) (hst : st ≠ .starting)
    (hg : (g = c.given ∧ (st = .running → i ∈ c.given)) ∨ (g = c.given ++ [i] ∧ i ∉ c.given)) :
    Inv { c with ring := setStatus c.ring i st, given := g } := by
  obtain ⟨z, hz, hzi⟩ := hi
  have hsub : ∀ j ∈ c.given, j ∈ g := by
    rcases hg with ⟨rfl, _⟩ | ⟨rfl, _⟩
    · exact fun _ h => h
    · exact fun _ h => List.mem_append_left _ h
  have hup : ∀ j ∈ g, j ∈ c.given ∨ j = i := by
    rcases hg with ⟨rfl, _⟩ | ⟨rfl, _⟩
    · exact fun _ h => .inl h
    · intro j h; simpa using h
  have hids : ∀ j, (∃ y ∈ c.ring, y.id = j) → ∃ y ∈ setStatus c.ring i st, y.id = j := by
    rintro j ⟨y, hy, rfl⟩
    by_cases e : y.id = i
    · exact ⟨⟨i, st⟩, mem_set.mpr (.inr ⟨rfl, z, hz, hzi⟩), e.symm⟩
    · exact ⟨y, mem_set.mpr (.inl ⟨hy, e⟩), rfl⟩
  have hzl := h.lt z hz
  have hza := h.alive z hz
  rw [hzi] at hzl hza
  constructor
  · simp only; rw [set_ids]; exact h.nodup
  · intro y hy
    rcases mem_set.mp hy with ⟨hy, _⟩ | ⟨rfl, _⟩
    · exact h.lt y hy
    · exact hzl
  · intro j hj
    rcases hup j hj with hj | rfl
    · exact h.givenLt j hj
    · exact hzl
  · exact h.freedLt
  · intro j hj hf
    refine hids j ?_
    rcases hup j hj with hj | rfl
    · exact h.own j hj hf
    · exact ⟨z, hz, hzi⟩
  · intro y hy hs
    rcases mem_set.mp hy with ⟨hy, hne⟩ | ⟨rfl, _⟩
    · intro hg'
      rcases hup _ hg' with hg' | e
      · exact h.starting y hy hs hg'
      · exact hne e
    · exact absurd hs hst
  · intro y hy hs
    rcases mem_set.mp hy with ⟨hy, hne⟩ | ⟨rfl, _⟩
    · exact hsub _ (h.running y hy hs)
    · rcases hg with ⟨rfl, hr⟩ | ⟨rfl, _⟩
      · exact hr hs
      · simp
  · intro y hy
    rcases mem_set.mp hy with ⟨hy, _⟩ | ⟨rfl, _⟩
    · exact h.alive y hy
    · exact hza
  · rcases hg with ⟨rfl, _⟩ | ⟨rfl, hn⟩
    · exact h.givenNodup
    · simp only
      rw [List.nodup_append]
      exact ⟨h.givenNodup, by simp, fun a ha b hb => by simp only [List.mem_singleton] at hb; rw [hb]; exact fun e => hn (e ▸ ha)⟩
  · exact h.freedNodup
  · simp only [setStatus, List.map_eq_nil_iff]; exact h.closed
  · intro j hj
    exact (h.all j hj).imp_right (hids j)
  · intro _
    exact ⟨⟨i, st⟩, mem_set.mpr (.inr ⟨rfl, z, hz, hzi⟩), hst⟩

theorem inv_step {c : Conn} (h : Inv c) (e : Ev) : Inv (step c e) := by
  cases e with
  | request x =>
    simp only [step, request]
    split
    · next hr =>
      rw [runs_iff] at hr
      have hm : ∀ {y : Sess}, y ∈ ins c.ring x c.next → y ∈ c.ring ∨ y = ⟨c.next, .starting⟩ := fun hy => (mem_ins.mp hy).imp_right (·.1)
      have hl : ∀ {y : Sess}, y ∈ c.ring → y ∈ ins c.ring x c.next := fun hy => mem_ins.mpr (.inl hy)
      show Inv { c with ring := ins c.ring x c.next, next := c.next + 1 }
      constructor
      · exact ins_nodup h.nodup fun z hz => Nat.ne_of_lt (h.lt z hz)
      · intro y hy
        rcases hm hy with hy | rfl
        · exact Nat.lt_succ_of_lt (h.lt y hy)
        · exact Nat.lt_succ_self _
      · exact fun i hi => Nat.lt_succ_of_lt (h.givenLt i hi)
      · exact fun i hi => Nat.lt_succ_of_lt (h.freedLt i hi)
      · intro i hi hf
        obtain ⟨y, hy, e⟩ := h.own i hi hf
        exact ⟨y, hl hy, e⟩
      · intro y hy hs
        rcases hm hy with hy | rfl
        · exact h.starting y hy hs
        · exact fun hg => Nat.lt_irrefl _ (h.givenLt _ hg)
      · intro y hy hs
        rcases hm hy with hy | rfl
        · exact h.running y hy hs
        · cases hs
      · intro y hy
        rcases hm hy with hy | rfl
        · exact h.alive y hy
        · exact fun hg => Nat.lt_irrefl _ (h.freedLt _ hg)
      · exact h.givenNodup
      · exact h.freedNodup
      · have hne : c.ring ≠ [] := List.ne_nil_of_mem hr
        have hne' : ins c.ring x c.next ≠ [] := List.ne_nil_of_mem (hl hr)
        exact ⟨fun hc => absurd (h.closed.mp hc) hne, fun hc => absurd hc hne'⟩
      · intro i hi
        rcases Nat.lt_succ_iff_lt_or_eq.mp hi with hi | rfl
        · exact (h.all i hi).imp_right fun ⟨y, hy, e⟩ => ⟨y, hl hy, e⟩
        · exact .inr ⟨⟨c.next, .starting⟩, mem_ins.mpr (.inr ⟨rfl, _, hr, rfl⟩), rfl⟩
      · exact fun _ => ⟨_, hl hr, by simp⟩
    · exact h
  | accept xs o =>
    simp only [step, accept]
    split
    · exact h
    · next i hp =>
      have hm := pick_some hp
      cases o with
      | hello => exact inv_set h ⟨_, hm, rfl⟩ (by simp) (.inr ⟨rfl, h.starting _ hm rfl⟩)
      | kept => exact h
      | broken => exact inv_set h ⟨_, hm, rfl⟩ (by simp) (.inl ⟨rfl, by simp⟩)
  | invalid x =>
    simp only [step]
    split
    · next hr => exact inv_set h ⟨_, (runs_iff _ _).mp hr, rfl⟩ (by simp) (.inl ⟨rfl, by simp⟩)
    · exact h
  | free x =>
    simp only [step, free]
    split
    · next hx =>
      obtain ⟨z, hz, hzx⟩ := h.own x hx.1 hx.2
      have hm : ∀ {y : Sess}, y ∈ (c.ring.filter fun y => decide (y.id ≠ x)) ↔ y ∈ c.ring ∧ y.id ≠ x := by simp
      have hnd : ((c.ring.filter fun y => decide (y.id ≠ x)).map (·.id)).Nodup := h.nodup.sublist (List.filter_sublist.map _)
      have hx' := h.givenLt x hx.1
      split
      · next ho =>
        constructor
        · simp
        · simp
        · exact h.givenLt
        · intro i hi
          simp only [List.mem_append, List.mem_cons, List.mem_map] at hi
          rcases hi with hi | rfl | ⟨y, hy, rfl⟩
          · exact h.freedLt i hi
          · exact hx'
          · exact h.lt y (hm.mp hy).1
        · intro i hi hf
          refine absurd ?_ hf
          simp only [List.mem_append, List.mem_cons, List.mem_map]
          by_cases hfi : i ∈ c.freed
          · exact .inl hfi
          · obtain ⟨y, hy, rfl⟩ := h.own i hi hfi
            by_cases e : y.id = x
            · exact .inr (.inl e)
            · exact .inr (.inr ⟨y, hm.mpr ⟨hy, e⟩, rfl⟩)
        · simp
        · simp
        · simp
        · exact h.givenNodup
        · rw [List.nodup_append]
          refine ⟨h.freedNodup, ?_, ?_⟩
          · rw [List.nodup_cons]
            refine ⟨?_, hnd⟩
            intro hc
            obtain ⟨y, hy, e⟩ := List.mem_map.mp hc
            exact (hm.mp hy).2 e
          · intro a ha b hb e
            subst e
            rcases List.mem_cons.mp hb with rfl | hb
            · exact hx.2 ha
            · obtain ⟨y, hy, rfl⟩ := List.mem_map.mp hb
              exact h.alive y (hm.mp hy).1 ha
        · simp
        · intro i hi
          refine .inl ?_
          simp only [List.mem_append, List.mem_cons, List.mem_map]
          rcases h.all i hi with hi | ⟨y, hy, rfl⟩
          · exact .inl hi
          · by_cases e : y.id = x
            · exact .inr (.inl e)
            · exact .inr (.inr ⟨y, hm.mpr ⟨hy, e⟩, rfl⟩)
        · exact fun hc => absurd rfl hc
      · next ho =>
        have hs : ∃ y ∈ c.ring, y.id ≠ x ∧ y.status ≠ .starting := by
          apply Classical.byContradiction
          intro hn
          apply ho
          rw [List.all_eq_true]
          intro y hy
          rw [decide_eq_true_eq]
          apply Classical.byContradiction
          exact fun hst => hn ⟨y, (hm.mp hy).1, (hm.mp hy).2, hst⟩
        obtain ⟨w, hw, hwx, hws⟩ := hs
        have hwm := hm.mpr ⟨hw, hwx⟩
        constructor
        · exact hnd
        · exact fun y hy => h.lt y (hm.mp hy).1
        · exact h.givenLt
        · intro i hi
          rcases List.mem_append.mp hi with hi | hi
          · exact h.freedLt i hi
          · simp only [List.mem_singleton] at hi; rw [hi]; exact hx'
        · intro i hi hf
          simp only [List.mem_append, List.mem_singleton, not_or] at hf
          obtain ⟨y, hy, rfl⟩ := h.own i hi hf.1
          exact ⟨y, hm.mpr ⟨hy, hf.2⟩, rfl⟩
        · exact fun y hy => h.starting y (hm.mp hy).1
        · exact fun y hy => h.running y (hm.mp hy).1
        · intro y hy
          simp only [List.mem_append, List.mem_singleton, not_or]
          exact ⟨h.alive y (hm.mp hy).1, (hm.mp hy).2⟩
        · exact h.givenNodup
        · rw [List.nodup_append]
          refine ⟨h.freedNodup, by simp, ?_⟩
          intro a ha b hb e
          simp only [List.mem_singleton] at hb
          exact hx.2 (by rw [← hb, ← e]; exact ha)
        · exact ⟨fun hc => absurd (h.closed.mp hc) (List.ne_nil_of_mem hw), fun hc => absurd hc (List.ne_nil_of_mem hwm)⟩
        · intro i hi
          simp only [List.mem_append, List.mem_singleton]
          rcases h.all i hi with hi | ⟨y, hy, rfl⟩
          · exact .inl (.inl hi)
          · by_cases e : y.id = x
            · exact .inl (.inr e)
            · exact .inr ⟨y, hm.mpr ⟨hy, e⟩, rfl⟩
        · exact fun _ => ⟨w, hwm, hws⟩
    · exact h

theorem inv_run : ∀ (h : List Ev) (c : Conn), Inv c → Inv (run c h)
  | [], _, hi => hi
  | e :: h, c, hi => inv_run h (step c e) (inv_step hi e)

/-- Invalid sessions were given to the application (src/session_server_ssh.c:2049-2059). -/
def InvalidGiven (c : Conn) : Prop := ∀ y ∈ c.ring, y.status = .invalid → y.id ∈ c.given

theorem invalidGiven_step {c : Conn} (hi : Inv c) (h : InvalidGiven c) (e : Ev) (he : ∀ xs, e ≠ .accept xs .broken) : InvalidGiven (step c e) := by
  cases e with
  | request x =>
    simp only [step, request]
    split
    · intro y hy hs
      rcases mem_ins.mp hy with hy | ⟨rfl, _⟩
      · exact h y hy hs
      · cases hs
    · exact h
  | accept xs o =>
    simp only [step, accept]
    split
    · exact h
    · next i hp =>
      cases o with
      | hello =>
        intro y hy hs
        rcases mem_set.mp hy with ⟨hy, _⟩ | ⟨rfl, _⟩
        · exact List.mem_append_left _ (h y hy hs)
        · cases hs
      | kept => exact h
      | broken => exact absurd rfl (he xs)
  | invalid x =>
    simp only [step]
    split
    · next hr =>
      intro y hy hs
      rcases mem_set.mp hy with ⟨hy, _⟩ | ⟨rfl, _⟩
      · exact h y hy hs
      · exact hi.running ⟨x, .running⟩ ((runs_iff _ _).mp hr) rfl
    · exact h
  | free x =>
    simp only [step, free]
    split
    · split
      · intro y hy; cases hy
      · exact fun y hy => h y (List.mem_filter.mp hy).1
    · exact h

theorem invalidGiven_run : ∀ (h : List Ev) (c : Conn), Inv c → InvalidGiven c → (∀ xs, Ev.accept xs .broken ∉ h) → InvalidGiven (run c h)
  | [], _, _, hg, _ => hg
  | e :: h, c, hi, hg, hb =>
    invalidGiven_run h (step c e) (inv_step hi e) (invalidGiven_step hi hg e fun xs hx => hb xs (by simp [hx])) fun xs hx => hb xs (List.mem_cons_of_mem _ hx)

theorem set_none : ∀ {l : List Sess} {i : Nat} {st : Status}, (∀ z ∈ l, z.id ≠ i) → setStatus l i st = l
  | [], _, _, _ => rfl
  | z :: zs, i, st, h => by
    have := set_none (st := st) fun w hw => h w (List.mem_cons_of_mem _ hw)
    simp only [setStatus, List.map_cons] at this ⊢
    rw [if_neg (h z (by simp)), this]

theorem count_set : ∀ {l : List Sess} {i : Nat} {st : Status}, (l.map (·.id)).Nodup → (⟨i, .starting⟩ : Sess) ∈ l → st ≠ .starting →
    (setStatus l i st).countP (fun y => decide (y.status = .starting)) + 1 = l.countP (fun y => decide (y.status = .starting))
  | [], _, _, _, h, _ => by cases h
  | z :: zs, i, st, hn, h, hs => by
    rw [List.map_cons, List.nodup_cons] at hn
    rcases List.mem_cons.mp h with rfl | h
    · have : setStatus zs i st = zs := set_none fun w hw e => hn.1 (List.mem_map.mpr ⟨w, hw, e⟩)
      simp only [setStatus, List.map_cons, if_true, List.countP_cons] at this ⊢
      rw [this]
      simp [hs]
    · have hz : z.id ≠ i := fun e => hn.1 (List.mem_map.mpr ⟨_, h, e.symm⟩)
      have hrec := count_set hn.2 h hs
      simp only [setStatus, List.map_cons, if_neg hz, List.countP_cons] at hrec ⊢
      omega

end Verif.ChanAccept
