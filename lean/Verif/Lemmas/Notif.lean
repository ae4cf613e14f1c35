import Verif.Spec.Notif

/-!
# Lemmas about the threads receiving notifications
-/

namespace Verif.Notif
open Verif.Notif.Spec

/-- Threads and calls that are counted. -/
def Pc.counted : Pc → Bool
  | .called | .flagged | .refused | .loop | .receiving | .calling | .leaving => true
  | _ => false

/-- How many steps are left once the flag is cleared. -/
def Pc.left5 : Pc → Nat
  | .receiving => 5
  | .calling => 4
  | .loop => 3
  | .leaving => 2
  | .left => 1
  | _ => 0

theorem mem_get {l : List Pc} {i : Nat} {p : Pc} (h : l[i]? = some p) : p ∈ l := List.mem_of_getElem? h

theorem countP_go {f : Pc → Bool} {l : List Pc} {i : Nat} {p q : Pc} (h : l[i]? = some p) :
    (l.set i q).countP f + (if f p then 1 else 0) = l.countP f + (if f q then 1 else 0) := by
  obtain ⟨hi, hp⟩ := List.getElem?_eq_some_iff.1 h
  rw [List.countP_set hi, hp]
  have : f p = true → 0 < l.countP f := fun hf => List.countP_pos_iff.2 ⟨p, mem_get h, hf⟩
  cases h1 : f p <;> cases h2 : f q <;> simp_all <;> omega

theorem sum_go (f : Pc → Nat) : ∀ {l : List Pc} {i : Nat} {p q : Pc}, l[i]? = some p →
    ((l.set i q).map f).sum + f p = (l.map f).sum + f q
  | [], _, _, _, h => by simp at h
  | a :: l, 0, p, q, h => by simp at h; subst h; simp; omega
  | a :: l, i + 1, p, q, h => by
    have := sum_go f (l := l) (i := i) (p := p) (q := q) (by simpa using h)
    simp only [List.set_cons_succ, List.map_cons, List.sum_cons]; omega

theorem mem_go {l : List Pc} {i : Nat} {q x : Pc} (h : x ∈ l.set i q) : x = q ∨ x ∈ l := (List.mem_or_eq_of_mem_set h).symm

/-- What holds in every run. -/
structure Base (s : Sys) : Prop where
  count : s.count = s.pcs.countP Pc.counted
  inCall : s.free ≠ .no → s.pcs.any Pc.inCall = false
  flag : s.free ≠ .no → s.running = false

/-- What holds in runs without the faults. -/
structure Safe (s : Sys) : Prop extends Base s where
  run : s.free = .no → ∀ x ∈ s.pcs, Pc.counted x = true → x ≠ .called → s.running = true
  reset : .resetting ∈ s.pcs → s.pcs.countP Pc.counted = 0
  done : s.free = .done → s.pcs.countP Pc.counted = 0

theorem any_go {f : Pc → Bool} {l : List Pc} {i : Nat} {q : Pc} (h : l.any f = false) (hq : f q = false) : (l.set i q).any f = false := by
  rw [List.any_eq_false] at h ⊢
  intro x hx
  rcases mem_go hx with rfl | hx
  · simp [hq]
  · exact h x hx

theorem not_inCall {l : List Pc} {i : Nat} {p : Pc} (h : l.any Pc.inCall = false) (hp : l[i]? = some p) : Pc.inCall p = false := by
  rw [List.any_eq_false] at h
  simpa using h p (mem_get hp)

theorem use_ok {s s' s1 : Sys} {i : Nat} {p : Pc} (h : s.use i p s1 = .ok s') : s.pcs[i]? = some p ∧ s.free ≠ .done ∧ s1 = s' := by
  simp only [Sys.use] at h
  split at h
  · cases h
  · split at h
    · cases h
    · rename_i h1 h2
      exact ⟨by simpa using h1, h2, by simpa using h⟩

/-- The steps, by what they do to one dispatch. -/
inductive Step (s : Sys) : Act → Sys → Prop
  | dispatch : s.free = .no → Step s .dispatch { s with count := s.count + 1, pcs := s.pcs ++ [.called] }
  | flag (i) : s.pcs[i]? = some .called → Step s (.flag i) { s.go i .flagged with running := true }
  | create (i) (ok : Bool) : s.pcs[i]? = some .flagged → Step s (.create i ok) (s.go i (if ok then .loop else .refused))
  | uncount (i) : s.pcs[i]? = some .refused → Step s (.uncount i) { s.go i (if s.count = 1 then .resetting else .failed) with count := s.count - 1 }
  | reset (i) : s.pcs[i]? = some .resetting → Step s (.reset i) { s.go i .failed with running := false }
  | check (i) : s.pcs[i]? = some .loop → s.free ≠ .done → Step s (.check i) (s.go i (if s.running then .receiving else .leaving))
  | receive (i) (r : Recv) (p : Pc) : s.pcs[i]? = some .receiving → s.free ≠ .done → p ∈ [Pc.calling, .loop, .leaving] → Step s (.receive i r) (s.go i p)
  | call (i) (b : Bool) : s.pcs[i]? = some .calling → s.free ≠ .done →
      Step s (.call i b) { s.go i (if b then .leaving else .loop) with log := s.log ++ [.call i] }
  | leave (i) : s.pcs[i]? = some .leaving → s.free ≠ .done → Step s (.leave i) { s.go i .left with count := s.count - 1 }
  | freeData (i) : s.pcs[i]? = some .left → Step s (.freeData i) { s.go i .ended with log := s.log ++ [.freed i] }
  | free : s.free = .no → s.pcs.any Pc.inCall = false → s.running = true → Step s .free { s with running := false, free := .waiting }
  | freeNow : s.free = .no → s.pcs.any Pc.inCall = false → s.running = false → Step s .free { s with free := .done }
  | allLeft : s.free = .waiting → s.count = 0 → Step s .allLeft { s with free := .done }
  | timeout : s.free = .waiting → Step s .timeout { s with free := .done }

theorem step_ok {s s' : Sys} {a : Act} (h : step s a = .ok s') : Step s a s' := by
  cases a with
  | dispatch => simp only [step] at h; split at h <;> cases h; exact .dispatch ‹_›
  | flag i => simp only [step] at h; split at h <;> cases h; exact .flag i ‹_›
  | create i ok => simp only [step] at h; split at h <;> cases h; exact .create i ok ‹_›
  | uncount i => simp only [step] at h; split at h <;> cases h; exact .uncount i ‹_›
  | reset i => simp only [step] at h; split at h <;> cases h; exact .reset i ‹_›
  | check i => obtain ⟨h1, h2, rfl⟩ := use_ok h; exact .check i h1 h2
  | receive i r =>
    obtain ⟨h1, h2, rfl⟩ := use_ok h
    refine .receive i r _ h1 h2 ?_
    cases r <;> simp
  | call i b => obtain ⟨h1, h2, rfl⟩ := use_ok h; exact .call i b h1 h2
  | leave i => obtain ⟨h1, h2, rfl⟩ := use_ok h; exact .leave i h1 h2
  | freeData i => simp only [step] at h; split at h <;> cases h; exact .freeData i ‹_›
  | free =>
    simp only [step] at h
    split at h
    · rename_i h1
      by_cases hr : s.running = true
      · simp only [hr, if_true, Res.ok.injEq] at h; subst h; exact .free h1.1 h1.2 hr
      · have hr : s.running = false := by simpa using hr
        simp only [hr, Bool.false_eq_true, if_false, Res.ok.injEq] at h; subst h; rw [← hr]; exact .freeNow h1.1 h1.2 hr
    · cases h
  | allLeft => simp only [step] at h; split at h <;> cases h; rename_i h1; exact .allLeft h1.1 h1.2
  | timeout => simp only [step] at h; split at h <;> cases h; exact .timeout ‹_›

theorem base_init : Base Sys.init := ⟨rfl, by simp [Sys.init], by simp [Sys.init]⟩

theorem base_step {s s' : Sys} {a : Act} (hb : Base s) (h : Step s a s') : Base s' := by
  obtain ⟨h1, h2, h3⟩ := hb
  cases h with
  | dispatch hf => exact ⟨by simp [h1, Pc.counted], by simp [hf], by simp [hf]⟩
  | flag i hp =>
    have hc := countP_go (f := Pc.counted) (q := .flagged) hp
    simp [Pc.counted] at hc
    refine ⟨by simp only [Sys.go]; omega, ?_, ?_⟩
    · intro hf; have := not_inCall (h2 hf) hp; simp [Pc.inCall] at this
    · intro hf; have := not_inCall (h2 hf) hp; simp [Pc.inCall] at this
  | create i ok hp =>
    have hc := countP_go (f := Pc.counted) (q := if ok then .loop else .refused) hp
    refine ⟨?_, ?_, ?_⟩
    · simp only [Sys.go]; cases ok <;> simp [Pc.counted] at hc ⊢ <;> omega
    · intro hf; have := not_inCall (h2 hf) hp; simp [Pc.inCall] at this
    · intro hf; exact h3 hf
  | uncount i hp =>
    have hc := countP_go (f := Pc.counted) (q := if s.count = 1 then .resetting else .failed) hp
    refine ⟨?_, ?_, ?_⟩
    · simp only [Sys.go]
      by_cases h7 : s.count = 1
      · simp only [h7, if_true, Pc.counted] at hc ⊢; simp at hc ⊢; omega
      · simp only [h7, if_false, Pc.counted] at hc ⊢; simp at hc ⊢; omega
    · intro hf; have := not_inCall (h2 hf) hp; simp [Pc.inCall] at this
    · intro hf; exact h3 hf
  | reset i hp =>
    have hc := countP_go (f := Pc.counted) (q := .failed) hp
    simp [Pc.counted] at hc
    exact ⟨by simp only [Sys.go]; omega, fun hf => any_go (h2 hf) rfl, fun _ => rfl⟩
  | check i hp hd =>
    have hc := countP_go (f := Pc.counted) (q := if s.running then .receiving else .leaving) hp
    refine ⟨?_, ?_, h3⟩
    · simp only [Sys.go]; split at hc <;> simp [Pc.counted] at hc <;> simp_all
    · intro hf; exact any_go (h2 hf) (by split <;> rfl)
  | receive i r p hp hd hm =>
    have hc := countP_go (f := Pc.counted) (q := p) hp
    refine ⟨?_, ?_, h3⟩
    · simp only [Sys.go]; simp at hm; rcases hm with rfl | rfl | rfl <;> simp [Pc.counted] at hc <;> omega
    · intro hf; simp at hm; exact any_go (h2 hf) (by rcases hm with rfl | rfl | rfl <;> rfl)
  | call i b hp hd =>
    have hc := countP_go (f := Pc.counted) (q := if b then .leaving else .loop) hp
    refine ⟨?_, ?_, h3⟩
    · simp only [Sys.go]; cases b <;> simp [Pc.counted] at hc ⊢ <;> omega
    · intro hf; exact any_go (h2 hf) (by cases b <;> rfl)
  | leave i hp hd =>
    have hc := countP_go (f := Pc.counted) (q := .left) hp
    simp [Pc.counted] at hc
    exact ⟨by simp only [Sys.go]; omega, fun hf => any_go (h2 hf) rfl, h3⟩
  | freeData i hp =>
    have hc := countP_go (f := Pc.counted) (q := .ended) hp
    simp [Pc.counted] at hc
    exact ⟨by simp only [Sys.go]; omega, fun hf => any_go (h2 hf) rfl, h3⟩
  | free hf hc hr => exact ⟨h1, fun _ => hc, fun _ => rfl⟩
  | freeNow hf hc hr => exact ⟨h1, fun _ => hc, fun _ => hr⟩
  | allLeft hf hc => exact ⟨h1, fun _ => h2 (by simp [hf]), fun _ => h3 (by simp [hf])⟩
  | timeout hf => exact ⟨h1, fun _ => h2 (by simp [hf]), fun _ => h3 (by simp [hf])⟩

theorem counted_of {l : List Pc} {i : Nat} {p : Pc} (h : l[i]? = some p) (hp : Pc.counted p = true) : 0 < l.countP Pc.counted :=
  List.countP_pos_iff.2 ⟨p, mem_get h, hp⟩

theorem safe_step {s s' : Sys} {a : Act} (hs : Safe s) (h : Step s a s') (ht : a ≠ .timeout)
    (hd : a = .dispatch → .resetting ∉ s.pcs) : Safe s' := by
  have hb := base_step hs.toBase h
  obtain ⟨⟨h1, h2, h3⟩, h4, h5, h6⟩ := hs
  cases h with
  | dispatch hf =>
    refine ⟨hb, ?_, ?_, by simp [hf]⟩
    · intro _ x hx hc hn
      simp at hx
      rcases hx with hx | hx
      · exact h4 hf x hx hc hn
      · exact absurd hx hn
    · intro hx
      simp at hx
      exact absurd hx (hd rfl)
  | flag i hp =>
    refine ⟨hb, fun _ _ _ _ _ => rfl, ?_, ?_⟩
    · intro hx
      rcases mem_go hx with hx | hx
      · cases hx
      · have := h5 hx; have := counted_of hp rfl; omega
    · intro hx; have := h6 hx; have := counted_of hp rfl; omega
  | create i ok hp =>
    refine ⟨hb, ?_, ?_, ?_⟩
    · intro hf _ _ _ _; exact h4 hf .flagged (mem_get hp) rfl (by simp)
    · intro hx
      rcases mem_go hx with hx | hx
      · cases ok <;> cases hx
      · have := h5 hx; have := counted_of hp rfl; omega
    · intro hx; have := h6 hx; have := counted_of hp rfl; omega
  | uncount i hp =>
    have hc := countP_go (f := Pc.counted) (q := if s.count = 1 then .resetting else .failed) hp
    refine ⟨hb, ?_, ?_, ?_⟩
    · intro hf _ _ _ _; exact h4 hf .refused (mem_get hp) rfl (by simp)
    · intro hx
      simp only [Sys.go] at hx ⊢
      by_cases h7 : s.count = 1
      · simp only [h7, if_true, Pc.counted] at hc ⊢; simp at hc; omega
      · simp only [h7, if_false] at hx
        rcases mem_go hx with hx | hx
        · cases hx
        · have := h5 hx; have := counted_of hp rfl; omega
    · intro hx; have := h6 hx; have := counted_of hp rfl; omega
  | reset i hp =>
    have hc := countP_go (f := Pc.counted) (q := .failed) hp
    have h0 := h5 (mem_get hp)
    simp [Pc.counted] at hc
    have hz : (s.pcs.set i .failed).countP Pc.counted = 0 := by simp [h0] at hc ⊢; omega
    refine ⟨hb, ?_, fun _ => hz, fun _ => hz⟩
    intro hf x hx hcx _
    have : 0 < (s.pcs.set i .failed).countP Pc.counted := List.countP_pos_iff.2 ⟨x, hx, hcx⟩
    omega
  | check i hp hdn =>
    refine ⟨hb, fun hf _ _ _ _ => h4 hf .loop (mem_get hp) rfl (by simp), ?_, fun hx => absurd hx hdn⟩
    intro hx
    rcases mem_go hx with hx | hx
    · split at hx <;> cases hx
    · have := h5 hx; have := counted_of hp rfl; omega
  | receive i r p hp hdn hm =>
    refine ⟨hb, fun hf _ _ _ _ => h4 hf .receiving (mem_get hp) rfl (by simp), ?_, fun hx => absurd hx hdn⟩
    intro hx
    rcases mem_go hx with hx | hx
    · subst hx; simp at hm
    · have := h5 hx; have := counted_of hp rfl; omega
  | call i b hp hdn =>
    refine ⟨hb, fun hf _ _ _ _ => h4 hf .calling (mem_get hp) rfl (by simp), ?_, fun hx => absurd hx hdn⟩
    intro hx
    rcases mem_go hx with hx | hx
    · cases b <;> cases hx
    · have := h5 hx; have := counted_of hp rfl; omega
  | leave i hp hdn =>
    refine ⟨hb, fun hf _ _ _ _ => h4 hf .leaving (mem_get hp) rfl (by simp), ?_, fun hx => absurd hx hdn⟩
    intro hx
    rcases mem_go hx with hx | hx
    · cases hx
    · have := h5 hx; have := counted_of hp rfl; omega
  | freeData i hp =>
    have hc := countP_go (f := Pc.counted) (q := .ended) hp
    simp [Pc.counted] at hc
    refine ⟨hb, ?_, ?_, ?_⟩
    · intro hf x hx hcx hn
      rcases mem_go hx with rfl | hx
      · cases hcx
      · exact h4 hf x hx hcx hn
    · intro hx
      rcases mem_go hx with hx | hx
      · cases hx
      · have := h5 hx; simp only [Sys.go]; omega
    · intro hx; have := h6 hx; simp only [Sys.go]; omega
  | free hf hc hr => exact ⟨hb, nofun, h5, nofun⟩
  | freeNow hf hc hr =>
    refine ⟨hb, nofun, h5, ?_⟩
    intro _
    rw [List.countP_eq_zero]
    intro x hx hcx
    have hn : x ≠ .called := by
      rintro rfl
      rw [List.any_eq_false] at hc
      exact hc _ hx rfl
    have := h4 hf x hx hcx hn
    rw [hr] at this
    cases this
  | allLeft hf hc => exact ⟨hb, nofun, h5, fun _ => by simp only; omega⟩
  | timeout hf => exact absurd rfl ht

theorem run_cons (a : Act) (as : List Act) (s : Sys) : run (a :: as) s = match step s a with | .no => .no | .ub => .ub | .ok s' => run as s' := by
  rw [run]; cases step s a <;> rfl

theorem run_append (p q : List Act) : ∀ s s', run p s = .ok s' → run (p ++ q) s = run q s' := by
  induction p with
  | nil => intro s s' h; simp [run] at h; simp [h]
  | cons a p ih =>
    intro s s' h
    rw [run_cons] at h
    rw [List.cons_append, run_cons]
    cases hs : step s a with
    | no => simp [hs] at h
    | ub => simp [hs] at h
    | ok s1 => simp only [hs] at h ⊢; exact ih _ _ h

theorem run_prefix (p q : List Act) : ∀ s s', run (p ++ q) s = .ok s' → ∃ s1, run p s = .ok s1 ∧ run q s1 = .ok s' := by
  induction p with
  | nil => intro s s' h; exact ⟨s, rfl, h⟩
  | cons a p ih =>
    intro s s' h
    rw [List.cons_append, run_cons] at h
    rw [run_cons]
    cases hs : step s a with
    | no => simp [hs] at h
    | ub => simp [hs] at h
    | ok s1 => simp only [hs] at h ⊢; exact ih _ _ h

theorem run_inv {P : Sys → Prop} (hP : ∀ s a s', P s → Step s a s' → P s') : ∀ (as : List Act) (s s' : Sys), P s → run as s = .ok s' → P s' := by
  intro as
  induction as with
  | nil => intro s s' h hr; simp [run] at hr; exact hr ▸ h
  | cons a as ih =>
    intro s s' h hr
    rw [run_cons] at hr
    cases hs : step s a with
    | no => simp [hs] at hr
    | ub => simp [hs] at hr
    | ok s1 => simp only [hs] at hr; exact ih _ _ (hP _ _ _ h (step_ok hs)) hr

/-- Why no step resets the flag too early: no thread is refused, or the calls are serial. -/
def Ok (as : List Act) (s : Sys) : Prop :=
  ((∀ i, .create i false ∉ as) ∧ .refused ∉ s.pcs ∧ .resetting ∉ s.pcs) ∨
  (∀ p q s', as = p ++ .dispatch :: q → run p s = .ok s' → .resetting ∉ s'.pcs)

theorem ok_now {a : Act} {as : List Act} {s : Sys} (h : Ok (a :: as) s) : a = .dispatch → .resetting ∉ s.pcs := by
  rintro rfl
  rcases h with h | h
  · exact h.2.2
  · exact h [] as s rfl rfl

theorem ok_next {a : Act} {as : List Act} {s s' : Sys} (h : Ok (a :: as) s) (hs : step s a = .ok s') : Ok as s' := by
  rcases h with ⟨h1, h2, h3⟩ | h
  · left
    refine ⟨fun i hi => h1 i (List.mem_cons_of_mem _ hi), ?_⟩
    have hst := step_ok hs
    cases hst with
    | dispatch hf => simp [h2, h3]
    | create i ok hp =>
      cases ok with
      | false => exact absurd List.mem_cons_self (h1 i)
      | true => constructor <;> (intro hx; rcases mem_go hx with hx | hx <;> first | contradiction | (cases hx))
    | uncount i hp => exact absurd (mem_get hp) h2
    | reset i hp => exact absurd (mem_get hp) h3
    | check i hp hd => constructor <;> (intro hx; rcases mem_go hx with hx | hx <;> first | contradiction | ((split at hx <;> cases hx)))
    | receive i r p hp hd hm => constructor <;> (intro hx; rcases mem_go hx with hx | hx <;> first | contradiction | ((subst hx; simp at hm)))
    | call i b hp hd => constructor <;> (intro hx; rcases mem_go hx with hx | hx <;> first | contradiction | ((cases b <;> cases hx)))
    | free hf hc hr => exact ⟨h2, h3⟩
    | freeNow hf hc hr => exact ⟨h2, h3⟩
    | allLeft hf hc => exact ⟨h2, h3⟩
    | timeout hf => exact ⟨h2, h3⟩
    | _ => constructor <;> (intro hx; rcases mem_go hx with hx | hx <;> first | contradiction | (cases hx))
  · right
    intro p q s1 he hr
    exact h (a :: p) q s1 (by rw [he]; rfl) (by rw [run_cons, hs]; exact hr)

theorem safe_not_ub {s : Sys} (hs : Safe s) (a : Act) : step s a ≠ .ub := by
  have hu : ∀ i p s1, Pc.counted p = true → s.use i p s1 ≠ .ub := by
    intro i p s1 hp h
    simp only [Sys.use] at h
    split at h
    · cases h
    · split at h
      · rename_i h1 h2
        have := hs.done h2
        have := counted_of (by simpa using h1) hp
        omega
      · cases h
  cases a with
  | check i => exact hu _ _ _ rfl
  | receive i r => exact hu _ _ _ rfl
  | call i b => exact hu _ _ _ rfl
  | leave i => exact hu _ _ _ rfl
  | free => simp only [step]; split <;> simp
  | _ => simp only [step]; split <;> simp

theorem safe_run : ∀ (as : List Act) (s : Sys), Safe s → Ok as s → .timeout ∉ as → run as s ≠ .ub ∧ ∀ s', run as s = .ok s' → Safe s' := by
  intro as
  induction as with
  | nil => intro s hs _ _; simp [run]; exact hs
  | cons a as ih =>
    intro s hs ho ht
    rw [run_cons]
    simp at ht
    cases h : step s a with
    | no => simp
    | ub => exact absurd h (safe_not_ub hs a)
    | ok s1 => exact ih s1 (safe_step hs (step_ok h) (fun h => ht.1 h.symm) (ok_now ho)) (ok_next ho h) ht.2

theorem safe_init : Safe Sys.init := ⟨base_init, by simp [Sys.init], by simp [Sys.init], by simp [Sys.init]⟩

/-- Steps left. -/
def Sys.left (s : Sys) : Nat := (s.pcs.map Pc.left5).sum + (match s.free with | .waiting => 1 | _ => 0)

theorem left_step {s s' : Sys} {a : Act} (hb : Base s) (hf : s.free ≠ .no) (h : Step s a s') : s'.left < s.left ∧ s'.free ≠ .no := by
  have hi := hb.inCall hf
  have hr := hb.flag hf
  cases h with
  | dispatch h => exact absurd h hf
  | flag i hp => have := not_inCall hi hp; simp [Pc.inCall] at this
  | create i ok hp => have := not_inCall hi hp; simp [Pc.inCall] at this
  | uncount i hp => have := not_inCall hi hp; simp [Pc.inCall] at this
  | reset i hp => have := not_inCall hi hp; simp [Pc.inCall] at this
  | check i hp hd =>
    have := sum_go Pc.left5 (q := .leaving) hp
    simp only [Pc.left5] at this
    refine ⟨?_, hf⟩
    simp only [Sys.left, Sys.go, hr, Bool.false_eq_true, if_false]; omega
  | receive i r p hp hd hm =>
    have := sum_go Pc.left5 (q := p) hp
    have h5 : Pc.left5 p < 5 := by simp at hm; rcases hm with rfl | rfl | rfl <;> simp [Pc.left5]
    have h6 : Pc.left5 .receiving = 5 := rfl
    exact ⟨by simp only [Sys.left, Sys.go]; omega, hf⟩
  | call i b hp hd =>
    have := sum_go Pc.left5 (q := if b then .leaving else .loop) hp
    exact ⟨by simp only [Sys.left, Sys.go]; cases b <;> simp [Pc.left5] at this ⊢ <;> omega, hf⟩
  | leave i hp hd =>
    have := sum_go Pc.left5 (q := .left) hp
    simp only [Pc.left5] at this
    exact ⟨by simp only [Sys.left, Sys.go]; omega, hf⟩
  | freeData i hp =>
    have := sum_go Pc.left5 (q := .ended) hp
    simp only [Pc.left5] at this
    exact ⟨by simp only [Sys.left, Sys.go]; omega, hf⟩
  | free h => exact absurd h hf
  | freeNow h => exact absurd h hf
  | allLeft h => simp [Sys.left, h]
  | timeout h => simp [Sys.left, h]

theorem left_run : ∀ (as : List Act) (s s' : Sys), Base s → s.free ≠ .no → run as s = .ok s' → as.length + s'.left ≤ s.left ∧ s'.free ≠ .no ∧ Base s' := by
  intro as
  induction as with
  | nil => intro s s' hb hf hr; simp [run] at hr; subst hr; exact ⟨by simp, hf, hb⟩
  | cons a as ih =>
    intro s s' hb hf hr
    rw [run_cons] at hr
    cases hs : step s a with
    | no => simp [hs] at hr
    | ub => simp [hs] at hr
    | ok s1 =>
      simp only [hs] at hr
      have hst := step_ok hs
      obtain ⟨g1, g2⟩ := left_step hb hf hst
      obtain ⟨k1, k2, k3⟩ := ih s1 s' (base_step hb hst) g2 hr
      exact ⟨by simp; omega, k2, k3⟩

theorem sum_le (l : List Pc) : (l.map Pc.left5).sum ≤ 5 * l.length := by
  induction l with
  | nil => simp
  | cons a l ih =>
    have : Pc.left5 a ≤ 5 := by cases a <;> simp [Pc.left5]
    simp; omega

/-- A thread that is not at its end can go on. -/
theorem can_go {s : Sys} {i : Nat} {p : Pc} (h : s.pcs[i]? = some p) (hi : Pc.inCall p = false) (h1 : p ≠ .failed) (h2 : p ≠ .ended) :
    ∃ a, a ≠ .timeout ∧ step s a ≠ .no := by
  cases p with
  | loop => exact ⟨.check i, by simp, by simp only [step, Sys.use, h]; simp; split <;> simp⟩
  | receiving => exact ⟨.receive i .nothing, by simp, by simp only [step, Sys.use, h]; simp; split <;> simp⟩
  | calling => exact ⟨.call i true, by simp, by simp only [step, Sys.use, h]; simp; split <;> simp⟩
  | leaving => exact ⟨.leave i, by simp, by simp only [step, Sys.use, h]; simp; split <;> simp⟩
  | left => exact ⟨.freeData i, by simp, by simp [step, h]⟩
  | failed => exact absurd rfl h1
  | ended => exact absurd rfl h2
  | called => simp [Pc.inCall] at hi
  | flagged => simp [Pc.inCall] at hi
  | refused => simp [Pc.inCall] at hi
  | resetting => simp [Pc.inCall] at hi

/-- Whether an event is of a dispatch. -/
def Ev.of (i : Nat) : Ev → Bool
  | .call j => i == j
  | .freed j => i == j

/-- What one dispatch has seen: calls, then the end of its data. -/
def Seen (s : Sys) (i : Nat) : Prop :=
  ∃ k, s.log.filter (Ev.of i) = List.replicate k (.call i) ++ (if s.pcs[i]? = some .ended then [.freed i] else []) ∧
    (k = 0 ∨ ∃ p, s.pcs[i]? = some p ∧ p ∈ [Pc.loop, .receiving, .calling, .leaving, .left, .ended])

theorem seen_go {s : Sys} {i j : Nat} {p q : Pc} (h : ∀ i, Seen s i) (hp : s.pcs[j]? = some p) (hpe : p ≠ .ended) (hq : q ≠ .ended)
    (ht : p ∈ [Pc.loop, .receiving, .calling, .leaving, .left] → q ∈ [Pc.loop, .receiving, .calling, .leaving, .left, .ended])
    (b : Bool) (c : Nat) : Seen ⟨b, c, s.pcs.set j q, s.free, s.log⟩ i := by
  obtain ⟨k, h1, h2⟩ := h i
  refine ⟨k, ?_, ?_⟩
  · by_cases hij : j = i
    · subst hij
      obtain ⟨hl, -⟩ := List.getElem?_eq_some_iff.1 hp
      rw [hp] at h1
      simp [h1, hpe, hl, hq]
    · simp [h1, hij]
  · rcases h2 with h2 | ⟨p', h2, h3⟩
    · exact .inl h2
    · right
      by_cases hij : j = i
      · subst hij
        obtain ⟨hl, -⟩ := List.getElem?_eq_some_iff.1 hp
        rw [hp] at h2
        cases h2
        exact ⟨q, by simp [hl], ht (by simp at h3 ⊢; rcases h3 with h3 | h3 | h3 | h3 | h3 | h3 <;> simp_all)⟩
      · exact ⟨p', by simpa [hij] using h2, h3⟩

theorem seen_step {s s' : Sys} {a : Act} (hs : ∀ i, Seen s i) (h : Step s a s') : ∀ i, Seen s' i := by
  intro i
  cases h with
  | dispatch hf =>
    obtain ⟨k, h1, h2⟩ := hs i
    have key : (s.pcs ++ [Pc.called])[i]? = some .ended ↔ s.pcs[i]? = some .ended := by
      rw [List.getElem?_append]
      split
      · rfl
      · rename_i hl
        have : s.pcs[i]? = none := List.getElem?_eq_none (by omega)
        rw [this]
        cases hd : i - s.pcs.length <;> simp
    refine ⟨k, ?_, ?_⟩
    · simp only [key]; exact h1
    · rcases h2 with h2 | ⟨p, h2, h3⟩
      · exact .inl h2
      · right
        obtain ⟨hl, -⟩ := List.getElem?_eq_some_iff.1 h2
        exact ⟨p, by rw [List.getElem?_append_left hl]; exact h2, h3⟩
  | flag j hp => exact seen_go hs hp (by simp) (by simp) (by simp) _ _
  | create j ok hp => exact seen_go hs hp (by simp) (by cases ok <;> simp) (by simp) _ _
  | uncount j hp => exact seen_go hs hp (by simp) (by split <;> simp) (by simp) _ _
  | reset j hp => exact seen_go hs hp (by simp) (by simp) (by simp) _ _
  | check j hp hd => exact seen_go hs hp (by simp) (by split <;> simp) (by split <;> simp) _ _
  | receive j r p hp hd hm =>
    simp at hm
    exact seen_go hs hp (by simp) (by rcases hm with rfl | rfl | rfl <;> simp) (by rcases hm with rfl | rfl | rfl <;> simp) _ _
  | leave j hp hd => exact seen_go hs hp (by simp) (by simp) (by simp) _ _
  | call j b hp hd =>
    obtain ⟨hl, -⟩ := List.getElem?_eq_some_iff.1 hp
    by_cases hij : j = i
    · subst hij
      obtain ⟨k, h1, h2⟩ := hs j
      refine ⟨k + 1, ?_, .inr ⟨if b then .leaving else .loop, by simp [Sys.go, hl], by cases b <;> simp⟩⟩
      have hne : ¬ (if b then Pc.leaving else Pc.loop) = .ended := by cases b <;> simp
      rw [hp] at h1
      simp [Sys.go, List.filter_append, h1, Ev.of, hl, hne, List.replicate_succ']
    · obtain ⟨k, h1, h2⟩ := hs i
      have : ¬ i = j := fun h => hij h.symm
      exact ⟨k, by simp [Sys.go, List.filter_append, h1, Ev.of, hij, this], by simpa [Sys.go, hij] using h2⟩
  | freeData j hp =>
    obtain ⟨hl, -⟩ := List.getElem?_eq_some_iff.1 hp
    by_cases hij : j = i
    · subst hij
      obtain ⟨k, h1, h2⟩ := hs j
      rw [hp] at h1
      exact ⟨k, by simp [Sys.go, List.filter_append, h1, Ev.of, hl], .inr ⟨.ended, by simp [Sys.go, hl], by simp⟩⟩
    · obtain ⟨k, h1, h2⟩ := hs i
      have : ¬ i = j := fun h => hij h.symm
      exact ⟨k, by simp [Sys.go, List.filter_append, h1, Ev.of, hij, this], by simpa [Sys.go, hij] using h2⟩
  | free hf hc hr => exact hs i
  | freeNow hf hc hr => exact hs i
  | allLeft hf hc => exact hs i
  | timeout hf => exact hs i

theorem seen_init (i : Nat) : Seen Sys.init i := ⟨0, by simp [Sys.init], .inl rfl⟩

end Verif.Notif
