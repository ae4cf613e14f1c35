import Verif.Model.ServerLife

/-! # Settings of a server and their end -/

namespace Verif.Props

open Verif.ServerLife

/-- No data is freed twice. -/
def FreedOnce (log : List Ev) : Prop := ∀ d, log.count (.free d) ≤ 1

/-- No callback is called with data that was freed before. -/
def NotUsedFreed (log : List Ev) : Prop := ∀ pre post c d, log = pre ++ .call c (some d) :: post → Ev.free d ∉ pre

/-- The data given to the library by a program, in order. -/
def given : List Op → List Nat
  | [] => []
  | .contentId _ (some d) _ :: ops => d :: given ops
  | .interactive _ (some d) _ :: ops => d :: given ops
  | _ :: ops => given ops

/-- What is kept along a program: freed data was given before, data in use is not freed, data of both callbacks differ. -/
structure DataInv (s : Srv) (old : List Nat) : Prop where
  once : FreedOnce s.log
  used : NotUsedFreed s.log
  was : ∀ d, Ev.free d ∈ s.log → d ∈ old
  content : ∀ d, s.content.data = some d → Ev.free d ∉ s.log ∧ d ∈ old
  inter : ∀ d, s.inter.data = some d → Ev.free d ∉ s.log ∧ d ∈ old
  differ : ∀ d, s.content.data = some d → s.inter.data ≠ some d

theorem notUsedFreed_call {log : List Ev} (h : NotUsedFreed log) (c : Nat) (d : Option Nat) (hd : ∀ x, d = some x → Ev.free x ∉ log) :
    NotUsedFreed (log ++ [.call c d]) := by
  intro pre post c' d' he
  rcases List.eq_nil_or_concat post with rfl | ⟨post', e, rfl⟩
  · have := List.append_inj' he rfl
    obtain ⟨rfl, h2⟩ := this
    cases h2
    exact hd d' rfl
  · have : log ++ [Ev.call c d] = (pre ++ .call c' (some d') :: post') ++ [e] := by rw [he]; simp
    obtain ⟨h1, -⟩ := List.append_inj' this rfl
    exact h pre post' c' d' h1

theorem notUsedFreed_free {log : List Ev} (h : NotUsedFreed log) (d : Nat) : NotUsedFreed (log ++ [.free d]) := by
  intro pre post c' d' he
  rcases List.eq_nil_or_concat post with rfl | ⟨post', e, rfl⟩
  · have := List.append_inj' he rfl
    cases this.2
  · have : log ++ [Ev.free d] = (pre ++ .call c' (some d') :: post') ++ [e] := by rw [he]; simp
    obtain ⟨h1, -⟩ := List.append_inj' this rfl
    exact h pre post' c' d' h1

theorem freedOnce_free {log : List Ev} (h : FreedOnce log) (d : Nat) (hd : Ev.free d ∉ log) : FreedOnce (log ++ [.free d]) := by
  intro x
  rw [List.count_append]
  by_cases hx : x = d
  · subst hx
    rw [List.count_eq_zero.2 hd]
    simp
  · have : List.count (Ev.free x) [Ev.free d] = 0 := by rw [List.count_eq_zero]; simp [hx]
    rw [this]
    exact h x

theorem freedOnce_call {log : List Ev} (h : FreedOnce log) (c : Nat) (d : Option Nat) : FreedOnce (log ++ [.call c d]) := by
  intro x
  rw [List.count_append]
  have : List.count (Ev.free x) [Ev.call c d] = 0 := by rw [List.count_eq_zero]; simp
  rw [this]
  exact h x

theorem callClb_inv {c : Clb} {log : List Ev} (h1 : FreedOnce log) (h2 : NotUsedFreed log) (hc : ∀ d, c.data = some d → Ev.free d ∉ log) :
    FreedOnce (callClb c log) ∧ NotUsedFreed (callClb c log) ∧ ∀ d, Ev.free d ∈ callClb c log ↔ Ev.free d ∈ log := by
  unfold callClb
  cases c.clb with
  | none => exact ⟨h1, h2, fun d => Iff.rfl⟩
  | some f => exact ⟨freedOnce_call h1 f _, notUsedFreed_call h2 f _ hc, fun d => by simp⟩

/-- Freeing what one slot has, if it is not freed yet. -/
theorem freeData_inv {c : Clb} {log : List Ev} (h1 : FreedOnce log) (h2 : NotUsedFreed log) (hc : ∀ d, c.data = some d → Ev.free d ∉ log) :
    FreedOnce (freeData c log) ∧ NotUsedFreed (freeData c log) ∧ ∀ d, Ev.free d ∈ freeData c log → Ev.free d ∈ log ∨ c.data = some d := by
  unfold freeData
  cases hd : c.data with
  | none => exact ⟨h1, h2, fun d h => Or.inl h⟩
  | some d =>
    cases c.free with
    | false => exact ⟨h1, h2, fun d h => Or.inl h⟩
    | true =>
      refine ⟨freedOnce_free h1 d (hc d hd), notUsedFreed_free h2 d, fun x hx => ?_⟩
      rcases List.mem_append.1 hx with hx | hx
      · exact Or.inl hx
      · simp at hx; exact Or.inr (by rw [hx])

/-- One operation keeps the invariant, destroying only if the content-id data is not to be freed. -/
theorem lifeStep_inv (s : Srv) (op : Op) (old : List Nat) (h : DataInv s old) (hf : ∀ d ∈ given [op], d ∉ old) (hn : (given [op]).Nodup)
    (hd : op = .destroy → s.content.free = false ∨ s.content.data = none) : DataInv (step s op) (old ++ given [op]) := by
  obtain ⟨a1, a2, a3, a4, a5, a6⟩ := h
  have keep : ∀ s', s'.log = s.log → s'.content = s.content → s'.inter = s.inter → given [op] = [] → DataInv s' (old ++ given [op]) := by
    intro s' e1 e2 e3 e4
    refine ⟨e1 ▸ a1, e1 ▸ a2, ?_, ?_, ?_, ?_⟩ <;> try rw [e4, List.append_nil]
    · rw [e1]; exact a3
    · rw [e1, e2]; exact a4
    · rw [e1, e3]; exact a5
    · rw [e2, e3]; exact a6
  cases op with
  | init => exact keep _ rfl rfl rfl rfl
  | withDefaults b a =>
    rw [step]
    split
    · exact keep _ rfl rfl rfl rfl
    · exact keep _ rfl rfl rfl rfl
  | capability c => exact keep _ rfl rfl rfl rfl
  | verify c => exact keep _ rfl rfl rfl rfl
  | pam c => exact keep _ rfl rfl rfl rfl
  | keyPath c => exact keep _ rfl rfl rfl rfl
  | contentId c d f =>
    cases d with
    | none => exact ⟨a1, a2, fun d h => by simpa [given] using a3 d h, fun d h => (nomatch h), fun d h => by simpa [given, step] using a5 d h, fun d h => (nomatch h)⟩
    | some d =>
      have hfd : d ∉ old := hf d (by simp [given])
      refine ⟨a1, a2, fun x h => List.mem_append_left _ (a3 x h), ?_, fun x h => ⟨(a5 x h).1, List.mem_append_left _ (a5 x h).2⟩, ?_⟩
      · intro x hx
        cases hx
        exact ⟨fun h => hfd (a3 d h), by simp [given]⟩
      · intro x hx hi
        cases hx
        exact hfd (a5 d hi).2
  | interactive c d f =>
    cases d with
    | none => exact ⟨a1, a2, fun d h => by simpa [given] using a3 d h, fun d h => by simpa [given, step] using a4 d h, fun d h => (nomatch h), fun d h hi => (nomatch hi)⟩
    | some d =>
      have hfd : d ∉ old := hf d (by simp [given])
      refine ⟨a1, a2, fun x h => List.mem_append_left _ (a3 x h), fun x h => ⟨(a4 x h).1, List.mem_append_left _ (a4 x h).2⟩, ?_, ?_⟩
      · intro x hx
        cases hx
        exact ⟨fun h => hfd (a3 d h), by simp [given]⟩
      · intro x hx hi
        cases hi
        exact hfd (a4 d hx).2
  | client =>
    obtain ⟨b1, b2, b3⟩ := callClb_inv a1 a2 (fun d h => (a4 d h).1)
    refine ⟨b1, b2, fun d h => ?_, fun d h => ?_, fun d h => ?_, a6⟩
    · simpa [given] using a3 d ((b3 d).1 h)
    · simpa [given, step, b3 d] using a4 d h
    · simpa [given, step, b3 d] using a5 d h
  | clientInteractive =>
    obtain ⟨b1, b2, b3⟩ := callClb_inv a1 a2 (fun d h => (a5 d h).1)
    refine ⟨b1, b2, fun d h => ?_, fun d h => ?_, fun d h => ?_, a6⟩
    · simpa [given] using a3 d ((b3 d).1 h)
    · simpa [given, step, b3 d] using a4 d h
    · simpa [given, step, b3 d] using a5 d h
  | destroy =>
    have hc : freeData s.content s.log = s.log := by
      unfold freeData
      rcases hd rfl with h | h <;> rw [h] <;> cases s.content.data <;> rfl
    obtain ⟨b1, b2, b3⟩ := freeData_inv a1 a2 (fun d h => (a5 d h).1)
    have hl : (step s .destroy).log = freeData s.inter s.log := by simp [step, destroy, hc]
    refine ⟨hl ▸ b1, hl ▸ b2, fun d h => ?_, fun d h => ?_, fun d h => (nomatch h), fun d h hi => (nomatch hi)⟩
    · rw [hl] at h
      simp only [given, List.append_nil]
      rcases b3 d h with h | h
      · exact a3 d h
      · exact (a5 d h).2
    · have h' : s.content.data = some d := h
      simp only [given, List.append_nil]
      refine ⟨fun hfr => ?_, (a4 d h').2⟩
      rw [hl] at hfr
      rcases b3 d hfr with h | h
      · exact (a4 d h').1 h
      · exact a6 d h' h

theorem givenData_cons (op : Op) (ops : List Op) : given (op :: ops) = given [op] ++ given ops := by
  cases op with
  | contentId c d f => cases d <;> simp [given]
  | interactive c d f => cases d <;> simp [given]
  | _ => simp [given]

/-- Is this operation registering data for the content-id that is to be freed. -/
def givesContent : Op → Bool
  | .contentId _ (some _) true => true
  | _ => false

theorem lifeRun_inv : ∀ (ops : List Op) (s : Srv) (old : List Nat), DataInv s old → (∀ d ∈ given ops, d ∉ old) → (given ops).Nodup →
    ((s.content.free = false ∨ s.content.data = none) ∧ (∀ op ∈ ops, givesContent op = false) ∨ Op.destroy ∉ ops) →
    DataInv (run ops s) (old ++ given ops)
  | [], s, old, h, _, _, _ => by simpa [run, given] using h
  | op :: ops, s, old, h, hf, hn, hc => by
    rw [givenData_cons] at hf hn ⊢
    have hn' := List.nodup_append.1 hn
    have h1 : DataInv (step s op) (old ++ given [op]) := by
      refine lifeStep_inv s op old h (fun d hd => hf d (List.mem_append_left _ hd)) hn'.1 ?_
      rintro rfl
      rcases hc with ⟨hc, -⟩ | hc
      · exact hc
      · simp at hc
    have := lifeRun_inv ops (step s op) (old ++ given [op]) h1 ?_ hn'.2.1 ?_
    · rw [← List.append_assoc]
      exact this
    · intro d hd hm
      rcases List.mem_append.1 hm with hm | hm
      · exact hf d (List.mem_append_right _ hd) hm
      · exact hn'.2.2 d hm d hd rfl
    · rcases hc with ⟨hc, hg⟩ | hc
      · refine Or.inl ⟨?_, fun op' h' => hg op' (List.mem_cons_of_mem _ h')⟩
        have hg0 := hg op (List.mem_cons_self ..)
        cases op with
        | contentId c d f =>
          cases d with
          | none => exact Or.inr rfl
          | some d => cases f with
            | false => exact Or.inl rfl
            | true => cases hg0
        | withDefaults b a => rw [step]; split <;> exact hc
        | _ => exact hc
      · exact Or.inr (fun h => hc (List.mem_cons_of_mem _ h))

/-- C180: data given with callbacks is never freed twice or used after it was freed, for all programs that give each data once, if no data of the content-id callback
is to be freed by the library. -/
theorem callback_data_partial (ops : List Op) (hn : (given ops).Nodup) (hg : ∀ op ∈ ops, givesContent op = false) :
    FreedOnce (run ops {}).log ∧ NotUsedFreed (run ops {}).log := by
  have h0 : DataInv {} [] := ⟨fun d => by simp, fun pre post c d h => by simp at h, fun d h => (nomatch h), fun d h => (nomatch h), fun d h => (nomatch h),
    fun d h => (nomatch h)⟩
  have := lifeRun_inv ops {} [] h0 (fun d _ h => (nomatch h)) hn (Or.inl ⟨Or.inl rfl, hg⟩)
  exact ⟨this.once, this.used⟩

/-- C180: the same for all data in programs that use one server: it is destroyed at the end. What is set then is freed. -/
theorem callback_data_one_server (ops : List Op) (hn : (given ops).Nodup) (hd : Op.destroy ∉ ops) :
    FreedOnce (run (ops ++ [.destroy]) {}).log ∧ NotUsedFreed (run (ops ++ [.destroy]) {}).log ∧
      ∀ d, ((run ops {}).content.data = some d ∧ (run ops {}).content.free = true) ∨ ((run ops {}).inter.data = some d ∧ (run ops {}).inter.free = true) →
        (run (ops ++ [.destroy]) {}).log.count (.free d) = 1 := by
  have h0 : DataInv {} [] := ⟨fun d => by simp, fun pre post c d h => by simp at h, fun d h => (nomatch h), fun d h => (nomatch h), fun d h => (nomatch h),
    fun d h => (nomatch h)⟩
  have h := lifeRun_inv ops {} [] h0 (fun d _ h => (nomatch h)) hn (Or.inr hd)
  have hr : run (ops ++ [.destroy]) {} = destroy (run ops {}) := by simp [run, step]
  rw [hr]
  generalize run ops {} = s at h
  obtain ⟨a1, a2, a3, a4, a5, a6⟩ := h
  obtain ⟨b1, b2, b3⟩ := freeData_inv a1 a2 (fun d h => (a4 d h).1)
  have hi : ∀ d, s.inter.data = some d → Ev.free d ∉ freeData s.content s.log := by
    intro d hd hf
    rcases b3 d hf with h | h
    · exact (a5 d hd).1 h
    · exact a6 d h hd
  obtain ⟨c1, c2, c3⟩ := freeData_inv b1 b2 hi
  have hl : (destroy s).log = freeData s.inter (freeData s.content s.log) := rfl
  rw [hl]
  refine ⟨c1, c2, fun d h => Nat.le_antisymm (c1 d) ?_⟩
  rw [Nat.succ_le_iff, List.count_pos_iff]
  rcases h with ⟨h, hf⟩ | ⟨h, hf⟩
  · have hm : Ev.free d ∈ freeData s.content s.log := by simp [freeData, h, hf]
    revert hm
    generalize freeData s.content s.log = l
    intro hm
    unfold freeData
    split
    · split
      · exact List.mem_append_left _ hm
      · exact hm
    · exact hm
  · simp [freeData, h, hf]

/-- C180 is false as a whole: data of the content-id callback stays set when the server is destroyed; a server that is initialised again uses it for its first client after it
was freed, and destroying it frees it again. -/
theorem callback_data_false (c d : Nat) :
    ¬NotUsedFreed (run [.init, .contentId (some c) (some d) true, .destroy, .init, .client] {}).log ∧
      ¬FreedOnce (run [.init, .contentId (some c) (some d) true, .destroy, .init, .destroy] {}).log := by
  constructor
  · intro h
    exact h [.free d] [] c d rfl (by simp)
  · intro h
    have := h d
    have hl : (run [.init, .contentId (some c) (some d) true, .destroy, .init, .destroy] {}).log = [.free d, .free d] := rfl
    rw [hl] at this
    simp at this

example : (run [.init, .interactive (some 1) (some 5) true, .clientInteractive, .destroy, .init, .clientInteractive] {}).log =
    [.call 1 (some 5), .free 5, .call 1 none] := by decide

example : (run [.init, .contentId (some 1) (some 5) true, .client, .interactive (some 2) (some 6) true, .destroy] {}).log =
    [.call 1 (some 5), .free 5, .free 6] := by decide

/-- C181: a server that is destroyed and initialised again announces no capability of the old one, its sessions are numbered from 1 and it has no PAM configuration and no
path to authorized keys; whatever is set after that is in force as on a first server. -/
theorem restart_partial (before after : List Op) :
    (run (before ++ [.destroy, .init] ++ after) {}).caps = (run (.init :: after) {}).caps ∧
      (run (before ++ [.destroy, .init] ++ after) {}).nextId = (run (.init :: after) {}).nextId ∧
      (run (before ++ [.destroy, .init] ++ after) {}).pam = (run (.init :: after) {}).pam ∧
      (run (before ++ [.destroy, .init] ++ after) {}).keyPath = (run (.init :: after) {}).keyPath ∧
      (run (before ++ [.destroy, .init] ++ after) {}).inter.data = (run (.init :: after) {}).inter.data := by
  have key : ∀ (ops : List Op) (a b : Srv), a.caps = b.caps → a.nextId = b.nextId → a.pam = b.pam → a.keyPath = b.keyPath → a.inter.data = b.inter.data →
      (run ops a).caps = (run ops b).caps ∧ (run ops a).nextId = (run ops b).nextId ∧ (run ops a).pam = (run ops b).pam ∧
        (run ops a).keyPath = (run ops b).keyPath ∧ (run ops a).inter.data = (run ops b).inter.data := by
    intro ops
    induction ops with
    | nil => intro a b h1 h2 h3 h4 h5; exact ⟨h1, h2, h3, h4, h5⟩
    | cons op ops ih =>
      intro a b h1 h2 h3 h4 h5
      refine ih (step a op) (step b op) ?_ ?_ ?_ ?_ ?_ <;> cases op <;> simp only [step, init, destroy] <;>
        first | assumption | rfl | (split <;> assumption) | rw [h1] | rw [h2]
  have hr : run (before ++ [.destroy, .init] ++ after) {} = run after (init (destroy (run before {}))) := by simp [run, step]
  have hr' : run (.init :: after) {} = run after (init {}) := rfl
  rw [hr, hr']
  exact key after _ _ rfl rfl rfl rfl rfl

/-- C181: the sessions of a server that is initialised, also after others were destroyed, get the numbers 1, 2 and so on. -/
theorem restart_numbers (before after : List Op) (hi : Op.init ∉ after) (hd : Op.destroy ∉ after) :
    (run (before ++ [.destroy, .init] ++ after) {}).nextId = 1 + after.countP (fun o => match o with | .client => true | _ => false) ∧
      (run (.init :: after) {}).nextId = 1 + after.countP (fun o => match o with | .client => true | _ => false) := by
  have key : ∀ (ops : List Op) (s : Srv), Op.init ∉ ops → Op.destroy ∉ ops →
      (run ops s).nextId = s.nextId + ops.countP (fun o => match o with | .client => true | _ => false) := by
    intro ops
    induction ops with
    | nil => intro s _ _; rfl
    | cons op ops ih =>
      intro s h1 h2
      have hr : run (op :: ops) s = run ops (step s op) := rfl
      rw [hr, ih (step s op) (fun h => h1 (.tail _ h)) (fun h => h2 (.tail _ h)), List.countP_cons]
      cases op with
      | init => exact absurd (.head _) h1
      | destroy => exact absurd (.head _) h2
      | client => simp only [step, if_true]; omega
      | withDefaults b a => simp only [step]; split <;> rfl
      | _ => rfl
  rw [(restart_partial before after).2.1]
  exact ⟨key after (init {}) hi hd, key after (init {}) hi hd⟩

example : (run [.init, .client, .client, .destroy, .init, .client, .keyPath 3, .client, .client] {}).nextId = 4 := by decide

/-- C181: a capability set is announced, also after that. -/
theorem restart_capability (before after : List Op) (c : Nat) (hc : Op.capability c ∈ after) (hd : Op.destroy ∉ after) :
    c ∈ (hello (run (before ++ [.destroy, .init] ++ after) {})).caps := by
  have fold : ∀ (l acc : List Nat), (c ∈ acc ∨ c ∈ l) → c ∈ l.foldl addCap acc := by
    intro l
    induction l with
    | nil => rintro acc (h | h); exact h; cases h
    | cons x l ih =>
      intro acc h
      refine ih _ ?_
      unfold addCap
      rcases h with h | h
      · split
        · exact Or.inl h
        · exact Or.inl (List.mem_append_left _ h)
      · rcases List.mem_cons.1 h with rfl | h
        · split
          · next hx => exact Or.inl (by simpa using hx)
          · simp
        · exact Or.inr h
  have keep : ∀ (ops : List Op) (s : Srv), Op.destroy ∉ ops → (c ∈ s.caps ∨ Op.capability c ∈ ops) → c ∈ (run ops s).caps := by
    intro ops
    induction ops with
    | nil => rintro s - (h | h); exact h; cases h
    | cons op ops ih =>
      intro s hd h
      refine ih (step s op) (fun h => hd (List.mem_cons_of_mem _ h)) ?_
      rcases h with h | h
      · cases op with
        | destroy => simp at hd
        | withDefaults b a => rw [step]; split <;> exact Or.inl h
        | capability x => exact Or.inl (List.mem_append_left _ h)
        | _ => exact Or.inl h
      · rcases List.mem_cons.1 h with rfl | h
        · exact Or.inl (by simp [step])
        · exact Or.inr h
  have hr : run (before ++ [.destroy, .init] ++ after) {} = run after (init (destroy (run before {}))) := by simp [run, step]
  rw [hr]
  exact fold _ [] (Or.inr (keep after _ hd (Or.inr hc)))

/-- C181 is false as a whole: the modes of with-defaults, the content-id callback, the callback for keyboard-interactive (now without its data) and the callback for TLS
certificates of the old server are in force in the new one. -/
theorem restart_false (b a c d : Nat) (f : Option Nat) (hb : ¬((b = 0 ∨ b = 2) ∨ (a ≠ 0 ∧ a &&& 7 = 0))) :
    ∃ s, run [.init, .withDefaults b a, .contentId (some c) none false, .interactive (some d) f false, .verify (some c), .destroy, .init] {} = s ∧
      hello s = ⟨b, a, [], some (c, none)⟩ ∧ s.inter = ⟨some d, none, false⟩ ∧ s.verify = some c ∧ hello (run [.init] {}) = ⟨0, 0, [], none⟩ := by
  refine ⟨_, rfl, ?_, ?_, ?_, rfl⟩ <;> simp only [run, List.foldl_cons, List.foldl_nil, step, init, destroy, if_neg hb] <;> rfl

example : hello (run [.init, .withDefaults 1 4, .capability 9, .destroy, .init, .capability 8] {}) = ⟨1, 4, [8], none⟩ := by decide

end Verif.Props
