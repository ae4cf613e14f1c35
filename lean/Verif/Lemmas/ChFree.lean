import Verif.Model.ChFree

/-!
# Lemmas: freeing a session of Call Home
-/

namespace Verif.ChFree

/-- What holds in all states that are reached without a wait that is too late (src/session_server.c:2829-2876, src/session.c:959-985). -/
structure FreeInv (s : St) : Prop where
  flag : s.flag = false ↔ ∃ rc, s.t = .out rc
  freed : s.u = .freed → s.flag = false
  closing : s.u = .asleep ∨ (∃ b, s.u = .awake b) ∨ s.u = .freed → s.status ≠ .running
  woken : s.u = .asleep ∨ (∃ b, s.u = .awake b) → s.t ≠ .asleep ∧ s.t ≠ .again
  early : s.u ≠ .awake true
  before : s.u = .idle ∨ s.u = .want → s.status ≠ .closing
  outs : s.t = .out false → s.status ≠ .running
  ub : s.ub = false

theorem freeInv_given : FreeInv given := by
  constructor <;> simp [given]

theorem freeInv_leave {s : St} (h : FreeInv s) (rc : Bool) (hr : rc = false → s.status ≠ .running) : FreeInv (leave s rc) := by
  have hc := h.closing
  constructor
  · simp [leave]
  · simp [leave]
  · simp only [leave]
    split
    · exact fun _ => hc (.inl (by assumption))
    · exact hc
  · simp [leave]
  · simp only [leave]
    split
    · simp
    · exact h.early
  · simp only [leave]
    split
    · simp
    · exact h.before
  · simpa [leave] using hr
  · exact h.ub

theorem freeInv_step {s t : St} (h : FreeInv s) (a : Act) (ha : a ≠ .uWake true) (e : step s a = some t) : FreeInv t := by
  obtain ⟨hflag, hfreed, hclosing, hwoken, hearly, hbefore, houts, hub⟩ := id h
  cases a with
  | tWake sig =>
    simp only [step] at e
    split at e
    · next ht =>
      cases e
      have hf : s.flag = true := by
        cases hx : s.flag
        · obtain ⟨rc, hrc⟩ := hflag.mp hx; rw [ht] at hrc; cases hrc
        · rfl
      exact ⟨by simp [hf], hfreed, hclosing, by simp, hearly, hbefore, by simp, hub⟩
    · cases e
  | tLock =>
    simp only [step] at e
    split at e
    · next sig ht =>
      cases e
      have hf : s.flag = true := by
        cases hx : s.flag
        · obtain ⟨rc, hrc⟩ := hflag.mp hx; rw [ht] at hrc; cases hrc
        · rfl
      have hnf : s.u ≠ .freed := fun hx => by rw [hfreed hx] at hf; cases hf
      exact ⟨by simp [hf], hfreed, hclosing, by simp, hearly, hbefore, by simp, by simp [hub, hnf]⟩
    · cases e
  | tCheck failed present idle =>
    simp only [step] at e
    split at e
    · next sig ht =>
      have hf : s.flag = true := by
        cases hx : s.flag
        · obtain ⟨rc, hrc⟩ := hflag.mp hx; rw [ht] at hrc; cases hrc
        · rfl
      split at e
      · cases e; exact freeInv_leave h true (by simp)
      split at e
      · next hst =>
        cases e
        simp only [Bool.and_eq_true, decide_eq_true_eq] at hst
        exact freeInv_leave h false fun _ => hst.2
      split at e
      · cases e; exact freeInv_leave h true (by simp)
      · cases idle with
        | true =>
          simp only [if_true] at e
          rw [if_neg (by simp)] at e
          cases e
          refine freeInv_leave ?_ false (by simp)
          exact ⟨hflag, hfreed, by simp, hwoken, hearly, by simp, by simp, hub⟩
        | false =>
          simp only [Bool.false_eq_true, if_false] at e
          split at e
          · next hrun =>
            cases e
            refine ⟨by simp [hf], hfreed, hclosing, ?_, hearly, hbefore, by simp, hub⟩
            intro hu
            exact absurd hrun (hclosing (hu.elim .inl (fun h => .inr (.inl h))))
          · next hrun => cases e; exact freeInv_leave h false fun _ => hrun
    · cases e
  | tSleep =>
    simp only [step] at e
    split at e
    · next ht =>
      cases e
      have hf : s.flag = true := by
        cases hx : s.flag
        · obtain ⟨rc, hrc⟩ := hflag.mp hx; rw [ht] at hrc; cases hrc
        · rfl
      exact ⟨by simp [hf], hfreed, hclosing, fun hu => absurd ht (hwoken hu).2, hearly, hbefore, by simp, hub⟩
    · cases e
  | invalid =>
    simp only [step] at e
    split at e
    · cases e
      exact ⟨hflag, hfreed, by simp, hwoken, hearly, by simp, by simp, hub⟩
    · cases e
  | uFree =>
    simp only [step] at e
    split at e
    · next hw =>
      cases e
      exact ⟨hflag, by simp, by simp, by simp, by simp, fun _ => hw.2, houts, hub⟩
    · cases e
  | uLock =>
    simp only [step] at e
    split at e
    · next hw =>
      split at e
      · next hf =>
        cases e
        refine ⟨?_, by simp, by simp, ?_, by simp, by simp, by simp, hub⟩
        · simp only
          rw [hflag]
          split <;> simp_all
        · intro _
          simp only
          split
          · simp
          · next hna => exact ⟨hna, fun hx => by rw [hx] at hw; simp [held] at hw⟩
      · next hf =>
        cases e
        exact ⟨hflag, fun _ => by simpa using hf, by simp, by simp, by simp, by simp, by simp, hub⟩
    · cases e
  | uWake late =>
    have hl : late = false := by
      cases late
      · rfl
      · exact absurd rfl ha
    subst hl
    simp only [step] at e
    split at e
    · next hu =>
      cases e
      exact ⟨hflag, by simp, fun _ => hclosing (.inl hu), fun _ => hwoken (.inl hu), by simp, by simp, houts, hub⟩
    · cases e
  | uBack =>
    simp only [step] at e
    split at e
    · next late hu =>
      have hst := hclosing (.inr (.inl ⟨late, hu⟩))
      have hta := hwoken (.inr ⟨late, hu⟩)
      split at e
      · cases e
      split at e
      · next hl => rw [hl] at hu; exact absurd hu hearly
      split at e
      · cases e
        exact ⟨hflag, by simp, fun _ => hst, fun _ => hta, by simp, by simp, houts, hub⟩
      · next hf =>
        cases e
        exact ⟨hflag, fun _ => by simpa using hf, fun _ => hst, by simp, by simp, by simp, houts, hub⟩
    · cases e

theorem freeInv_exec : ∀ (as : List Act) (s t : St), FreeInv s → Act.uWake true ∉ as → exec s as = some t → FreeInv t
  | [], s, t, h, _, e => by cases e; exact h
  | a :: as, s, t, h, hn, e => by
    simp only [exec, Option.bind_eq_some_iff] at e
    obtain ⟨s1, e1, e2⟩ := e
    exact freeInv_exec as s1 t (freeInv_step h a (fun hx => hn (by simp [hx])) e1) (fun hx => hn (List.mem_cons_of_mem _ hx)) e2

theorem step_why {s t : St} (a : Act) (e : step s a = some t) :
    (t.t = .out true → s.t = .out true ∨ ∃ f p i, a = .tCheck f p i ∧ (f = true ∨ p = false)) ∧
    (t.status = .invalid → s.status = .invalid ∨ a = .invalid ∨ ∃ f, a = .tCheck f true true) ∧
    (t.status = .closing → s.status = .closing ∨ a = .uLock) := by
  obtain ⟨status, flag, tp, u, ub⟩ := s
  cases a with
  | tCheck f p i =>
    cases tp <;> simp only [step] at e <;> try cases e
    next sig =>
      cases f <;> cases p <;> cases i <;> cases sig <;> cases status <;> simp [leave] at e <;> subst e <;> simp
  | tWake sig => simp only [step] at e; split at e <;> cases e; simp +contextual
  | tLock => simp only [step] at e; split at e <;> cases e; simp +contextual
  | tSleep => simp only [step] at e; split at e <;> cases e; simp +contextual
  | invalid => simp only [step] at e; split at e <;> cases e; simp +contextual
  | uFree => simp only [step] at e; split at e <;> cases e; simp +contextual
  | uLock =>
    simp only [step] at e
    split at e
    · split at e <;> cases e
      · cases tp <;> simp
      · simp +contextual
    · cases e
  | uWake late => simp only [step] at e; split at e <;> cases e; simp +contextual
  | uBack =>
    simp only [step] at e
    split at e
    · split at e
      · cases e
      split at e
      · cases e; simp +contextual
      split at e <;> cases e <;> simp +contextual
    · cases e

theorem exec_why : ∀ (as : List Act) (s t : St), exec s as = some t →
    (t.t = .out true → s.t = .out true ∨ ∃ f p i, .tCheck f p i ∈ as ∧ (f = true ∨ p = false)) ∧
    (t.status = .invalid → s.status = .invalid ∨ .invalid ∈ as ∨ ∃ f, .tCheck f true true ∈ as) ∧
    (t.status = .closing → s.status = .closing ∨ .uLock ∈ as)
  | [], s, t, e => by cases e; exact ⟨.inl, .inl, .inl⟩
  | a :: as, s, t, e => by
    simp only [exec, Option.bind_eq_some_iff] at e
    obtain ⟨s1, e1, e2⟩ := e
    obtain ⟨h1, h2, h3⟩ := step_why a e1
    obtain ⟨k1, k2, k3⟩ := exec_why as s1 t e2
    refine ⟨fun h => ?_, fun h => ?_, fun h => ?_⟩
    · rcases k1 h with h | ⟨f, p, i, hm, hc⟩
      · rcases h1 h with h | ⟨f, p, i, rfl, hc⟩
        · exact .inl h
        · exact .inr ⟨f, p, i, by simp, hc⟩
      · exact .inr ⟨f, p, i, by simp [hm], hc⟩
    · rcases k2 h with h | h | ⟨f, hm⟩
      · rcases h2 h with h | rfl | ⟨f, rfl⟩
        · exact .inl h
        · exact .inr (.inl (by simp))
        · exact .inr (.inr ⟨f, by simp⟩)
      · exact .inr (.inl (by simp [h]))
      · exact .inr (.inr ⟨f, by simp [hm]⟩)
    · rcases k3 h with h | h
      · rcases h3 h with h | rfl
        · exact .inl h
        · exact .inr (by simp)
      · exact .inr (by simp [h])

end Verif.ChFree
