import Verif.Lemmas.MountData

/-!
# Properties: contexts and schema-mount data of client sessions on one SSH connection
-/

namespace Verif.Props
open Verif.MountData

/-- **C258.** A context made by the library is destroyed at most once. As long as it is not, the session its callback is given is alive and has this context. Every session without a
context of the application has one that is not destroyed and whose callback is given this session. This is so with assertions or without. -/
theorem mount_context (a : Bool) (c : Option Ctx) (h : List Ev) (t : St) (hr : run a (first c) h = some t) :
    t.destroyed.Nodup ∧ (∀ k i, (k, i) ∈ t.clb → k ∉ t.destroyed → ∃ y ∈ t.ring, y.id = i ∧ y.ctx = .lib k) ∧
      ∀ y ∈ t.ring, y.shared = false → ∃ k, y.ctx = .lib k ∧ k ∉ t.destroyed ∧ ∀ i, (k, i) ∈ t.clb ↔ i = y.id := by
  have hi := inv_run hr
  refine ⟨hi.dnodup, fun k i hk hd => ?_, fun y hy hs => ?_⟩
  · obtain ⟨y, hy, h1, _, h3⟩ := hi.live k i hk hd
    exact ⟨y, hy, h1, h3⟩
  · obtain ⟨k, h1, h2, h3⟩ := hi.own y hy hs
    exact ⟨k, h1, h3, fun i => ⟨fun hk => hi.cone k _ _ hk h2, fun he => he ▸ h2⟩⟩

example : (run true (first none) [.channel 0 none true, .mount 1, .free 0]).map (fun t => (t.clb, t.destroyed, t.ring)) =
    some ([(0, 0), (1, 1)], [0], [⟨1, false, .lib 1, some 0⟩]) := by decide

/-- **C258.** Schema-mount data received for a session are held by one session or were freed, once; nothing else is freed. This holds for builds with assertions.
The full statement, for builds without them too, is false: `mount_data_false`. -/
theorem mount_data_partial (c : Option Ctx) (h : List Ev) (t : St) (hr : run true (first c) h = some t) (d : Nat) :
    (t.freed ++ t.ring.filterMap Sess.ext).count d = if d < t.datas then 1 else 0 := by
  have := run_ind (P := fun s => Inv s ∧ Data s) (fun _ _ _ _ hp ht => ⟨inv_step hp.1 ht, data_step hp.1 hp.2 ht⟩)
    ⟨inv_first c, by intro d; cases c <;> simp [first, newSess, held]⟩ hr
  rw [List.count_append]
  exact this.2 d

example : (run true (first none) [.mount 0, .channel 0 none true, .mount 1, .mount 0, .free 1]).map (fun t => (t.freed, t.ring.filterMap Sess.ext, t.datas)) =
    some ([0, 1], [2], 3) := by decide

/-- **C258.** Without assertions data are lost: freeing a session with a context of the application, or one failing to be made, overwrites the data of the next session, which are never freed and not
found by its context any more. -/
theorem mount_data_false : ¬ ∀ (c : Option Ctx) (h : List Ev) (t : St), run false (first c) h = some t →
    ∀ d < t.datas, (t.freed ++ t.ring.filterMap Sess.ext).count d = 1 := by
  intro h
  have := h none [.mount 0, .channel 0 (some (.app 0)) false] _ rfl 0 (by decide)
  exact absurd this (by decide)

example : (run false (first none) [.mount 0, .channel 0 (some (.app 0)) true, .free 1]).map (fun t => (t.freed, t.ring.map Sess.ext)) = some ([], [none]) := by decide

/-- **C258.** With assertions, freeing a session leaves all others as they are, and so does a further session that fails. -/
theorem mount_kept (c : Option Ctx) (h : List Ev) (s t : St) (hr : run true (first c) h = some s) (x : Nat) :
    (step true s (.free x) = some t → t.ring = s.ring.filter fun y => y.id ≠ x) ∧
      ∀ c', step true s (.channel x c' false) = some t → t.ring = s.ring ∧ t.freed = s.freed := by
  have hi := inv_run hr
  constructor
  · intro ht
    simp only [step] at ht
    cases hf : s.ring.find? fun y => y.id = x with
    | none =>
      rw [hf] at ht
      rw [← Option.some.inj ht]
      exact (List.filter_eq_self.mpr fun y hy => by simpa using List.find?_eq_none.mp hf y hy).symm
    | some y =>
      rw [hf] at ht
      obtain ⟨hy, rfl⟩ := find_mem hf
      rw [freeSess_asserts hi hy ht]
      rfl
  · intro c' ht
    simp only [step] at ht
    by_cases hx : (s.ring.any fun y => y.id = x) = true
    · rw [if_pos hx] at ht
      have hc := inv_channel hi (x := x) (by simpa using hx) c'
      rw [freeSess_asserts hc.1 hc.2 ht]
      have hid : (newSess s c').1.id = s.sessions := by cases c' <;> rfl
      refine ⟨filter_ins fun z hz => ?_, ?_⟩
      · rw [hid]; exact Nat.ne_of_lt (hi.lt z hz)
      · cases c' <;> simp [without, newSess]
    · rw [if_neg hx] at ht
      rw [← Option.some.inj ht]
      exact ⟨rfl, rfl⟩

example : (run true (first none) [.channel 0 none true, .mount 1, .channel 1 none false]).map (fun t => (t.ring.map Sess.ext, t.destroyed)) = some ([none, some 0], [2]) := by decide

/-- **C258.** Data received for a session with a context of its own are the ones it holds then, whatever it held before; sessions with a context of the application never hold any, and receiving data
for one session leaves all others as they are. -/
theorem mount_received (a : Bool) (c : Option Ctx) (h : List Ev) (s t : St) (hr : run a (first c) h = some s) (x : Nat) (ht : step a s (.mount x) = some t) :
    (∀ y ∈ t.ring, y.shared = true → y.ext = none) ∧ (∀ y, y.id ≠ x → (y ∈ t.ring ↔ y ∈ s.ring)) ∧ t.ring.map Sess.id = s.ring.map Sess.id ∧
      ∀ y ∈ t.ring, y.id = x → y.shared = false → y.ext = some s.datas ∧ t.datas = s.datas + 1 := by
  have hi := inv_run hr
  refine ⟨fun y hy => (inv_step hi ht).none y hy, ?_⟩
  simp only [step] at ht
  cases hf : s.ring.find? fun y => y.id = x with
  | none =>
    rw [hf] at ht
    rw [← Option.some.inj ht]
    exact ⟨fun _ _ => Iff.rfl, rfl, fun y hy he => absurd he (by simpa using List.find?_eq_none.mp hf y hy)⟩
  | some z =>
    rw [hf] at ht
    obtain ⟨hz, hzi⟩ := find_mem hf
    cases hs : z.shared with
    | true =>
      simp only [hs, if_true, Option.some.injEq] at ht
      rw [← ht]
      refine ⟨fun _ _ => Iff.rfl, rfl, fun y hy he hys => ?_⟩
      rw [eq_of_id hi.nodup hy hz (he.trans hzi.symm), hs] at hys
      cases hys
    | false =>
      simp only [hs, Bool.false_eq_true, if_false, Option.some.injEq] at ht
      rw [← ht]
      refine ⟨fun y hyx => ⟨fun hy => ?_, fun hy => ?_⟩, map_setExt _ _ _, fun y hy he _ => ?_⟩
      · obtain ⟨w, hw, rfl⟩ := List.mem_map.mp hy
        by_cases hwx : w.id = x
        · simp [hwx] at hyx
        · simpa [hwx] using hw
      · exact List.mem_map.mpr ⟨y, hy, by simp [hyx]⟩
      · obtain ⟨w, _, h1, _, _, h4⟩ := mem_setExt hy
        rw [h4, if_pos (h1.symm.trans he)]
        exact ⟨rfl, rfl⟩

example : (run true (first none) [.mount 0, .channel 0 none true, .mount 0]).map (fun t => t.ring.map Sess.ext) = some [some 1, none] := by decide

/-- **C258.** No assertion fails if all sessions of the connection have contexts of their own, or all have contexts of the application.
The full statement, for any sessions, is false: `mount_assert_false`. -/
theorem mount_assert_partial (a : Bool) (c : Option Ctx) (h : List Ev) (hs : ∀ x c' ok, Ev.channel x c' ok ∈ h → c'.isSome = c.isSome) : run a (first c) h ≠ none :=
  run_all hs (inv_first c) (by intro y hy; cases c <;> simp [first, newSess] at hy <;> simp [hy])

example : run true (first (some (.app 0))) [.channel 0 (some (.app 1)) true, .mount 1, .free 0] ≠ none := by decide

/-- **C258.** If a session has schema-mount data, freeing one with a context of the application before it in the ring fails an assertion. -/
theorem mount_assert_false : ¬ ∀ (c : Option Ctx) (h : List Ev), run true (first c) h ≠ none := by
  intro h
  exact h none [.mount 0, .channel 0 (some (.app 0)) true, .free 1] (by decide)

example : run true (first none) [.mount 0, .channel 0 (some (.app 0)) false] = none ∧
    run true (first none) [.channel 0 (some (.app 0)) true, .free 1] ≠ none := by decide

end Verif.Props
