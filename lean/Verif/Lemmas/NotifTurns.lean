import Verif.Lemmas.Notif
import Verif.Props.ClientMsg

/-!
# Lemmas about the thread receiving notifications
-/

namespace Verif.Notif
open Verif.Hello (Text)
open Verif.Notif.Spec
open Verif.ClientMsg (Cl Kind Lock Out recvMsg takeBuffered buffered)
open Verif.ClientMsg.Spec (Arr texts input delivered)
open Verif.Props (Shaped)

theorem reply_delivers (c : Cl) : delivered .notif [(recvMsg .reply .got c).1] = [] := by
  simp only [recvMsg]
  cases takeBuffered .reply c.msgs with
  | some x => simp [delivered]
  | none =>
    cases hw : c.wire with
    | nil => simp [delivered]
    | cons a w =>
      cases a with
      | idle => simp [delivered]
      | failure => simp [delivered]
      | msg t =>
        simp only
        cases hg : ClientMsg.getMsgType t with
        | none => simp [delivered]
        | some k =>
          cases k <;> simp [delivered]
      | _ => simp [delivered]

theorem notif_out (c : Cl) (h : (recvMsg .notif .got c).1 ≠ .crash) :
    (∃ t, (recvMsg .notif .got c).1 = .got .notif (some t) ∧ delivered .notif [(recvMsg .notif .got c).1] = [t]) ∨
    ((∀ t, (recvMsg .notif .got c).1 ≠ .got .notif (some t)) ∧ delivered .notif [(recvMsg .notif .got c).1] = []) := by
  generalize (recvMsg .notif .got c).1 = o at h ⊢
  cases o with
  | got k t =>
    cases t with
    | none => right; simp [delivered]
    | some t => cases k <;> simp [delivered]
  | _ => right; simp [delivered]

/-- The calls that are still to come. -/
def todo (parse : Text → Option Got) (c : Cl) (as : List Arr) : List Got := (buffered .notif c.msgs ++ texts .notif as).filterMap parse

theorem iter_step (parse : Text → Option Got) (c : Cl) (as : List Arr) (hs : Shaped as) (hf : .failure ∉ as) (hw : c.wire = as.map input) :
    ∃ n i c', iter parse c = some (i, c') ∧ c'.wire = (as.drop n).map input ∧ i.call.toList ++ todo parse c' (as.drop n) = todo parse c as ∧
      (i.on = false ↔ ∃ g, i.call = some g ∧ IsEnd g) ∧
      (0 < (buffered .notif c.msgs).length + as.length →
        (buffered .notif c'.msgs).length + (as.drop n).length < (buffered .notif c.msgs).length + as.length) := by
  obtain ⟨n, -, h1, h2, h3, h4⟩ := Props.recv_step .notif .got c as hs hw
  replace h3 := h3 .notif
  replace h4 := h4 rfl
  have h5 : ∀ g : Got, g.complete = true ↔ IsEnd g := by intro g; simp [Got.complete, IsEnd]
  refine ⟨n, ?_⟩
  simp only [iter]
  rcases notif_out c h2 with ⟨t, e1, e2⟩ | ⟨e1, e2⟩
  · rw [e2] at h3
    generalize hr : recvMsg .notif .got c = r at *
    obtain ⟨o, c'⟩ := r
    simp only at e1 h1 h3 h4
    subst e1
    have key : (parse t).toList ++ todo parse c' (as.drop n) = todo parse c as := by
      have : todo parse c as = (([t] ++ buffered .notif c'.msgs) ++ texts .notif (as.drop n)).filterMap parse := by
        rw [h3, List.append_assoc, ← Props.texts_append, List.take_append_drop]; rfl
      rw [this, todo]
      cases hp : parse t <;> simp [hp]
    simp only
    cases hp : parse t with
    | none => exact ⟨_, _, rfl, h1, by simpa [hp] using key, by simp, h4⟩
    | some g =>
      refine ⟨_, _, rfl, h1, by simpa [hp] using key, ?_, h4⟩
      simp [h5]
  · rw [e2] at h3
    have hh : ¬ (c.wire.head? == some .failure) = true := by
      rw [hw]
      cases as with
      | nil => simp
      | cons a as => cases a <;> simp [input] at hf ⊢
    generalize hr : recvMsg .notif .got c = r at *
    obtain ⟨o, c'⟩ := r
    simp only at e1 h1 h2 h3 h4
    have key : todo parse c' (as.drop n) = todo parse c as := by
      rw [todo, todo]
      rw [List.nil_append] at h3
      rw [h3, List.append_assoc, ← Props.texts_append, List.take_append_drop]
    cases o with
    | crash => exact absurd rfl h2
    | got k t =>
      cases t with
      | none => cases k <;> exact ⟨_, _, rfl, h1, by simpa using key, by simp, h4⟩
      | some t =>
        cases k with
        | notif => exact absurd rfl (e1 t)
        | reply => exact ⟨_, _, rfl, h1, by simpa using key, by simp, h4⟩
    | error => exact ⟨_, _, rfl, h1, by simpa using key, by simpa using hh, h4⟩
    | _ => exact ⟨_, _, rfl, h1, by simpa using key, by simp, h4⟩

theorem reply_step (parse : Text → Option Got) (c : Cl) (as : List Arr) (hs : Shaped as) (hw : c.wire = as.map input) :
    ∃ n, (recvMsg .reply .got c).1 ≠ .crash ∧ (recvMsg .reply .got c).2.wire = (as.drop n).map input ∧
      todo parse (recvMsg .reply .got c).2 (as.drop n) = todo parse c as ∧
      (buffered .notif (recvMsg .reply .got c).2.msgs).length + (as.drop n).length ≤ (buffered .notif c.msgs).length + as.length := by
  obtain ⟨n, h0, h1, h2, h3, -⟩ := Props.recv_step .reply .got c as hs hw
  have h3 := h3 .notif
  rw [reply_delivers, List.nil_append] at h3
  refine ⟨n, h2, h1, ?_, ?_⟩
  · rw [todo, todo, h3, List.append_assoc, ← Props.texts_append, List.take_append_drop]
  · have := Props.texts_length .notif (as.take n)
    rw [h3]
    simp at this ⊢
    omega

theorem through_call (g : Got) (gs : List Got) : through (g :: gs) = g :: (if IsEnd g then [] else through gs) := by
  simp only [through]; split <;> rfl

/-- All turns. -/
theorem turns_run (parse : Text → Option Got) : ∀ (ts : List Turn) (c : Cl) (as : List Arr), Shaped as → .failure ∉ as → c.wire = as.map input →
    ∃ calls on c' rest, turns parse ts c = some (calls, on, c') ∧ calls ++ rest = through (todo parse c as) ∧ (on = false → rest = []) ∧
      (on = false ↔ ∃ g ∈ calls, IsEnd g) ∧
      ((buffered .notif c.msgs).length + as.length ≤ ts.count .notif → rest = []) := by
  intro ts
  induction ts with
  | nil =>
    intro c as _ _ _
    refine ⟨[], true, c, through (todo parse c as), rfl, rfl, by simp, by simp, ?_⟩
    intro h
    simp at h
    rw [todo, h.1, h.2]; rfl
  | cons t ts ih =>
    intro c as hs hf hw
    cases t with
    | reply =>
      obtain ⟨n, h2, h1, h3, h4⟩ := reply_step parse c as hs hw
      obtain ⟨calls, on, c', rest, e1, e2, e3, e4, e5⟩ := ih (recvMsg .reply .got c).2 (as.drop n) (Props.shaped_drop hs n)
        (fun h => hf (List.mem_of_mem_drop h)) h1
      refine ⟨calls, on, c', rest, ?_, by rw [e2, h3], e3, e4, ?_⟩
      · rw [turns]
        generalize recvMsg .reply .got c = r at *
        obtain ⟨o, c1⟩ := r
        cases o <;> simp_all
      · intro h; apply e5; simp at h; omega
    | notif =>
      obtain ⟨n, i, c1, g1, g2, g3, g4, g5⟩ := iter_step parse c as hs hf hw
      have e0 : turns parse (.notif :: ts) c = if i.on then (turns parse ts c1).map (fun r => (i.call.toList ++ r.1, r.2.1, r.2.2))
          else some (i.call.toList, false, c1) := by rw [turns, g1]
      cases hon : i.on with
      | false =>
        obtain ⟨g, hg, hend⟩ := g4.1 hon
        refine ⟨[g], false, c1, [], by rw [e0, hon, hg]; rfl, ?_, by simp, by simp [hend], by simp⟩
        rw [← g3, hg, Option.toList_some, List.append_nil, List.singleton_append, through_call, if_pos hend]
      | true =>
        obtain ⟨calls, on, c', rest, e1, e2, e3, e4, e5⟩ := ih c1 (as.drop n) (Props.shaped_drop hs n) (fun h => hf (List.mem_of_mem_drop h)) g2
        have hne : ∀ g, i.call = some g → ¬ IsEnd g := by
          intro g hg hend
          have := g4.2 ⟨g, hg, hend⟩
          rw [hon] at this; cases this
        refine ⟨i.call.toList ++ calls, on, c', rest, by rw [e0, hon, e1]; rfl, ?_, e3, ?_, ?_⟩
        · rw [← g3]
          cases hc : i.call with
          | none => simpa using e2
          | some g =>
            rw [Option.toList_some, List.singleton_append, List.singleton_append, through_call, if_neg (hne g hc), ← e2, List.cons_append]
        · rw [e4]
          cases hc : i.call with
          | none => simp
          | some g => simp [hne g hc]
        · intro h
          by_cases hz : 0 < (buffered .notif c.msgs).length + as.length
          · apply e5; have := g5 hz; simp at h; simp only [List.length_drop] at this ⊢; omega
          · have hb : (buffered .notif c.msgs) = [] := List.length_eq_zero_iff.1 (by omega)
            have ha : as = [] := List.length_eq_zero_iff.1 (by omega)
            have ht : todo parse c as = [] := by rw [todo, hb, ha]; rfl
            rw [ht] at g3
            have := (List.append_eq_nil_iff.1 g3).2
            rw [this] at e2
            exact (List.append_eq_nil_iff.1 e2).2

end Verif.Notif
