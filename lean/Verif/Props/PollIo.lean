import Verif.Model.PollIo

/-!
# Properties of waiting for data (C186–C188)
-/

namespace Verif.Props
open Verif.PollIo

/-- A session that messages can be read from. -/
def Usable (s : Sess) : Prop := s.status = .running ∨ s.status = .starting

/-- The peer has sent something that can be read: bytes in the channel, decrypted ones or on the descriptor. -/
def HasData (s : Sess) (v : Env) : Prop :=
  match s.ti with
  | .ssh => ∃ n, v.ssh = .bytes (n + 1)
  | .tls => v.pending ≠ 0 ∨ ∃ e, v.poll = .ready e ∧ e.inp = true
  | _ => ∃ e, v.poll = .ready e ∧ e.inp = true

/-- Nothing has happened. -/
def Silent (s : Sess) (v : Env) : Prop :=
  match s.ti with
  | .ssh => v.ssh = .bytes 0
  | .tls => v.pending = 0 ∧ v.poll = .timeout
  | _ => v.poll = .timeout

/-- The kernel does not report a descriptor as ready for nothing, nor as one that is not open. -/
def Sane (v : Env) : Prop := ∀ e, v.poll = .ready e → e.nval = false ∧ (e.inp = true ∨ e.hup = true ∨ e.err = true)

theorem usable_not {s : Sess} (h : Usable s) : ¬(s.status ≠ .running ∧ s.status ≠ .starting) := by
  rintro ⟨h1, h2⟩
  rcases h with h | h
  · exact h1 h
  · exact h2 h

theorem finish_zero {s : Sess} {p : Polled} (h : (finish s p).1 = 0) : p = .timeout ∧ (finish s p).2 = s := by
  cases p with
  | fail => simp [finish] at h
  | timeout => exact ⟨rfl, rfl⟩
  | ready e =>
    exfalso
    simp only [finish] at h
    split at h
    · simp at h
    · split at h <;> simp at h

theorem finish_one {s : Sess} {p : Polled} (h : (finish s p).1 = 1) :
    ∃ e, p = .ready e ∧ e.err = false ∧ ¬(e.hup = true ∧ e.inp = false) ∧ (finish s p).2 = s := by
  cases p with
  | fail => simp [finish] at h
  | timeout => simp [finish] at h
  | ready e =>
    simp only [finish] at h ⊢
    split at h
    · simp at h
    · rename_i h1
      split at h
      · simp at h
      · rename_i h2
        exact ⟨e, rfl, by simpa using h1, h2, by simp [h1, h2]⟩

theorem finish_values (s : Sess) (p : Polled) :
    (finish s p).1 = 1 ∨ (finish s p).1 = 0 ∨
      ((finish s p).1 = -1 ∧ (finish s p).2.status = .invalid ∧ ((finish s p).2.reason = .other ∨ (finish s p).2.reason = .dropped)) := by
  cases p with
  | fail => exact .inr (.inr ⟨rfl, rfl, .inl rfl⟩)
  | timeout => exact .inr (.inl rfl)
  | ready e =>
    simp only [finish]
    split
    · exact .inr (.inr ⟨rfl, rfl, .inl rfl⟩)
    · split
      · exact .inr (.inr ⟨rfl, rfl, .inr rfl⟩)
      · exact .inl rfl

/-- C186: 0 is returned exactly for a usable session on which nothing happened, and leaves it as it was. -/
theorem wait_silent {s : Sess} {v : Env} (ht : s.ti ≠ .none) :
    (readPoll s v).1 = 0 ↔ Usable s ∧ Silent s v := by
  obtain ⟨st, r, ti⟩ := s
  constructor
  · intro h
    unfold readPoll at h
    split at h
    · simp at h
    · rename_i hu
      refine ⟨by cases st <;> simp_all [Usable], ?_⟩
      cases ti with
      | none => exact absurd rfl ht
      | ssh =>
        simp only at h
        simp only [Silent]
        split at h <;> simp_all [finish]
      | tls =>
        simp only at h
        simp only [Silent]
        split at h
        · simp [finish] at h
        · rename_i hp
          exact ⟨by simpa using hp, (finish_zero h).1⟩
      | fd => exact (finish_zero h).1
      | unix => exact (finish_zero h).1
  · rintro ⟨hu, hs⟩
    unfold readPoll
    rw [if_neg (usable_not hu)]
    cases ti with
    | none => exact absurd rfl ht
    | ssh => simp only [Silent] at hs; simp [hs, finish]
    | tls => simp only [Silent] at hs; simp [hs, finish]
    | fd => simp only [Silent] at hs; simp [hs, finish]
    | unix => simp only [Silent] at hs; simp [hs, finish]

/-- C186: 1 is returned only if there is something to read, for descriptors that are open. -/
theorem wait_data_partial {s : Sess} {v : Env} (hv : Sane v) (h : (readPoll s v).1 = 1) : Usable s ∧ HasData s v := by
  obtain ⟨st, r, ti⟩ := s
  unfold readPoll at h
  split at h
  · simp at h
  · rename_i hu
    have key : ∀ {s : Sess} {p}, p = v.poll → (finish s p).1 = 1 → ∃ e, v.poll = .ready e ∧ e.inp = true := by
      intro s p hp h1
      obtain ⟨e, he, h2, h3, _⟩ := finish_one h1
      refine ⟨e, hp ▸ he, ?_⟩
      have h4 := (hv e (hp ▸ he)).2
      cases hi : e.inp with
      | true => rfl
      | false =>
        rcases h4 with h4 | h4 | h4
        · rw [hi] at h4; cases h4
        · exact absurd ⟨h4, hi⟩ h3
        · rw [h2] at h4; cases h4
    refine ⟨by cases st <;> simp_all [Usable], ?_⟩
    cases ti with
    | none => simp at h
    | ssh =>
      simp only at h
      simp only [HasData]
      split at h
      · simp at h
      · simp at h
      · simp [finish] at h
      · simp [finish] at h
      · exact ⟨_, by assumption⟩
    | tls =>
      simp only at h
      simp only [HasData]
      split at h
      · rename_i hp; exact .inl hp
      · exact .inr (key rfl h)
    | fd => exact key rfl h
    | unix => exact key rfl h

/-- C186: the only results are 1, 0 and -1; -1 leaves a session that is over and says why; 1 and 0 leave it as it was. -/
theorem wait_failed {s : Sess} {v : Env} (ht : s.ti ≠ .none) (hu : Usable s) :
    ((readPoll s v).1 = 1 ∧ (readPoll s v).2 = s) ∨ ((readPoll s v).1 = 0 ∧ (readPoll s v).2 = s) ∨
      ((readPoll s v).1 = -1 ∧ (readPoll s v).2.status = .invalid ∧
        ((readPoll s v).2.reason = .other ∨ (readPoll s v).2.reason = .dropped)) := by
  have key : ∀ p, ((finish s p).1 = 1 ∧ (finish s p).2 = s) ∨ ((finish s p).1 = 0 ∧ (finish s p).2 = s) ∨
      ((finish s p).1 = -1 ∧ (finish s p).2.status = .invalid ∧ ((finish s p).2.reason = .other ∨ (finish s p).2.reason = .dropped)) := by
    intro p
    rcases finish_values s p with h | h | h
    · obtain ⟨_, _, _, _, h2⟩ := finish_one h; exact .inl ⟨h, h2⟩
    · exact .inr (.inl ⟨h, (finish_zero h).2⟩)
    · exact .inr (.inr h)
  unfold readPoll
  rw [if_neg (usable_not hu)]
  split
  · split
    · exact .inr (.inr ⟨rfl, rfl, .inl rfl⟩)
    · exact .inr (.inr ⟨rfl, rfl, .inr rfl⟩)
    · exact key _
    · exact key _
    · exact key _
  · split
    · exact key _
    · exact key _
  · exact key _
  · exact key _
  · exact absurd (by assumption) ht

/-- C186: what the peer sent before closing is still reported, a descriptor closed without that ends the session as dropped. -/
theorem wait_last_data {s : Sess} {v : Env} {e : Events} (hu : Usable s) (ht : s.ti = .fd ∨ s.ti = .unix ∨ (s.ti = .tls ∧ v.pending = 0))
    (hp : v.poll = .ready e) (he : e.err = false) :
    (e.inp = true → (readPoll s v).1 = 1) ∧
    (e.hup = true → e.inp = false → (readPoll s v).1 = -1 ∧ (readPoll s v).2.reason = .dropped) := by
  have h : readPoll s v = finish s (.ready e) := by
    unfold readPoll
    rw [if_neg (usable_not hu)]
    rcases ht with h | h | ⟨h, h0⟩
    · simp [h, hp]
    · simp [h, hp]
    · simp [h, h0, hp]
  rw [h]
  constructor
  · intro hi; simp [finish, he, hi]
  · intro hh hi; simp [finish, he, hh, hi, Sess.fail]

theorem readPoll_over {s : Sess} {v : Env} (h : ¬Usable s) : readPoll s v = (-1, s) := by
  unfold readPoll
  rw [if_pos ⟨fun h1 => h (.inl h1), fun h1 => h (.inr h1)⟩]

/-- C186: a session that is over stays so: all waits after a failed one fail and change nothing. -/
theorem wait_over : ∀ {s : Sess} (vs : List Env), ¬Usable s → (∀ r ∈ (readPolls s vs).1, r = -1) ∧ (readPolls s vs).2 = s
  | _, [], _ => ⟨by simp [readPolls], rfl⟩
  | s, v :: vs, h => by
    have h1 := readPoll_over (v := v) h
    obtain ⟨h2, h3⟩ := wait_over vs h
    simp only [readPolls, h1]
    refine ⟨?_, h3⟩
    intro r hr
    rcases List.mem_cons.1 hr with rfl | hr
    · rfl
    · exact h2 r hr

/-- C186 is false for a descriptor that is not open: it is reported to have something to read. -/
theorem wait_data_false : ∃ s v, (readPoll s v).1 = 1 ∧ ¬HasData s v :=
  ⟨⟨.running, .none, .fd⟩, { poll := .ready { nval := true } }, rfl, by rintro ⟨e, h, hi⟩; cases h; cases hi⟩

/-- C187: a session is called connected only if its connection was not found to be lost. -/
theorem connected_partial {s : Sess} {v : Env} (h : isConnected s v = true) (hs : s.ti ≠ .ssh) :
    v.hasFd = true ∧ v.poll ≠ .fail ∧ ∀ e, v.poll = .ready e → e.hup = false ∧ e.err = false := by
  obtain ⟨st, r, ti⟩ := s
  have key : (if v.hasFd = false then false else match v.poll with | .fail => false | .timeout => true | .ready e => !(e.hup || e.err)) = true →
      v.hasFd = true ∧ v.poll ≠ .fail ∧ ∀ e, v.poll = .ready e → e.hup = false ∧ e.err = false := by
    intro h
    cases hf : v.hasFd with
    | false => simp [hf] at h
    | true =>
      simp only [hf, Bool.true_eq_false, if_false] at h
      cases hp : v.poll with
      | fail => simp [hp] at h
      | timeout => exact ⟨rfl, by simp, fun e he => by cases he⟩
      | ready e =>
        simp only [hp] at h
        refine ⟨rfl, by simp, fun e' he => ?_⟩
        cases he
        simpa using h
  cases ti with
  | none => simp [isConnected] at h
  | ssh => exact absurd rfl hs
  | tls => exact key h
  | fd => exact key h
  | unix => exact key h

/-- C187: a connection that is open and shows no error is not taken for lost, and waiting on it does not end the session. -/
theorem not_connected_reason {s : Sess} {v : Env} (ht : s.ti = .fd ∨ s.ti = .unix ∨ s.ti = .tls) (hf : v.hasFd = true)
    (hp : v.poll = .timeout ∨ ∃ e, v.poll = .ready e ∧ e.hup = false ∧ e.err = false) (hu : Usable s) :
    isConnected s v = true ∧ (readPoll s v).2 = s := by
  have hfin : (finish s v.poll).2 = s := by
    rcases hp with h | ⟨e, h, h1, h2⟩
    · rw [h]; rfl
    · rw [h]; simp [finish, h1, h2]
  have hcon : (match v.poll with | .fail => false | .timeout => true | .ready e => !(e.hup || e.err)) = true := by
    rcases hp with h | ⟨e, h, h1, h2⟩
    · rw [h]
    · rw [h]; simp [h1, h2]
  rcases ht with h | h | h
  · exact ⟨by simp only [isConnected, h, hf, Bool.true_eq_false, if_false]; exact hcon, by simp [readPoll, usable_not hu, h, hfin]⟩
  · exact ⟨by simp only [isConnected, h, hf, Bool.true_eq_false, if_false]; exact hcon, by simp [readPoll, usable_not hu, h, hfin]⟩
  · refine ⟨by simp only [isConnected, h, hf, Bool.true_eq_false, if_false]; exact hcon, ?_⟩
    simp only [readPoll, if_neg (usable_not hu), h]
    split
    · rfl
    · exact hfin

/-- C187 is false: a session whose descriptor is not open is called connected. -/
theorem connected_false : ∃ s v, isConnected s v = true ∧ s.ti ≠ .ssh ∧ ∃ e, v.poll = .ready e ∧ e.nval = true :=
  ⟨⟨.running, .none, .fd⟩, { poll := .ready { nval := true } }, rfl, by decide, _, rfl, rfl⟩

theorem startsWith_iff : ∀ c k : List Char, startsWith c k = true ↔ ∃ t, c = k ++ t
  | c, [] => by simp [startsWith]
  | [], d :: ds => by simp [startsWith]
  | c :: cs, d :: ds => by
    simp only [startsWith, Bool.and_eq_true, beq_iff_eq, startsWith_iff cs ds, List.cons_append, List.cons.injEq]
    constructor
    · rintro ⟨rfl, t, h⟩; exact ⟨t, rfl, h⟩
    · rintro ⟨t, h1, h2⟩; exact ⟨h1, t, h2⟩

/-- C188: the capability found is the first one that is the one asked for with any suffix. -/
theorem capability_found : ∀ {cs : List (List Char)} {k c : List Char},
    cpblt cs k = some c ↔ ∃ a b t, cs = a ++ c :: b ∧ c = k ++ t ∧ ∀ x ∈ a, ¬∃ t, x = k ++ t
  | [], k, c => by simp [cpblt]
  | d :: cs, k, c => by
    unfold cpblt
    split
    · rename_i h
      obtain ⟨t, ht⟩ := (startsWith_iff d k).1 h
      constructor
      · intro hc; cases hc; exact ⟨[], cs, t, rfl, ht, by simp⟩
      · rintro ⟨a, b, t', he, hc, ha⟩
        cases a with
        | nil => simp only [List.nil_append, List.cons.injEq] at he; rw [he.1]
        | cons x a =>
          simp only [List.cons_append, List.cons.injEq] at he
          exact absurd ⟨t, he.1 ▸ ht⟩ (ha x List.mem_cons_self)
    · rename_i h
      have hd : ¬∃ t, d = k ++ t := fun h' => h ((startsWith_iff d k).2 h')
      rw [capability_found]
      constructor
      · rintro ⟨a, b, t, he, hc, ha⟩
        refine ⟨d :: a, b, t, by rw [he]; rfl, hc, ?_⟩
        intro x hx
        rcases List.mem_cons.1 hx with rfl | hx
        · exact hd
        · exact ha x hx
      · rintro ⟨a, b, t, he, hc, ha⟩
        cases a with
        | nil => simp only [List.nil_append, List.cons.injEq] at he; exact absurd ⟨t, he.1.trans hc⟩ hd
        | cons x a =>
          simp only [List.cons_append, List.cons.injEq] at he
          exact ⟨a, b, t, he.2, hc, fun y hy => ha y (List.mem_cons_of_mem _ hy)⟩

/-- C188: nothing is found exactly if the server announced no such capability. -/
theorem capability_missing {cs : List (List Char)} {k : List Char} : cpblt cs k = none ↔ ∀ c ∈ cs, ¬∃ t, c = k ++ t := by
  induction cs with
  | nil => simp [cpblt]
  | cons d cs ih =>
    unfold cpblt
    split
    · rename_i h
      simp only [reduceCtorEq, List.mem_cons, forall_eq_or_imp, false_iff, not_and]
      intro h'
      exact absurd ((startsWith_iff d k).1 h) h'
    · rename_i h
      rw [ih]
      simp only [List.mem_cons, forall_eq_or_imp]
      exact ⟨fun h1 => ⟨fun h' => h ((startsWith_iff d k).2 h'), h1⟩, fun h1 => h1.2⟩

/-! ## Examples -/

/-- Data, then silence, then the end, then failures. -/
example : readPolls ⟨.running, .none, .unix⟩
    [{ poll := .ready { inp := true, hup := true } }, { poll := .timeout }, { poll := .ready { hup := true } }, { poll := .ready { inp := true } }]
    = ([1, 0, -1, -1], ⟨.invalid, .dropped, .unix⟩) := rfl

/-- Decrypted bytes are reported though the descriptor is silent. -/
example : (readPoll ⟨.running, .none, .tls⟩ { poll := .timeout, pending := 3 }).1 = 1 ∧ HasData ⟨.running, .none, .tls⟩ { poll := .timeout, pending := 3 } :=
  ⟨rfl, .inl (by decide)⟩

/-- An environment that is sane. -/
example : Sane { poll := .ready { inp := true } } := by intro e h; cases h; exact ⟨rfl, .inl rfl⟩

/-- A lost connection. -/
example : isConnected ⟨.running, .none, .tls⟩ { poll := .ready { inp := true, hup := true } } = false := rfl

/-- A capability with a suffix, and one asked for in full. -/
example : cpblt [['a', ':', '1'], ['b', ':', '1', '?', 'x'], ['b', ':', '1']] ['b', ':', '1'] = some ['b', ':', '1', '?', 'x'] ∧
    cpblt [['a', ':', '1']] ['a', ':', '2'] = none := by decide

end Verif.Props
