import Verif.Lemmas.TtyPrompt

/-! # Asking the user in a terminal -/

namespace Verif.Props

open Verif.TtyPrompt

/-- C176: whatever fails on the way, the callbacks leave no file open and all terminals with the settings they had, if setting them back is possible at all; files are closed
in any case. -/
theorem prompt_restores (e : Env) (restore : Bool) (a : Ask) (input : List Nat) (s s' : St) (text : Option (List Nat)) (seen : Option Term)
    (h : ask e restore a input s = .done text s' seen) : s'.files = s.files ∧ (restore = true → s'.terms = s.terms) := by
  unfold ask at h
  split at h
  · cases h; exact ⟨rfl, fun _ => rfl⟩
  · have hin := openIn_spec e a.echo s
    revert h hin
    generalize openIn e a.echo s = oi
    obtain ⟨i, s1⟩ := oi
    cases i with
    | none =>
      rintro h rfl
      simp only [finish, closeIn, closeOut, Res.done.injEq] at h
      obtain ⟨-, rfl, -⟩ := h
      exact ⟨rfl, fun _ => rfl⟩
    | some i =>
      obtain ⟨p, old⟩ := i
      rintro h ⟨rfl, hf, ht⟩
      have back : restore = true → (if (!a.echo && restore) = true then setTerm (e.dev p) (s.terms (e.dev p)) s1.terms else s1.terms) = s.terms := by
        intro hr
        subst hr
        rw [ht]
        cases a.echo
        · simp [setTerm_back]
        · simp
      revert h
      rcases openOut_spec e s1 with ho | ⟨o, ho⟩ <;> simp only [ho]
      · intro h
        simp only [finish, closeIn, closeOut, Res.done.injEq] at h
        obtain ⟨-, rfl, -⟩ := h
        exact ⟨by simp [hf], back⟩
      · intro h
        have key : ∀ t sn, finish e restore a.echo (some (p, s.terms (e.dev p))) (some o) t sn { s1 with files := o :: s1.files } = .done text s' seen →
            s'.files = s.files ∧ (restore = true → s'.terms = s.terms) := by
          intro t sn h
          simp only [finish, closeIn, closeOut, Res.done.injEq] at h
          obtain ⟨-, rfl, -⟩ := h
          exact ⟨by rw [hf]; exact erase_two p o s.files, back⟩
        split at h
        · exact key _ _ h
        · split at h
          · cases h
          · exact key _ _ h
          · exact key _ _ h

/-- May typed text be shown: only if the server said so in keyboard-interactive authentication (RFC 4256, 3.2); passwords and passphrases never. -/
def Shown (a : Ask) : Prop := ∃ name instruction, a = .interactive true name instruction

theorem shown_iff (a : Ask) : Shown a ↔ a.echo = true := by
  cases a <;> simp [Shown, Ask.echo]

theorem not_shown_iff (a : Ask) : ¬Shown a ↔ a.echo = false := by
  rw [shown_iff]; simp

/-- C176: while the text is typed the terminal does not show it, unless the server asked for an answer that is to be shown; then the settings are unchanged. Text is returned
only if it was typed that way. -/
theorem prompt_hidden (e : Env) (restore : Bool) (a : Ask) (input : List Nat) (s s' : St) (text : Option (List Nat)) (seen : Option Term)
    (h : ask e restore a input s = .done text s' seen) :
    (∀ t, seen = some t → ∃ p, (¬Shown a → t = { s.terms (e.dev p) with echo := false }) ∧ (Shown a → t = s.terms (e.dev p))) ∧
      (seen = none → text = none) := by
  rw [shown_iff, Bool.not_eq_true]
  unfold ask at h
  split at h
  · cases h; exact ⟨fun t h => (nomatch h), fun _ => rfl⟩
  · have hin := openIn_spec e a.echo s
    revert h hin
    generalize openIn e a.echo s = oi
    obtain ⟨i, s1⟩ := oi
    cases i with
    | none =>
      rintro h rfl
      simp only [finish, Res.done.injEq] at h
      obtain ⟨rfl, -, rfl⟩ := h
      exact ⟨fun t h => (nomatch h), fun _ => rfl⟩
    | some i =>
      obtain ⟨p, old⟩ := i
      rintro h ⟨rfl, -, ht⟩
      have see : ∃ p', (a.echo = false → s1.terms (e.dev p) = { s.terms (e.dev p') with echo := false }) ∧ (a.echo = true → s1.terms (e.dev p) = s.terms (e.dev p')) := by
        refine ⟨p, fun he => ?_, fun he => ?_⟩ <;> rw [ht] <;> simp [he, setTerm]
      revert h
      rcases openOut_spec e s1 with ho | ⟨o, ho⟩ <;> simp only [ho]
      · intro h
        simp only [finish, Res.done.injEq] at h
        obtain ⟨rfl, -, rfl⟩ := h
        exact ⟨fun t h => (nomatch h), fun _ => rfl⟩
      · intro h
        split at h
        · simp only [finish, Res.done.injEq] at h
          obtain ⟨rfl, -, rfl⟩ := h
          exact ⟨fun t h => (nomatch h), fun _ => rfl⟩
        · split at h
          · cases h
          · simp only [finish, Res.done.injEq] at h
            obtain ⟨rfl, -, rfl⟩ := h
            exact ⟨fun t h => by cases h; exact see, fun h => (nomatch h)⟩
          · simp only [finish, Res.done.injEq] at h
            obtain ⟨rfl, -, rfl⟩ := h
            exact ⟨fun t h => by cases h; exact see, fun h => (nomatch h)⟩

/-- The line typed: all up to the end of the line or of the input. -/
def typedLine (input : List Nat) : List Nat := input.takeWhile (· != 10)

/-- How many texts the user is to be shown: the name and the instruction of the server if it gave them, and the prompt. -/
def textsShown : Ask → Nat
  | .interactive _ name instruction => [name, instruction, true].count true
  | _ => 1

theorem textsShown_eq (a : Ask) : textsShown a = a.prompts := by
  rcases a with _ | ⟨b, n, i⟩ | _
  · rfl
  · cases n <;> cases i <;> rfl
  · rfl

/-- Can the user be asked: there is a terminal for input and one for output, with memory and writing without failures. -/
def CanAsk (e : Env) (a : Ask) : Prop :=
  (∀ n, e.alloc n = true) ∧ (∀ n < textsShown a, e.writes n = true) ∧ (e.canWrite .tty = true ∨ (e.nameOut = true ∧ e.canWrite .stdout = true)) ∧
    ∃ p, (p = Path.tty ∨ (p = .stdin ∧ e.nameIn = true)) ∧ e.canRead p = true ∧ (¬Shown a → e.getAttr p = true ∧ e.setAttr p = true)

/-- C177: for lines shorter than 2^30 characters (2^31 for keyboard-interactive answers), text that is returned is exactly the line typed and nothing is written outside of
the buffer. -/
theorem prompt_text_partial (e : Env) (restore : Bool) (a : Ask) (input : List Nat) (s : St)
    (hl : (typedLine input).length < if a = .password ∨ a = .passphrase then 2 ^ 30 else 2 ^ 31) :
    ∃ text s' seen, ask e restore a input s = .done text s' seen ∧ ∀ l, text = some l → l = typedLine input := by
  have hl' : ([] : List Nat).length + (input.takeWhile (· != 10)).length < tooLong a.int := by
    cases a <;> simp [typedLine] at hl <;> simpa [tooLong, Ask.int] using hl
  obtain ⟨k, hk⟩ := cap_pow a
  have hr := readLine_short a.int e.alloc input [] a.cap k hk (by cases a <;> simp [Ask.cap]) hl'
  unfold ask
  split
  · exact ⟨_, _, _, rfl, fun l h => (nomatch h)⟩
  · split
    · exact ⟨_, _, _, rfl, fun l h => (nomatch h)⟩
    · split
      · exact ⟨_, _, _, rfl, fun l h => (nomatch h)⟩
      · split
        · exact ⟨_, _, _, rfl, fun l h => (nomatch h)⟩
        · rcases hr with hr | ⟨hr, -⟩ <;> rw [hr]
          · exact ⟨_, _, _, rfl, fun l h => by simpa [typedLine] using h.symm⟩
          · exact ⟨_, _, _, rfl, fun l h => (nomatch h)⟩

/-- What is read when the user can be asked. -/
theorem ask_granted (e : Env) (restore : Bool) (a : Ask) (input : List Nat) (s : St) (hc : CanAsk e a) :
    ∃ i o s2, ask e restore a input s = match readLine a.int e.alloc a.cap [] input with
      | .undefined => .undefined
      | .nomem => finish e restore a.echo (some i) (some o) none (some (s2.terms (e.dev i.1))) s2
      | .text l => finish e restore a.echo (some i) (some o) (some l) (some (s2.terms (e.dev i.1))) s2 := by
  obtain ⟨hm, hw, ho, p, hp, hcr, hga⟩ := hc
  have hin : ∃ i s1, openIn e a.echo s = (some i, s1) := by
    have one : ∀ s, ∃ old s1, openOne e a.echo p s = (some old, s1) := by
      intro s
      cases he : a.echo
      · obtain ⟨g1, g2⟩ := hga ((not_shown_iff a).2 he)
        simp [openOne, openNoEcho, hcr, g1, g2]
      · simp [openOne, openPlain, hcr]
    rcases hp with rfl | ⟨rfl, hn⟩
    · obtain ⟨old, s1, h⟩ := one s
      exact ⟨(.tty, old), s1, by simp [openIn, h]⟩
    · unfold openIn
      split
      · exact ⟨_, _, rfl⟩
      · next s1 _ =>
        obtain ⟨old, s2, h⟩ := one s1
        exact ⟨(.stdin, old), s2, by simp [hn, h]⟩
  obtain ⟨i, s1, hi⟩ := hin
  have hout : ∃ o s2, openOut e s1 = (some o, s2) := by
    unfold openOut
    rcases ho with h | ⟨h1, h2⟩
    · simp [h]
    · cases e.canWrite .tty <;> simp [h1, h2]
  obtain ⟨o, s2, ho'⟩ := hout
  refine ⟨i, o, s2, ?_⟩
  have hall : (List.range a.prompts).all e.writes = true := List.all_eq_true.2 fun n hn => hw n (by rw [textsShown_eq]; exact List.mem_range.mp hn)
  simp only [ask, hm, hi, ho', hall, Bool.true_eq_false, if_false]
  cases readLine a.int e.alloc a.cap [] input <;> rfl

/-- C177: a user who can be asked gives the line typed. -/
theorem prompt_answers (e : Env) (restore : Bool) (a : Ask) (input : List Nat) (s : St) (hc : CanAsk e a)
    (hl : (typedLine input).length < if a = .password ∨ a = .passphrase then 2 ^ 30 else 2 ^ 31) :
    ∃ s' seen, ask e restore a input s = .done (some (typedLine input)) s' seen := by
  obtain ⟨i, o, s2, h⟩ := ask_granted e restore a input s hc
  have hl' : ([] : List Nat).length + (input.takeWhile (· != 10)).length < tooLong a.int := by
    cases a <;> simp [typedLine] at hl <;> simpa [tooLong, Ask.int] using hl
  obtain ⟨k, hk⟩ := cap_pow a
  rcases readLine_short a.int e.alloc input [] a.cap k hk (by cases a <;> simp [Ask.cap]) hl' with hr | ⟨-, n, hn⟩
  · rw [h, hr]
    exact ⟨_, _, rfl⟩
  · rw [hc.1 n] at hn; cases hn

/-- C177: nothing is read before all texts were written for the user. -/
theorem prompt_written (e : Env) (restore : Bool) (a : Ask) (input : List Nat) (s s' : St) (text : Option (List Nat)) (seen : Option Term)
    (h : ask e restore a input s = .done text s' seen) (hs : seen ≠ none ∨ text ≠ none) : ∀ n < textsShown a, e.writes n = true := by
  have no : ∀ i o s2, finish e restore a.echo i o none none s2 = .done text s' seen → False := by
    intro i o s2 h
    simp only [finish, Res.done.injEq] at h
    obtain ⟨rfl, -, rfl⟩ := h
    simp at hs
  unfold ask at h
  split at h
  · cases h; simp at hs
  · split at h
    · exact absurd h (no _ _ _)
    · split at h
      · exact absurd h (no _ _ _)
      · split at h
        · exact absurd h (no _ _ _)
        · rename_i hw
          intro n hn
          rw [Bool.not_eq_false, List.all_eq_true] at hw
          exact hw n (List.mem_range.mpr (by rw [← textsShown_eq]; exact hn))

/-- C177 is false for longer lines: the size of the buffer overflows. -/
theorem prompt_text_false (e : Env) (restore : Bool) (a : Ask) (input : List Nat) (s : St) (hc : CanAsk e a)
    (hl : ¬(typedLine input).length < if a = .password ∨ a = .passphrase then 2 ^ 30 else 2 ^ 31) : ask e restore a input s = .undefined := by
  obtain ⟨i, o, s2, h⟩ := ask_granted e restore a input s hc
  have hl' : tooLong a.int ≤ ([] : List Nat).length + (input.takeWhile (· != 10)).length := by
    cases a <;> simp [typedLine] at hl <;> simpa [tooLong, Ask.int] using hl
  obtain ⟨k, hk⟩ := cap_pow a
  rw [h, readLine_long a.int e.alloc hc.1 input [] a.cap k hk (by cases a <;> simp [Ask.cap]) hl']

/-- A terminal that is there under all names and allows everything. -/
def goodTty : Env := ⟨fun _ => 0, fun _ => true, fun _ => true, fun _ => true, fun _ => true, true, true, fun _ => true, fun _ => true⟩

example : ask { goodTty with writes := fun n => n != 2 } true (.interactive true true true) [112, 10] ⟨fun _ => ⟨true, 5⟩, []⟩ =
    .done none ⟨fun _ => ⟨true, 5⟩, []⟩ none := by rfl

example : ∃ s' seen, ask goodTty true .password [112, 119, 10, 120] ⟨fun _ => ⟨true, 5⟩, []⟩ = .done (some [112, 119]) s' seen :=
  prompt_answers goodTty true .password [112, 119, 10, 120] _ ⟨fun _ => rfl, fun _ _ => rfl, Or.inl rfl, .tty, Or.inl rfl, rfl, fun _ => ⟨rfl, rfl⟩⟩ (by decide)

/-- What can be compared of a result. -/
def resSeen : Res → Option (Option (List Nat) × Bool × List Path × Option Term)
  | .done t s n => some (t, (s.terms 0).echo, s.files, n)
  | .undefined => none

example : resSeen (ask goodTty true .password [112, 119, 10, 120] ⟨fun _ => ⟨true, 5⟩, []⟩) = some (some [112, 119], true, [], some ⟨false, 5⟩) ∧
    resSeen (ask { goodTty with canWrite := fun _ => false } true .passphrase [112, 10] ⟨fun _ => ⟨true, 5⟩, []⟩) = some (none, true, [], none) := ⟨rfl, rfl⟩

example : ∃ input, ask goodTty true .password input ⟨fun _ => ⟨true, 5⟩, []⟩ = .undefined := by
  obtain ⟨n, hn⟩ : ∃ n, n = 2 ^ 30 := ⟨_, rfl⟩
  refine ⟨List.replicate n 97, prompt_text_false goodTty true .password _ _
    ⟨fun _ => rfl, fun _ _ => rfl, Or.inl rfl, .tty, Or.inl rfl, rfl, fun _ => ⟨rfl, rfl⟩⟩ ?_⟩
  have hl : (typedLine (List.replicate n 97)).length = n := by simp [typedLine]
  rw [hl, if_pos (Or.inl rfl), hn]
  exact Nat.lt_irrefl _

end Verif.Props
