import Verif.Spec.ChCtx

/-! Lemmas about the events of a Call Home thread (src/session_server.c:2695-2879, 2989-3162). -/

namespace Verif.ChCtx

/-- The counts add up (src/session_server.c:2712, 2784). -/
theorem counts_append (a b : List Ev) : acquisitions (a ++ b) = acquisitions a + acquisitions b ∧ releases (a ++ b) = releases a + releases b ∧
    creations (a ++ b) = creations a + creations b ∧ frees (a ++ b) = frees a + frees b ∧ taken (a ++ b) = taken a + taken b := by
  simp [acquisitions, releases, creations, frees, taken, List.countP_append]

theorem covered_append {a b : List Ev} (ha : Covered a) (hb : Covered b) : Covered (a ++ b) := by
  intro p q h
  rcases List.append_eq_append_iff.mp h with ⟨c, h1, h2⟩ | ⟨c, h1, h2⟩
  · have e1 := counts_append a c
    have e2 := ha a [] (by simp)
    have e3 := hb c q h2
    subst h1
    omega
  · exact ha p c h1

theorem covered_nil : Covered [] := by
  intro p q h
  have : p = [] := by cases p <;> simp_all
  subst this
  decide

theorem covered_of_take {t : List Ev} (h : ∀ k, k ≤ t.length → releases (t.take k) + creations (t.take k) ≤ acquisitions (t.take k) + frees (t.take k)) :
    Covered t := by
  intro p q e
  have := h p.length (by simp [e])
  simpa [e] using this

theorem covered_vrb (v : Bool) (n : Nat) : Covered (vrb v n) := by
  apply covered_of_take
  cases v
  · simp [vrb, releases, creations]
  · intro k hk
    simp only [vrb, if_true, List.length_singleton] at hk ⊢
    have : k = 0 ∨ k = 1 := by omega
    rcases this with rfl | rfl <;> simp [releases, creations]

/-- What `nc_connect_ch_endpt` can do (src/session_server.c:2695-2787). -/
theorem connect_cases (n : Nat) (r : Round) : connectEndpt n r = ([], false) ∨ connectEndpt n r = ([.acquired false], false) ∨
    connectEndpt n r = ([.acquired true, .released], false) ∨ connectEndpt n r = ([.acquired true, .created n, .freed n, .released], false) ∨
    connectEndpt n r = ([.acquired true, .created n], true) := by
  simp only [connectEndpt]
  repeat' split
  all_goals simp

/-- What waiting for the end of a session can do (src/session_server.c:2798-2879). -/
theorem wait_cases (n : Nat) (r : Round) : (r.taken = false ∧ condWait n r = ([.given n false, .freed n, .released], false)) ∨
    (r.taken = true ∧ r.freed = false ∧ condWait n r = ([.given n true, .used n], decide (r.wait ≠ .ended))) ∨
    (r.taken = true ∧ r.freed = true ∧ condWait n r = ([.given n true, .used n, .userFreed n], decide (r.wait ≠ .ended))) := by
  simp only [condWait]
  cases r.taken <;> cases r.freed <;> simp

theorem covered_connect (n : Nat) (r : Round) : Covered (connectEndpt n r).1 := by
  apply covered_of_take
  intro k hk
  rcases connect_cases n r with h | h | h | h | h <;> rw [h] at hk ⊢ <;> simp only [List.length_cons, List.length_nil] at hk <;>
    (have hk' : k = 0 ∨ k = 1 ∨ k = 2 ∨ k = 3 ∨ k = 4 := by omega) <;> rcases hk' with rfl | rfl | rfl | rfl | rfl <;>
    simp [releases, creations, acquisitions, frees]

theorem covered_wait (n : Nat) (r : Round) : Covered (condWait n r).1 := by
  apply covered_of_take
  intro k hk
  rcases wait_cases n r with ⟨_, h⟩ | ⟨_, _, h⟩ | ⟨_, _, h⟩ <;> rw [h] at hk ⊢ <;> simp only [List.length_cons, List.length_nil] at hk <;>
    (have hk' : k = 0 ∨ k = 1 ∨ k = 2 ∨ k = 3 := by omega) <;> rcases hk' with rfl | rfl | rfl | rfl <;>
    simp [releases, creations, acquisitions, frees]

/-- Events of a round are about its session (src/session_server.c:3011-3147). -/
theorem connect_touches {n m : Nat} (r : Round) (h : n ≠ m) : ∀ e ∈ (connectEndpt n r).1, touches m e = false := by
  rcases connect_cases n r with h' | h' | h' | h' | h' <;> rw [h'] <;> simp [touches, h]

theorem wait_touches {n m : Nat} (r : Round) (h : n ≠ m) : ∀ e ∈ (condWait n r).1, touches m e = false := by
  rcases wait_cases n r with ⟨_, h'⟩ | ⟨_, _, h'⟩ | ⟨_, _, h'⟩ <;> rw [h'] <;> simp [touches, h]

theorem vrb_touches {n m : Nat} (v : Bool) (h : n ≠ m) : ∀ e ∈ vrb v n, touches m e = false := by
  cases v <;> simp [vrb, touches, h]

/-- The rounds that follow (src/session_server.c:3011). -/
def later (v : Bool) (n : Nat) (r : Round) (rs : List Round) : List Ev := if r.next then thread v (n + 1) rs else []

/-- The forms of a round (src/session_server.c:3011-3147). -/
theorem thread_cases (v : Bool) (n : Nat) (r : Round) (rs : List Round) :
    ((connectEndpt n r).2 = true ∧ r.running = false ∧ thread v n (r :: rs) = (connectEndpt n r).1 ++ vrb v n) ∨
    ((connectEndpt n r).2 = true ∧ r.running = true ∧ (condWait n r).2 = true ∧
      thread v n (r :: rs) = (connectEndpt n r).1 ++ vrb v n ++ (condWait n r).1 ++ vrb v n) ∨
    ((connectEndpt n r).2 = true ∧ r.running = true ∧ (condWait n r).2 = false ∧
      thread v n (r :: rs) = (connectEndpt n r).1 ++ vrb v n ++ (condWait n r).1 ++ later v n r rs) ∨
    ((connectEndpt n r).2 = false ∧ thread v n (r :: rs) = (connectEndpt n r).1 ++ later v n r rs) := by
  simp only [thread, later]
  cases (connectEndpt n r).2 <;> cases r.running <;> cases (condWait n r).2 <;> simp

theorem thread_touches (v : Bool) : ∀ (rs : List Round) (n m : Nat), m < n → ∀ e ∈ thread v n rs, touches m e = false
  | [], _, _, _, e, he => by simp [thread] at he
  | r :: rs, n, m, h, e, he => by
    have hn : n ≠ m := by omega
    have hl : ∀ e ∈ later v n r rs, touches m e = false := by
      intro e he
      simp only [later] at he
      split at he
      · exact thread_touches v rs (n + 1) m (by omega) e he
      · cases he
    have hc := connect_touches r hn
    have hw := wait_touches r hn
    have hv := vrb_touches v hn
    rcases thread_cases v n r rs with ⟨_, _, ht⟩ | ⟨_, _, _, ht⟩ | ⟨_, _, _, ht⟩ | ⟨_, ht⟩ <;> rw [ht] at he <;>
      simp only [List.mem_append] at he
    · rcases he with he | he
      · exact hc e he
      · exact hv e he
    · rcases he with ((he | he) | he) | he
      · exact hc e he
      · exact hv e he
      · exact hw e he
      · exact hv e he
    · rcases he with ((he | he) | he) | he
      · exact hc e he
      · exact hv e he
      · exact hw e he
      · exact hl e he
    · rcases he with he | he
      · exact hc e he
      · exact hl e he

/-- What follows a list in which sessions are freed has to leave them alone (src/session.c:1021). -/
theorem nouse_append {a b : List Ev} (ha : NoUseAfterFree a) (hb : NoUseAfterFree b)
    (h : ∀ n, .freed n ∈ a ∨ .userFreed n ∈ a → ∀ e ∈ b, touches n e = false) : NoUseAfterFree (a ++ b) := by
  intro n p q hs e he
  have key : ∀ x, (x = .freed n ∨ x = .userFreed n) → a ++ b = p ++ x :: q → touches n e = false := by
    intro x hx hs
    rcases List.append_eq_append_iff.mp hs with ⟨c, h1, h2⟩ | ⟨c, h1, h2⟩
    · rcases hx with rfl | rfl
      · exact hb n c q (.inl h2) e he
      · exact hb n c q (.inr h2) e he
    · cases c with
      | nil =>
        simp only [List.nil_append] at h2
        rcases hx with rfl | rfl
        · exact hb n [] q (.inl h2.symm) e he
        · exact hb n [] q (.inr h2.symm) e he
      | cons y c =>
        simp only [List.cons_append, List.cons.injEq] at h2
        obtain ⟨rfl, rfl⟩ := h2
        rcases List.mem_append.mp he with he | he
        · rcases hx with rfl | rfl
          · exact ha n p c (.inl h1) e he
          · exact ha n p c (.inr h1) e he
        · exact h n (by rcases hx with rfl | rfl <;> simp [h1]) e he
  rcases hs with hs | hs
  · exact key _ (.inl rfl) hs
  · exact key _ (.inr rfl) hs

theorem nouse_nil : NoUseAfterFree [] := by
  intro n p q h
  rcases h with h | h <;> simp at h

theorem nouse_cons {x : Ev} {t : List Ev} (hx : ∀ n, x = .freed n ∨ x = .userFreed n → ∀ e ∈ t, touches n e = false) (ht : NoUseAfterFree t) :
    NoUseAfterFree (x :: t) := by
  have : NoUseAfterFree [x] := by
    intro n p q h e he
    rcases h with h | h <;> cases p <;> simp at h <;> obtain ⟨_, rfl⟩ := h <;> cases he
  refine nouse_append (a := [x]) this ht ?_
  intro n hn
  apply hx n
  simpa [eq_comm] using hn

theorem nouse_connect (n : Nat) (r : Round) : NoUseAfterFree (connectEndpt n r).1 := by
  rcases connect_cases n r with h | h | h | h | h <;> rw [h] <;> repeat' (first | exact nouse_nil | refine nouse_cons ?_ ?_)
  all_goals simp [touches]

theorem nouse_wait (n : Nat) (r : Round) : NoUseAfterFree (condWait n r).1 := by
  rcases wait_cases n r with ⟨_, h⟩ | ⟨_, _, h⟩ | ⟨_, _, h⟩ <;> rw [h] <;> repeat' (first | exact nouse_nil | refine nouse_cons ?_ ?_)
  all_goals simp [touches]

theorem nouse_vrb (v : Bool) (n : Nat) : NoUseAfterFree (vrb v n) := by
  cases v
  · exact nouse_nil
  · exact nouse_cons (by simp) nouse_nil

/-- Who has a session in the end, `R` if the thread is not told to stop too early (src/session_server.c:2781, 2812-2823, 3021-3024). -/
def Owned (R : Prop) (n : Nat) (t : List Ev) : Prop :=
  (R → .created n ∈ t → .freed n ∈ t ∨ .given n true ∈ t) ∧ ¬ (.freed n ∈ t ∧ .given n true ∈ t) ∧ (.given n false ∈ t → .freed n ∈ t) ∧
  t.countP (fun e => match e with | .given m _ => m == n | _ => false) ≤ 1 ∧ ∀ ok, .given n ok ∈ t → .created n ∈ t

theorem not_mem_of_touches {n : Nat} {a : List Ev} (h : ∀ e ∈ a, touches n e = false) :
    .created n ∉ a ∧ .freed n ∉ a ∧ (∀ ok, .given n ok ∉ a) ∧ a.countP (fun e => match e with | .given m _ => m == n | _ => false) = 0 := by
  refine ⟨fun hm => ?_, fun hm => ?_, fun ok hm => ?_, ?_⟩
  · simpa [touches] using h _ hm
  · simpa [touches] using h _ hm
  · simpa [touches] using h _ hm
  · rw [List.countP_eq_zero]
    intro e he
    have := h e he
    cases e <;> simp_all [touches]

theorem owned_skip {R : Prop} {n : Nat} {a b : List Ev} (h : ∀ e ∈ a, touches n e = false) (hb : Owned R n b) : Owned R n (a ++ b) := by
  obtain ⟨h1, h2, h3, h4⟩ := not_mem_of_touches h
  simpa [Owned, List.mem_append, h1, h2, h3, h4, List.countP_append] using hb

theorem owned_skip_right {R : Prop} {n : Nat} {a b : List Ev} (h : ∀ e ∈ b, touches n e = false) (ha : Owned R n a) : Owned R n (a ++ b) := by
  obtain ⟨h1, h2, h3, h4⟩ := not_mem_of_touches h
  simpa [Owned, List.mem_append, h1, h2, h3, h4, List.countP_append] using ha

theorem owned_none {R : Prop} {n : Nat} {a : List Ev} (h : ∀ e ∈ a, touches n e = false) : Owned R n a := by
  have := owned_skip (R := R) (n := n) (a := a) (b := []) h (by simp [Owned])
  simpa using this

/-- Every run of the thread (src/session_server.c:2989-3162). -/
theorem thread_owned (v : Bool) : ∀ (rs : List Round) (n m : Nat), Owned (∀ r ∈ rs, r.running = true) m (thread v n rs)
  | [], n, m => owned_none (by simp [thread])
  | r :: rs, n, m => by
    have hl : Owned (∀ r' ∈ r :: rs, r'.running = true) m (later v n r rs) := by
      simp only [later]
      split
      · exact ⟨fun hr => (thread_owned v rs (n + 1) m).1 fun x hx => hr x (List.mem_cons_of_mem _ hx), (thread_owned v rs (n + 1) m).2⟩
      · exact owned_none (by simp)
    by_cases hm : n = m
    · subst hm
      have hlt : ∀ e ∈ later v n r rs, touches n e = false := by
        intro e he
        simp only [later] at he
        split at he
        · exact thread_touches v rs (n + 1) n (by omega) e he
        · cases he
      rcases thread_cases v n r rs with ⟨hs, hrun, e⟩ | ⟨hs, _, hx, e⟩ | ⟨hs, _, hx, e⟩ | ⟨hs, e⟩ <;> rw [e]
      · rcases connect_cases n r with h | h | h | h | h <;> rw [h] at hs ⊢ <;> simp at hs
        cases v <;> simp [Owned, vrb, hrun]
      · rcases connect_cases n r with h | h | h | h | h <;> rw [h] at hs ⊢ <;> simp at hs
        rcases wait_cases n r with ⟨_, e⟩ | ⟨_, _, e⟩ | ⟨_, _, e⟩ <;> rw [e] <;> cases v <;> simp [Owned, vrb]
      · refine owned_skip_right hlt ?_
        rcases connect_cases n r with h | h | h | h | h <;> rw [h] at hs ⊢ <;> simp at hs
        rcases wait_cases n r with ⟨_, e⟩ | ⟨_, _, e⟩ | ⟨_, _, e⟩ <;> rw [e] <;> cases v <;> simp [Owned, vrb]
      · refine owned_skip_right hlt ?_
        rcases connect_cases n r with h | h | h | h | h <;> rw [h] at hs ⊢ <;> simp at hs <;> simp [Owned]
    · have hc := connect_touches r hm
      have hw := wait_touches r hm
      have hv := vrb_touches v hm
      rcases thread_cases v n r rs with ⟨_, _, e⟩ | ⟨_, _, _, e⟩ | ⟨_, _, _, e⟩ | ⟨_, e⟩ <;> rw [e]
      · exact owned_skip hc (owned_none hv)
      · rw [List.append_assoc, List.append_assoc]
        exact owned_skip hc (owned_skip hv (owned_skip hw (owned_none hv)))
      · rw [List.append_assoc, List.append_assoc]
        exact owned_skip hc (owned_skip hv (owned_skip hw hl))
      · exact owned_skip hc hl

/-- The connection, the transport and the hello messages of a round succeed, with a context and memory (src/session_server.c:2705-2770). -/
def established (r : Round) : Bool := r.sock && r.ctx && r.mem && r.transport && r.hello

theorem connect_established (n : Nat) (r : Round) : (connectEndpt n r).2 = established r := by
  simp only [connectEndpt, established]
  cases r.sock <;> cases r.ctx <;> cases r.mem <;> cases r.transport <;> cases r.hello <;> rfl

/-- Only established sessions are given to the application, which answers (src/session_server.c:3017-3028, 2812). -/
theorem thread_given (v : Bool) : ∀ (rs : List Round) (n m : Nat) (ok : Bool), .given m ok ∈ thread v n rs →
    ∃ r, n ≤ m ∧ rs[m - n]? = some r ∧ established r = true ∧ r.running = true ∧ r.taken = ok
  | [], _, _, _, h => by simp [thread] at h
  | r :: rs, n, m, ok, h => by
    have hl : .given m ok ∈ later v n r rs →
        ∃ r', n ≤ m ∧ (r :: rs)[m - n]? = some r' ∧ established r' = true ∧ r'.running = true ∧ r'.taken = ok := by
      intro h
      simp only [later] at h
      split at h
      · obtain ⟨r', h1, h2, h3⟩ := thread_given v rs (n + 1) m ok h
        refine ⟨r', by omega, ?_, h3⟩
        rw [show m - n = (m - (n + 1)) + 1 by omega, List.getElem?_cons_succ]
        exact h2
      · cases h
    have hc : .given m ok ∉ (connectEndpt n r).1 := by
      rcases connect_cases n r with e | e | e | e | e <;> rw [e] <;> simp
    have hv : .given m ok ∉ vrb v n := by cases v <;> simp [vrb]
    have hw : .given m ok ∈ (condWait n r).1 → m = n ∧ r.taken = ok := by
      rcases wait_cases n r with ⟨e1, e⟩ | ⟨e1, _, e⟩ | ⟨e1, _, e⟩ <;> rw [e, e1] <;> simp +contextual
    rcases thread_cases v n r rs with ⟨_, _, e⟩ | ⟨hs, hr, _, e⟩ | ⟨hs, hr, _, e⟩ | ⟨_, e⟩ <;> rw [e] at h <;> simp only [List.mem_append, hc, hv, false_or, or_false] at h
    · obtain ⟨rfl, ho⟩ := hw h
      exact ⟨r, Nat.le_refl _, by simp, (connect_established m r).symm.trans hs, hr, ho⟩
    · rcases h with h | h
      · obtain ⟨rfl, ho⟩ := hw h
        exact ⟨r, Nat.le_refl _, by simp, (connect_established m r).symm.trans hs, hr, ho⟩
      · exact hl h
    · exact hl h

end Verif.ChCtx
