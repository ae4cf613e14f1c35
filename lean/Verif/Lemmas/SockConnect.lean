import Verif.Spec.SockConnect

/-! # Lemmas for connecting to a host -/

namespace Verif.SockConnect

/-- The open sockets are those satisfying `O`, and the socket `c`. -/
def Inv (O : Nat × Nat → Prop) (w : World) (c : Option Nat) : Prop :=
  WF w ∧ (∀ x, O x → x ∈ w.socks ∧ c ≠ some x.1) ∧ (∀ x ∈ w.socks, O x ∨ c = some x.1) ∧ (∀ f, c = some f → ∃ a, (f, a) ∈ w.socks)

theorem any_mem {w : World} {f a : Nat} (h : (f, a) ∈ w.socks) : w.socks.any (fun x => x.1 == f) = true :=
  List.any_eq_true.2 ⟨_, h, by simp⟩

theorem close_inv {O w f} (h : Inv O w (some f)) :
    ∃ w', close w f = .ok w' ∧ Inv O w' none := by
  obtain ⟨hw, ho, hb, hf⟩ := h
  obtain ⟨a, ha⟩ := hf f rfl
  refine ⟨{ w with socks := w.socks.filter (fun x => !(x.1 == f)) }, by simp [close, any_mem ha], ⟨?_, ?_⟩, ?_, ?_, ?_⟩
  · intro x hx; exact hw.1 x (List.mem_filter.1 hx).1
  · intro x hx y hy; exact hw.2 x (List.mem_filter.1 hx).1 y (List.mem_filter.1 hy).1
  · intro x hx
    obtain ⟨h1, h2⟩ := ho x hx
    refine ⟨List.mem_filter.2 ⟨h1, ?_⟩, by simp⟩
    have : x.1 ≠ f := fun e => h2 (by rw [e])
    simpa using this
  · intro x hx
    obtain ⟨h1, h2⟩ := List.mem_filter.1 hx
    rcases hb x h1 with h | h
    · exact .inl h
    · cases h; simp at h2
  · intro g hg; cases hg

theorem open_inv {O w} (addr : Nat) (h : Inv O w none) :
    Inv O ⟨w.socks ++ [(w.next, addr)], w.next + 1⟩ (some w.next) := by
  obtain ⟨hw, ho, hb, _⟩ := h
  refine ⟨⟨?_, ?_⟩, ?_, ?_, ?_⟩
  · intro x hx
    rcases List.mem_append.1 hx with h | h
    · exact Nat.lt_succ_of_lt (hw.1 x h)
    · simp only [List.mem_singleton] at h; subst h; exact Nat.lt_succ_self _
  · intro x hx y hy e
    rcases List.mem_append.1 hx with h | h <;> rcases List.mem_append.1 hy with h' | h'
    · exact hw.2 x h y h' e
    · simp only [List.mem_singleton] at h'; subst h'; have := hw.1 x h; simp only at e; omega
    · simp only [List.mem_singleton] at h; subst h; have := hw.1 y h'; simp only at e; omega
    · simp only [List.mem_singleton] at h h'; subst h; subst h'; rfl
  · intro x hx
    refine ⟨List.mem_append_left _ (ho x hx).1, ?_⟩
    intro e; have := hw.1 x (ho x hx).1; injection e; omega
  · intro x hx
    rcases List.mem_append.1 hx with h | h
    · rcases hb x h with h | h
      · exact .inl h
      · cases h
    · simp only [List.mem_singleton] at h; subst h; exact .inr rfl
  · intro f hf; cases hf; exact ⟨addr, by simp⟩

/-- What waiting for a socket may give. -/
theorem wait_inv {O w f} (pend : Option (Option Nat)) (a : Wait) (h : Inv O w (some f)) :
    ∃ w' p' s, waitSock w pend f a = .ok (w', p', s) ∧
      ((a = .up ∧ s = some f ∧ w' = w ∧ p' = pend.map (fun _ => none)) ∨
       (a = .timeout ∧ pend ≠ none ∧ s = none ∧ w' = w ∧ p' = some (some f)) ∨
       (a ≠ .up ∧ (a = .timeout → pend = none) ∧ s = none ∧ Inv O w' none ∧ p' = pend.map (fun _ => none))) := by
  obtain ⟨addr, ha⟩ := h.2.2.2 f rfl
  obtain ⟨w1, h1, h2⟩ := close_inv h
  have hany := any_mem ha
  cases a
  case pollError => exact ⟨w1, _, none, by simp only [waitSock, hany, if_true, cleanup, h1], .inr (.inr ⟨by simp, by simp, rfl, h2, rfl⟩)⟩
  case sockError => exact ⟨w1, _, none, by simp only [waitSock, hany, if_true, cleanup, h1], .inr (.inr ⟨by simp, by simp, rfl, h2, rfl⟩)⟩
  case noKeepalives => exact ⟨w1, _, none, by simp only [waitSock, hany, if_true, cleanup, h1], .inr (.inr ⟨by simp, by simp, rfl, h2, rfl⟩)⟩
  case up => exact ⟨w, _, some f, by simp only [waitSock, hany, if_true], .inl ⟨rfl, rfl, rfl, rfl⟩⟩
  case timeout =>
    cases pend with
    | none => exact ⟨w1, none, none, by simp only [waitSock, hany, if_true, h1], .inr (.inr ⟨by simp, by simp, rfl, h2, rfl⟩)⟩
    | some p => exact ⟨w, _, none, by simp only [waitSock, hany, if_true], .inr (.inl ⟨rfl, by simp, rfl, rfl, rfl⟩)⟩

/-- What connecting to an address may give. -/
theorem conn_inv {O w} (pend : Option (Option Nat)) (hp : ∀ f, pend ≠ some (some f)) (addr : Nat) (s : Setup) (a : Wait) (h : Inv O w none) :
    ∃ w' p' r, sockConnect w pend (some addr) s a = .ok (w', p', r) ∧
      ((s = .started ∧ a = .up ∧ r = some w.next ∧ Inv O w' (some w.next) ∧ (w.next, addr) ∈ w'.socks ∧ p' = pend) ∨
       (s = .started ∧ a = .timeout ∧ pend ≠ none ∧ r = none ∧ Inv O w' (some w.next) ∧ (w.next, addr) ∈ w'.socks ∧ p' = some (some w.next)) ∨
       (¬(s = .started ∧ a = .up) ∧ (s = .started → a = .timeout → pend = none) ∧ r = none ∧ Inv O w' none ∧ p' = pend)) := by
  have hq : pend.map (fun _ => (none : Option Nat)) = pend := by
    cases pend with
    | none => rfl
    | some p =>
      cases p with
      | none => rfl
      | some f => exact absurd rfl (hp f)
  have ho := open_inv addr h
  obtain ⟨w1, h1, h2⟩ := close_inv ho
  have e : sockConnect w pend (some addr) s a =
      (match s with
      | .noText | .noSocket => .ok (w, pend, none)
      | .noFlags | .noBind | .refused => cleanup ⟨w.socks ++ [(w.next, addr)], w.next + 1⟩ pend w.next
      | .started => waitSock ⟨w.socks ++ [(w.next, addr)], w.next + 1⟩ pend w.next a) := by
    cases pend with
    | none => cases s <;> rfl
    | some p =>
      cases p with
      | none => cases s <;> rfl
      | some f => exact absurd rfl (hp f)
  rw [e]
  cases s
  case started =>
    obtain ⟨w', p', r, h3, h4⟩ := wait_inv pend a ho
    refine ⟨w', p', r, h3, ?_⟩
    rw [hq] at h4
    rcases h4 with ⟨ha, hs, hw, hp'⟩ | ⟨ha, hn, hs, hw, hp'⟩ | ⟨ha, hn, hs, hw, hp'⟩
    · subst hw; exact .inl ⟨rfl, ha, hs, ho, by simp, hp'⟩
    · subst hw; exact .inr (.inl ⟨rfl, ha, hn, hs, ho, by simp, hp'⟩)
    · exact .inr (.inr ⟨fun hh => ha hh.2, fun _ => hn, hs, hw, hp'⟩)
  case noText => exact ⟨w, pend, none, rfl, .inr (.inr ⟨by simp, by simp, rfl, h, rfl⟩)⟩
  case noSocket => exact ⟨w, pend, none, rfl, .inr (.inr ⟨by simp, by simp, rfl, h, rfl⟩)⟩
  all_goals
    refine ⟨w1, pend.map (fun _ => none), none, ?_, .inr (.inr ⟨by simp, by simp, rfl, h2, hq⟩)⟩
    simp only [cleanup, h1]

/-- The socket that is held after a call. -/
def held (r : Ret) : Option Nat := match r.sock with | some f => some f | none => r.pend.getD none

/-- What is true of the outcome, whatever is answered. -/
structure Good (O : Nat × Nat → Prop) (ptr : Bool) (r : Ret) : Prop where
  inv : Inv O r.w (held r)
  ptr : r.pend.isSome = ptr
  one : r.sock ≠ none → r.pend.getD none = none

/-- How the loop ends. -/
inductive Ends (ptr : Bool) (l : List (Nat × Ans)) (r : Ret) : Prop where
  | found (pre : List (Nat × Ans)) (a : Nat) (x : Ans) (post : List (Nat × Ans)) (f : Nat) (he : l = pre ++ (a, x) :: post)
      (hp : ∀ y ∈ pre, ¬ answers y ∧ (ptr = true → ¬ hangs y)) (ha : answers (a, x)) (hx : x.post = true) (hs : r.sock = some f) (hh : r.host = some a)
      (hm : (f, a) ∈ r.w.socks)
  | post (pre : List (Nat × Ans)) (a : Nat) (x : Ans) (post : List (Nat × Ans)) (he : l = pre ++ (a, x) :: post)
      (hp : ∀ y ∈ pre, ¬ answers y ∧ (ptr = true → ¬ hangs y)) (ha : answers (a, x)) (hx : x.post = false) (hs : r.sock = none)
      (hq : r.pend.getD none = none)
  | hang (pre : List (Nat × Ans)) (a : Nat) (x : Ans) (post : List (Nat × Ans)) (f : Nat) (ht : ptr = true) (he : l = pre ++ (a, x) :: post)
      (hp : ∀ y ∈ pre, ¬ answers y ∧ (ptr = true → ¬ hangs y)) (ha : hangs (a, x)) (hs : r.sock = none) (hq : r.pend = some (some f))
      (hm : (f, a) ∈ r.w.socks)
  | nothing (hp : ∀ y ∈ l, ¬ answers y ∧ (ptr = true → ¬ hangs y)) (hs : r.sock = none) (hq : r.pend.getD none = none)

theorem Ends.cons {ptr l r} (y : Nat × Ans) (hy : ¬ answers y ∧ (ptr = true → ¬ hangs y)) (h : Ends ptr l r) : Ends ptr (y :: l) r := by
  have step : ∀ pre : List (Nat × Ans), (∀ y ∈ pre, ¬ answers y ∧ (ptr = true → ¬ hangs y)) → ∀ z ∈ y :: pre, ¬ answers z ∧ (ptr = true → ¬ hangs z) := by
    intro pre hp z hz
    rcases List.mem_cons.1 hz with h | h
    · subst h; exact hy
    · exact hp z h
  cases h with
  | found pre a x post f he hp ha hx hs hh hm => exact .found (y :: pre) a x post f (by rw [he]; rfl) (step pre hp) ha hx hs hh hm
  | post pre a x post he hp ha hx hs hq => exact .post (y :: pre) a x post (by rw [he]; rfl) (step pre hp) ha hx hs hq
  | hang pre a x post f ht he hp ha hs hq hm => exact .hang (y :: pre) a x post f ht (by rw [he]; rfl) (step pre hp) ha hs hq hm
  | nothing hp hs hq => exact .nothing (step l hp) hs hq

theorem error_ok {O w f} (pend : Option (Option Nat)) (h : Inv O w (some f)) :
    ∃ w', error w pend (some f) = .ok ⟨w', pend.map (fun _ => none), none, none⟩ ∧ Inv O w' none := by
  obtain ⟨w1, h1, h2⟩ := close_inv h
  exact ⟨w1, by simp only [error, h1], h2⟩

theorem map_none_getD (pend : Option (Option Nat)) : (pend.map (fun _ => (none : Option Nat))).getD none = none := by
  cases pend <;> rfl

theorem loop_ok {O} (pend : Option (Option Nat)) (hp : ∀ f, pend ≠ some (some f)) :
    ∀ (l : List (Nat × Ans)) (w : World), Inv O w none → ∃ r, loop w pend l = .ok r ∧ Good O pend.isSome r ∧ Ends pend.isSome l r := by
  have hg : pend.getD none = none := by
    cases pend with
    | none => rfl
    | some p =>
      cases p with
      | none => rfl
      | some f => exact absurd rfl (hp f)
  intro l
  induction l with
  | nil =>
    intro w h
    exact ⟨_, rfl, ⟨by simpa [held, hg] using h, rfl, fun _ => hg⟩, .nothing (by simp) rfl hg⟩
  | cons y l ih =>
    intro w h
    obtain ⟨a, x⟩ := y
    obtain ⟨w', p', r, h1, h2⟩ := conn_inv pend hp a x.setup x.wait h
    rcases h2 with ⟨hs, ha, hr, hi, hm, hp'⟩ | ⟨hs, ha, hn, hr, hi, hm, hp'⟩ | ⟨hna, hnt, hr, hi, hp'⟩
    · subst hr; subst hp'
      cases hx : x.post with
      | true =>
        exact ⟨⟨w', p', some w.next, some a⟩, by simp only [loop, h1, hx, if_true], ⟨hi, rfl, fun _ => hg⟩, .found [] a x l w.next rfl (by simp) ⟨hs, ha⟩ hx rfl rfl hm⟩
      | false =>
        obtain ⟨w2, h3, h4⟩ := error_ok p' hi
        refine ⟨_, by simp only [loop, h1, hx]; exact h3, ⟨?_, ?_, ?_⟩, .post [] a x l rfl (by simp) ⟨hs, ha⟩ hx rfl ?_⟩
        · simpa only [held, map_none_getD] using h4
        · cases p' <;> rfl
        · intro hh; exact absurd rfl hh
        · exact map_none_getD _
    · subst hr; subst hp'
      have hsome : pend.isSome = true := by cases pend with | none => exact absurd rfl hn | some _ => rfl
      refine ⟨⟨w', some (some w.next), none, none⟩, by simp only [loop, h1], ⟨hi, hsome.symm, fun hh => absurd rfl hh⟩,
        .hang [] a x l w.next hsome rfl (by simp) ⟨hs, ha⟩ rfl rfl hm⟩
    · subst hr; subst hp'
      obtain ⟨r', h3, h4, h5⟩ := ih w' hi
      refine ⟨r', ?_, h4, h5.cons _ ⟨fun hh => hna hh, ?_⟩⟩
      · have e : loop w p' ((a, x) :: l) = loop w' p' l := by
          simp only [loop, h1]
        rw [e]; exact h3
      · intro ht hh
        have := hnt hh.1 hh.2
        subst this; simp at ht

theorem peer_of {w : World} {f a : Nat} (h : WF w) (hm : (f, a) ∈ w.socks) : peer w f = some a := by
  unfold peer
  have hs : (w.socks.find? (fun x => x.1 == f)).isSome := List.find?_isSome.2 ⟨_, hm, by simp⟩
  cases e : w.socks.find? (fun x => x.1 == f) with
  | none => rw [e] at hs; cases hs
  | some y =>
    have h1 := List.find?_some e
    have h2 := List.mem_of_find?_eq_some e
    have : y = (f, a) := h.2 y h2 _ hm (by simpa using h1)
    rw [this]; rfl

/-- With a pending socket, only that socket matters. -/
theorem pend_ok {O w f a} (addrs : Option (List (Nat × Ans))) (pa : Wait × Bool) (h : Inv O w (some f)) (hm : (f, a) ∈ w.socks) :
    ∃ r, connect w (some (some f)) addrs pa = .ok r ∧ Good O true r ∧
      ((pa.1 = .up ∧ (pa.2 = true ∨ f = 0) ∧ r.sock = some f ∧ r.pend = some none ∧ (f, a) ∈ r.w.socks ∧ (f ≠ 0 → r.host = some a)) ∨
       (pa.1 = .timeout ∧ r.sock = none ∧ r.pend = some (some f) ∧ r.w = w) ∨
       (¬(pa.1 = .up ∧ (pa.2 = true ∨ f = 0)) ∧ pa.1 ≠ .timeout ∧ r.sock = none ∧ r.pend = some none)) := by
  obtain ⟨w', p', s, h1, h2⟩ := wait_inv (some (some f)) pa.1 h
  have e : sockConnect w (some (some f)) none .started pa.1 = .ok (w', p', s) := h1
  rcases h2 with ⟨ha, hs, hw, hp'⟩ | ⟨ha, hn, hs, hw, hp'⟩ | ⟨ha, hn, hs, hw, hp'⟩
  · subst hs; subst hw; subst hp'
    by_cases hf : f = 0
    · exact ⟨⟨w', some none, some f, none⟩, by simp only [connect, e]; exact if_pos hf, ⟨h, rfl, fun _ => rfl⟩,
        .inl ⟨ha, .inr hf, rfl, rfl, hm, fun hh => absurd hf hh⟩⟩
    · cases hx : pa.2 with
      | true =>
        refine ⟨⟨w', some none, some f, peer w' f⟩, ?_, ⟨h, rfl, fun _ => rfl⟩, .inl ⟨ha, .inl rfl, rfl, rfl, hm, fun _ => peer_of h.1 hm⟩⟩
        simp only [connect, e, hf, hx, if_true, if_false]; rfl
      | false =>
        obtain ⟨w2, h3, h4⟩ := error_ok (some none) h
        refine ⟨⟨w2, some none, none, none⟩, ?_, ⟨h4, rfl, fun _ => rfl⟩,
          .inr (.inr ⟨by simp [hf], by rw [ha]; simp, rfl, rfl⟩)⟩
        simp only [connect, e, hf, hx, if_false]; exact h3
  · subst hs; subst hw; subst hp'
    refine ⟨⟨w', some (some f), none, none⟩, by simp only [connect, e], ⟨h, rfl, fun hh => absurd rfl hh⟩, .inr (.inl ⟨ha, rfl, rfl, rfl⟩)⟩
  · subst hs; subst hp'
    refine ⟨⟨w', some none, none, none⟩, by simp only [connect, e]; rfl, ⟨hw, rfl, fun hh => absurd rfl hh⟩,
      .inr (.inr ⟨fun hh => ha hh.1, ?_, rfl, rfl⟩)⟩
    intro ht; have := hn ht; cases this

/-- Without a pending socket, the addresses are tried. -/
theorem fresh_ok {O w} (pend : Option (Option Nat)) (hp : ∀ f, pend ≠ some (some f)) (addrs : Option (List (Nat × Ans))) (pa : Wait × Bool)
    (h : Inv O w none) :
    ∃ r, connect w pend addrs pa = .ok r ∧ Good O pend.isSome r ∧ Ends pend.isSome (addrs.getD []) r := by
  have e : connect w pend addrs pa = (match addrs with | none => error w pend none | some l => loop w pend l) := by
    cases pend with
    | none => cases addrs <;> rfl
    | some p =>
      cases p with
      | none => cases addrs <;> rfl
      | some f => exact absurd rfl (hp f)
  rw [e]
  cases addrs with
  | some l => exact loop_ok pend hp l w h
  | none =>
    refine ⟨_, rfl, ⟨?_, ?_, ?_⟩, .nothing (by simp) rfl (map_none_getD _)⟩
    · simpa only [held, map_none_getD] using h
    · cases pend <;> rfl
    · intro hh; exact absurd rfl hh

/-- The sockets of others, when `pend` holds one. -/
def others (w : World) (pend : Option (Option Nat)) (x : Nat × Nat) : Prop := x ∈ w.socks ∧ pend ≠ some (some x.1)

theorem inv_others {w : World} {pend : Option (Option Nat)} (hw : WF w) (hp : ∀ f, pend = some (some f) → ∃ a, (f, a) ∈ w.socks) :
    Inv (others w pend) w (pend.getD none) := by
  have key : ∀ f, pend.getD none = some f ↔ pend = some (some f) := by
    intro f
    cases pend with
    | none => simp
    | some p => simp
  refine ⟨hw, ?_, ?_, ?_⟩
  · intro x hx; exact ⟨hx.1, fun e => hx.2 ((key _).1 e)⟩
  · intro x hx
    by_cases e : pend = some (some x.1)
    · exact .inr ((key _).2 e)
    · exact .inl ⟨hx, e⟩
  · intro f hf; exact hp f ((key f).1 hf)

theorem connect_good {w : World} {pend : Option (Option Nat)} (hw : WF w) (hp : ∀ f, pend = some (some f) → ∃ a, (f, a) ∈ w.socks)
    (addrs : Option (List (Nat × Ans))) (pa : Wait × Bool) :
    ∃ r, connect w pend addrs pa = .ok r ∧ Good (others w pend) pend.isSome r := by
  have hi := inv_others hw hp
  cases hc : pend.getD none with
  | none =>
    rw [hc] at hi
    obtain ⟨r, h1, h2, _⟩ := fresh_ok pend (by intro f e; rw [e] at hc; cases hc) addrs pa hi
    exact ⟨r, h1, h2⟩
  | some f =>
    have e : pend = some (some f) := by
      cases pend with
      | none => cases hc
      | some p => simpa using hc
    subst e
    rw [hc] at hi
    obtain ⟨a, ha⟩ := hp f rfl
    obtain ⟨r, h1, h2, _⟩ := pend_ok addrs pa hi ha
    exact ⟨r, h1, h2⟩

/-! ## Attempts -/

/-- What an attempt may give: the only socket of the endpoint is the pending one. -/
structure AInv (w : World) (p : Option Nat) : Prop where
  wf : WF w
  only : ∀ x ∈ w.socks, p = some x.1
  mem : ∀ f, p = some f → ∃ a, (f, a) ∈ w.socks

theorem AInv.inv {w p} (h : AInv w p) : Inv (fun _ => False) w p :=
  ⟨h.wf, by simp, fun x hx => .inr (h.only x hx), h.mem⟩

theorem Inv.ainv {w p} (h : Inv (fun _ => False) w p) : AInv w p :=
  ⟨h.1, fun x hx => (h.2.2.1 x hx).resolve_left id, h.2.2.2⟩

/-- The end of an attempt: a socket belongs to the session, the last attempt closes a pending one. -/
theorem finish {r : Ret} {a : Attempt} {w : World} {p : Option Nat} (hc : connect w (some p) a.addrs a.pend = .ok r) (h : Good (fun _ => False) true r) :
    ∃ w' p' x, attempt w p a = .ok (w', p', x) ∧ AInv w' p' ∧
      ((∃ f, r.sock = some f ∧ x = peer r.w f ∧ p' = none) ∨
       (r.sock = none ∧ x = none ∧ (p' = none ∨ (r.pend = some p' ∧ w' = r.w ∧ a.last = false)))) := by
  obtain ⟨hi, hptr, hone⟩ := h
  unfold attempt
  rw [hc]
  cases hs : r.sock with
  | some f =>
    simp only [held, hs] at hi
    obtain ⟨w1, h1, h2⟩ := close_inv hi
    have : r.pend.getD none = none := hone (by rw [hs]; simp)
    refine ⟨w1, r.pend.getD none, peer r.w f, by simp only [hs, h1], ?_, .inl ⟨f, rfl, rfl, this⟩⟩
    rw [this]; exact h2.ainv
  | none =>
    simp only [held, hs] at hi
    cases hq : r.pend.getD none with
    | none =>
      rw [hq] at hi
      exact ⟨r.w, none, none, by simp only [hs, hq]; cases a.last <;> rfl, hi.ainv, .inr ⟨rfl, rfl, .inl rfl⟩⟩
    | some f =>
      rw [hq] at hi
      obtain ⟨w1, h1, h2⟩ := close_inv hi
      have hr : r.pend = some (some f) := by
        cases hp : r.pend with
        | none => rw [hp] at hq; cases hq
        | some p => rw [hp] at hq; simpa using hq
      cases hl : a.last with
      | true => exact ⟨w1, none, none, by simp only [hs, hq, h1], h2.ainv, .inr ⟨rfl, rfl, .inl rfl⟩⟩
      | false => exact ⟨r.w, some f, none, by simp only [hs, hq], hi.ainv, .inr ⟨rfl, rfl, .inr ⟨hr, rfl, rfl⟩⟩⟩

theorem attempt_step {w p} (a : Attempt) (h : AInv w p) :
    ∃ r w' p' x, connect w (some p) a.addrs a.pend = .ok r ∧ attempt w p a = .ok (w', p', x) ∧ AInv w' p' ∧ Good (fun _ => False) true r ∧
      ((∃ f, r.sock = some f ∧ x = peer r.w f ∧ p' = none) ∨
       (r.sock = none ∧ x = none ∧ (p' = none ∨ (r.pend = some p' ∧ w' = r.w ∧ a.last = false)))) := by
  cases p with
  | none =>
    obtain ⟨r, h1, h2, _⟩ := fresh_ok (some none) (by simp) a.addrs a.pend h.inv
    obtain ⟨w', p', x, h3, h4, h5⟩ := finish h1 h2
    exact ⟨r, w', p', x, h1, h3, h4, h2, h5⟩
  | some f =>
    obtain ⟨ad, ha⟩ := h.mem f rfl
    obtain ⟨r, h1, h2, _⟩ := pend_ok a.addrs a.pend h.inv ha
    obtain ⟨w', p', x, h3, h4, h5⟩ := finish h1 h2
    exact ⟨r, w', p', x, h1, h3, h4, h2, h5⟩

theorem attempts_ok : ∀ (as : List Attempt) (w : World) (p : Option Nat), AInv w p →
    ∃ w' p' xs, attempts w p as = .ok (w', p', xs) ∧ AInv w' p' ∧ xs.length = as.length
  | [], w, p, h => ⟨w, p, [], rfl, h, rfl⟩
  | a :: as, w, p, h => by
    obtain ⟨r, w1, p1, x, _, h1, h2, _, _⟩ := attempt_step a h
    obtain ⟨w2, p2, xs, h3, h4, h5⟩ := attempts_ok as w1 p1 h2
    exact ⟨w2, p2, x :: xs, by simp only [attempts, h1, h3], h4, by simp [h5]⟩

/-- A connection goes to an address of this attempt, or to that of the pending socket, which comes from an earlier attempt. -/
theorem attempts_addr : ∀ (as : List Attempt) (w : World) (p : Option Nat) (S : Nat → Prop), AInv w p → (∀ x ∈ w.socks, S x.2) →
    ∀ w' p' xs, attempts w p as = .ok (w', p', xs) → ∀ (i : Nat) (ad : Nat), xs[i]? = some (some ad) →
      S ad ∨ ∃ j at', j ≤ i ∧ as[j]? = some at' ∧ ad ∈ at'.list
  | [], _, _, _, _, _, _, _, _, e, i, _, hi => by
    simp only [attempts] at e
    injection e with e; obtain ⟨_, _, rfl⟩ := Prod.mk.inj e |>.imp id Prod.mk.inj
    simp at hi
  | a :: as, w, p, S, h, hS, w', p', xs, e, i, ad, hi => by
    obtain ⟨r, w1, p1, x, h0, h1, h2, hgood, h3⟩ := attempt_step a h
    -- the sockets after the call are to old addresses or to those of this attempt
    have hsock : ∀ y ∈ r.w.socks, S y.2 ∨ y.2 ∈ a.list := by
      intro y hy
      have hy' := (hgood.inv.2.2.1 y hy).resolve_left id
      cases p with
      | some f =>
        obtain ⟨ad', hm⟩ := h.mem f rfl
        obtain ⟨r', h4, _, h5⟩ := pend_ok a.addrs a.pend h.inv hm
        rw [h0] at h4; injection h4 with h4; subst h4
        rcases h5 with ⟨_, _, hs, _, hm', _⟩ | ⟨_, hs, hp', hw⟩ | ⟨_, _, hs, hp'⟩
        · simp only [held, hs] at hy'
          injection hy' with hf
          have : y = (f, ad') := hgood.inv.1.2 y hy _ hm' (by rw [← hf])
          subst this; exact .inl (hS _ hm)
        · rw [hw] at hy; exact .inl (hS y hy)
        · simp only [held, hs, hp'] at hy'; cases hy'
      | none =>
        obtain ⟨r', h4, _, h5⟩ := fresh_ok (some none) (by simp) a.addrs a.pend h.inv
        rw [h0] at h4; injection h4 with h4; subst h4
        cases h5 with
        | found pre b x post f he hp ha hx hs hh hm =>
          simp only [held, hs] at hy'
          injection hy' with hf
          have : y = (f, b) := hgood.inv.1.2 y hy _ hm (by rw [← hf])
          subst this; exact .inr (by unfold Attempt.list; rw [he]; simp)
        | hang pre b x post f ht he hp ha hs hq hm =>
          simp only [held, hs, hq] at hy'
          injection hy' with hf
          have : y = (f, b) := hgood.inv.1.2 y hy _ hm (by rw [← hf])
          subst this; exact .inr (by unfold Attempt.list; rw [he]; simp)
        | post pre b x post he hp ha hx hs hq => simp only [held, hs, hq] at hy'; cases hy'
        | nothing hp hs hq => simp only [held, hs, hq] at hy'; cases hy'
    obtain ⟨w2, p2, ys, h4, h5, h6⟩ := attempts_ok as w1 p1 h2
    have e' : attempts w p (a :: as) = .ok (w2, p2, x :: ys) := by simp only [attempts, h1, h4]
    rw [e] at e'; injection e' with e'
    have hxs : xs = x :: ys := by injection e' with _ e'; injection e'
    subst hxs
    cases i with
    | zero =>
      simp only [List.getElem?_cons_zero] at hi
      injection hi with hi
      rcases h3 with ⟨f, hs, hx, _⟩ | ⟨_, hx, _⟩
      · rw [hx] at hi
        unfold peer at hi
        cases hf : r.w.socks.find? (fun x => x.1 == f) with
        | none => rw [hf] at hi; cases hi
        | some y =>
          rw [hf] at hi
          injection hi with hi
          rcases hsock y (List.mem_of_find?_eq_some hf) with h | h
          · rw [hi] at h; exact .inl h
          · rw [hi] at h; exact .inr ⟨0, a, Nat.le_refl _, rfl, h⟩
      · rw [hx] at hi; cases hi
    | succ i =>
      simp only [List.getElem?_cons_succ] at hi
      have hS' : ∀ y ∈ w1.socks, S y.2 ∨ y.2 ∈ a.list := by
        intro y hy
        have hp := h2.only y hy
        rcases h3 with ⟨f, _, _, hn⟩ | ⟨_, _, hn | ⟨_, hw, _⟩⟩
        · rw [hn] at hp; cases hp
        · rw [hn] at hp; cases hp
        · rw [hw] at hy; exact hsock y hy
      rcases attempts_addr as w1 p1 (fun z => S z ∨ z ∈ a.list) h2 hS' w2 p2 ys h4 i ad hi with (h | h) | ⟨j, at', hj, hj', hm⟩
      · exact .inl h
      · exact .inr ⟨0, a, Nat.zero_le _, rfl, h⟩
      · exact .inr ⟨j + 1, at', by omega, by simpa using hj', hm⟩

end Verif.SockConnect
