import Verif.Lemmas.SockConnect

/-!
# Properties of connecting to a host

C145: every socket opened is handed over, kept as pending, or closed. C146: the first address that answers is connected to. C147: Call Home connects to
configured addresses.
-/

namespace Verif.Props
open Verif.SockConnect

/-! ## C145 -/

/-- Whatever the operating system answers, a call uses no closed socket, touches no socket of others, and every socket it opened or was given is
afterwards returned, pending, or closed; it is never both returned and pending, and nothing is pending if the caller has no place for it. -/
theorem connect_sockets_accounted (w : World) (pend : Option (Option Nat)) (hw : WF w)
    (hp : ∀ f, pend = some (some f) → ∃ a, (f, a) ∈ w.socks) (addrs : Option (List (Nat × Ans))) (pa : Wait × Bool) :
    ∃ r, connect w pend addrs pa = .ok r ∧ WF r.w ∧ r.pend.isSome = pend.isSome ∧
      (∀ x ∈ w.socks, pend ≠ some (some x.1) → x ∈ r.w.socks ∧ r.sock ≠ some x.1 ∧ r.pend ≠ some (some x.1)) ∧
      (∀ x ∈ r.w.socks, (x ∈ w.socks ∧ pend ≠ some (some x.1)) ∨ r.sock = some x.1 ∨ r.pend = some (some x.1)) ∧
      (∀ f, r.sock = some f ∨ r.pend = some (some f) → ∃ a, (f, a) ∈ r.w.socks) ∧
      (∀ f, r.sock = some f → ∀ g, r.pend ≠ some (some g)) := by
  obtain ⟨r, h1, ⟨hi, hptr, hone⟩⟩ := connect_good hw hp addrs pa
  have hpd : ∀ f, r.pend = some (some f) → r.sock = none ∧ held r = some f := by
    intro f hf
    cases hs : r.sock with
    | none => exact ⟨rfl, by simp [held, hs, hf]⟩
    | some g => have := hone (by rw [hs]; simp); rw [hf] at this; cases this
  have hsk : ∀ f, r.sock = some f → held r = some f := fun f hf => by simp [held, hf]
  refine ⟨r, h1, hi.1, hptr, ?_, ?_, ?_, ?_⟩
  · intro x hx hn
    obtain ⟨h2, h3⟩ := hi.2.1 x ⟨hx, hn⟩
    exact ⟨h2, fun e => h3 (hsk _ e), fun e => h3 (hpd _ e).2⟩
  · intro x hx
    rcases hi.2.2.1 x hx with h | h
    · exact .inl h
    · cases hs : r.sock with
      | some f => rw [hsk f hs] at h; exact .inr (.inl h)
      | none =>
        simp only [held, hs] at h
        refine .inr (.inr ?_)
        cases hq : r.pend with
        | none => rw [hq] at h; cases h
        | some q => rw [hq] at h; simpa using h
  · intro f hf
    rcases hf with h | h
    · exact hi.2.2.2 f (hsk f h)
    · exact hi.2.2.2 f (hpd f h).2
  · intro f hf g hg
    rw [(hpd g hg).1] at hf; cases hf

/-- A host with three addresses: the first refuses, the second cannot be bound to, the third answers. A socket of someone else stays. -/
example : connect ⟨[(3, 9)], 4⟩ none (some [(1, ⟨.refused, .up, true⟩), (2, ⟨.noBind, .up, true⟩), (5, ⟨.started, .up, true⟩)]) (.up, true) =
    .ok ⟨⟨[(3, 9), (6, 5)], 7⟩, none, some 6, some 5⟩ := by decide

/-- The socket of an endpoint is the pending one or there is none, after any number of attempts. -/
theorem attempts_sockets_accounted (as : List Attempt) (w : World) (p : Option Nat) (h : Holds w p) :
    ∃ w' p' xs, attempts w p as = .ok (w', p', xs) ∧ Holds w' p' := by
  obtain ⟨w', p', xs, h1, h2, _⟩ := attempts_ok as w p ⟨h.1, h.2.1, h.2.2⟩
  exact ⟨w', p', xs, h1, h2.wf, h2.only, h2.mem⟩

/-- Two attempts: the first one leaves a pending socket, which fails in the second. -/
example : attempts ⟨[], 3⟩ none [⟨some [(1, ⟨.started, .timeout, true⟩)], (.up, true), false⟩, ⟨none, (.sockError, true), false⟩] =
    .ok (⟨[], 4⟩, none, [none, none]) := by decide

/-- The address reported is that of the socket returned, unless the socket that was pending is number 0. -/
theorem host_reported_partial (w : World) (pend : Option (Option Nat)) (hw : WF w) (hp : ∀ f, pend = some (some f) → f ≠ 0 ∧ ∃ a, (f, a) ∈ w.socks)
    (addrs : Option (List (Nat × Ans))) (pa : Wait × Bool) (r : Ret) (hr : connect w pend addrs pa = .ok r) (f : Nat) (hs : r.sock = some f) :
    ∃ a, r.host = some a ∧ (f, a) ∈ r.w.socks := by
  have hi := inv_others hw (fun f hf => (hp f hf).2)
  cases hc : pend.getD none with
  | none =>
    rw [hc] at hi
    obtain ⟨r', h1, h2, h3⟩ := fresh_ok pend (by intro f e; rw [e] at hc; cases hc) addrs pa hi
    rw [hr] at h1; injection h1 with h1; subst h1
    cases h3 with
    | found pre a x post g he hp ha hx hs' hh hm => rw [hs] at hs'; injection hs' with e; subst e; exact ⟨a, hh, hm⟩
    | post pre a x post he hp ha hx hs' hq => rw [hs] at hs'; cases hs'
    | hang pre a x post g ht he hp ha hs' hq hm => rw [hs] at hs'; cases hs'
    | nothing hp hs' hq => rw [hs] at hs'; cases hs'
  | some g =>
    have e : pend = some (some g) := by
      cases pend with
      | none => cases hc
      | some p => simpa using hc
    subst e
    rw [hc] at hi
    obtain ⟨hg, a, ha⟩ := hp g rfl
    obtain ⟨r', h1, h2, h3⟩ := pend_ok addrs pa hi ha
    rw [hr] at h1; injection h1 with h1; subst h1
    rcases h3 with ⟨_, _, hs', _, hm, hh⟩ | ⟨_, hs', _⟩ | ⟨_, _, hs', _⟩
    · rw [hs] at hs'; injection hs' with e; subst e; exact ⟨a, hh hg, hm⟩
    · rw [hs] at hs'; cases hs'
    · rw [hs] at hs'; cases hs'

/-- A pending socket becomes connected. -/
example : connect ⟨[(3, 9)], 4⟩ (some (some 3)) none (.up, true) = .ok ⟨⟨[(3, 9)], 4⟩, some none, some 3, some 9⟩ := by decide

/-- Without the exception it is false: a connected socket number 0 has no address reported (`sock > 0` instead of `>= 0`). -/
theorem host_reported_false :
    ¬ ∀ (w : World) (pend : Option (Option Nat)), WF w → (∀ f, pend = some (some f) → ∃ a, (f, a) ∈ w.socks) →
      ∀ (addrs : Option (List (Nat × Ans))) (pa : Wait × Bool) (r : Ret), connect w pend addrs pa = .ok r → ∀ f, r.sock = some f →
        ∃ a, r.host = some a ∧ (f, a) ∈ r.w.socks := by
  intro h
  obtain ⟨a, ha, _⟩ := h ⟨[(0, 9)], 1⟩ (some (some 0)) ⟨by decide, by decide⟩ (by intro f hf; injection hf with hf; injection hf with hf; subst hf; exact ⟨9, by simp⟩)
    none (.up, true) ⟨⟨[(0, 9)], 1⟩, some none, some 0, none⟩ (by decide) 0 rfl
  cases ha

/-! ## C146 -/

/-- A client connects to the first address that answers, whatever the others do, and fails if none does or if the connected socket cannot be set up. -/
theorem connects_first_answering (w : World) (hw : WF w) (l : List (Nat × Ans)) (pa : Wait × Bool) :
    (∀ pre a x post, l = pre ++ (a, x) :: post → (∀ y ∈ pre, ¬ answers y) → answers (a, x) →
      ∃ r, connect w none (some l) pa = .ok r ∧
        if x.post then ∃ f, r.sock = some f ∧ r.host = some a ∧ (f, a) ∈ r.w.socks else r.sock = none) ∧
    ((∀ y ∈ l, ¬ answers y) → ∃ r, connect w none (some l) pa = .ok r ∧ r.sock = none) := by
  have hi : Inv (others w none) w none := inv_others hw (by intro f hf; cases hf)
  obtain ⟨r, h1, h2, h3⟩ := fresh_ok none (by simp) (some l) pa hi
  have uniq : ∀ (pre : List (Nat × Ans)) (y : Nat × Ans) (post pre' : List (Nat × Ans)) (y' : Nat × Ans) (post' : List (Nat × Ans)),
      pre ++ y :: post = pre' ++ y' :: post' → (∀ z ∈ pre, ¬ answers z) → answers y → (∀ z ∈ pre', ¬ answers z) → answers y' → y = y' := by
    intro pre
    induction pre with
    | nil =>
      intro y post pre' y' post' e _ ha hp' _
      cases pre' with
      | nil => injection e
      | cons z pre' => injection e with e1 e2; subst e1; exact absurd ha (hp' _ (by simp))
    | cons z pre ih =>
      intro y post pre' y' post' e hp ha hp' ha'
      cases pre' with
      | nil => injection e with e1 e2; subst e1; exact absurd ha' (hp _ (by simp))
      | cons z' pre' =>
        injection e with e1 e2
        exact ih y post pre' y' post' e2 (fun z hz => hp z (by simp [hz])) ha (fun z hz => hp' z (by simp [hz])) ha'
  constructor
  · intro pre a x post he hp ha
    refine ⟨r, h1, ?_⟩
    cases h3 with
    | found pre' a' x' post' f he' hp' ha' hx hs hh hm =>
      have e := uniq pre (a, x) post pre' (a', x') post' (he ▸ he') hp ha (fun z hz => (hp' z hz).1) ha'
      injection e with e1 e2; subst e1; subst e2
      rw [if_pos hx]; exact ⟨f, hs, hh, hm⟩
    | post pre' a' x' post' he' hp' ha' hx hs hq =>
      have e := uniq pre (a, x) post pre' (a', x') post' (he ▸ he') hp ha (fun z hz => (hp' z hz).1) ha'
      injection e with e1 e2; subst e1; subst e2
      simp [hx, hs]
    | hang pre' a' x' post' f ht => cases ht
    | nothing hp' hs hq => exact absurd ha (hp' (a, x) (by show (a, x) ∈ l; rw [he]; simp)).1
  · intro hn
    refine ⟨r, h1, ?_⟩
    cases h3 with
    | found pre' a' x' post' f he' hp' ha' => exact absurd ha' (hn _ (by show (a', x') ∈ l; rw [show l = _ from he']; simp))
    | post pre' a' x' post' he' hp' ha' hx hs hq => exact hs
    | hang pre' a' x' post' f ht => cases ht
    | nothing hp' hs hq => exact hs

/-- The first address does not react, the second one answers. -/
example : connect ⟨[], 3⟩ none (some [(1, ⟨.started, .timeout, true⟩), (2, ⟨.started, .up, true⟩)]) (.up, true) =
    .ok ⟨⟨[(4, 2)], 5⟩, none, some 4, some 2⟩ := by decide

/-- Call Home: an attempt without a pending connection connects to the first address that answers if no address before it leaves the connection open. -/
theorem callhome_connects_partial (w : World) (p : Option Nat) (h : Holds w p) (hn : p = none) (a : Attempt) (pre : List (Nat × Ans)) (b : Nat) (x : Ans)
    (post : List (Nat × Ans)) (hl : a.addrs = some (pre ++ (b, x) :: post)) (hp : ∀ y ∈ pre, ¬ answers y ∧ ¬ hangs y) (ha : answers (b, x))
    (hx : x.post = true) : ∃ w', attempt w p a = .ok (w', none, some b) := by
  subst hn
  have hA : AInv w none := ⟨h.1, h.2.1, h.2.2⟩
  obtain ⟨r, h1, h2, h3⟩ := fresh_ok (some none) (by simp) a.addrs a.pend hA.inv
  obtain ⟨w', p', y, h4, h5, h6⟩ := finish h1 h2
  have key : r.sock ≠ none ∧ ∀ f, r.sock = some f → (f, b) ∈ r.w.socks := by
    have go : ∀ (pre : List (Nat × Ans)) (y : Nat × Ans) (post pre' : List (Nat × Ans)) (y' : Nat × Ans) (post' : List (Nat × Ans)),
        pre ++ y :: post = pre' ++ y' :: post' → (∀ z ∈ pre, ¬ answers z ∧ ¬ hangs z) → answers y →
        (∀ z ∈ pre', ¬ answers z) → answers y' ∨ hangs y' → y = y' := by
      intro pre
      induction pre with
      | nil =>
        intro y post pre' y' post' e _ ha hp' _
        cases pre' with
        | nil => injection e
        | cons z pre' => injection e with e1 e2; subst e1; exact absurd ha (hp' _ (by simp))
      | cons z pre ih =>
        intro y post pre' y' post' e hp ha hp' ha'
        cases pre' with
        | nil =>
          injection e with e1 e2; subst e1
          rcases ha' with h | h
          · exact absurd h (hp _ (by simp)).1
          · exact absurd h (hp _ (by simp)).2
        | cons z' pre' =>
          injection e with e1 e2
          exact ih y post pre' y' post' e2 (fun z hz => hp z (by simp [hz])) ha (fun z hz => hp' z (by simp [hz])) ha'
    rw [hl] at h3
    cases h3 with
    | found pre' a' x' post' f he' hp' ha' hx' hs hh hm =>
      have e := go pre (b, x) post pre' (a', x') post' he' hp ha (fun z hz => (hp' z hz).1) (.inl ha')
      injection e with e1 e2; subst e1
      exact ⟨by rw [hs]; simp, fun g hg => by rw [hs] at hg; injection hg with hg; subst hg; exact hm⟩
    | post pre' a' x' post' he' hp' ha' hx' hs hq =>
      have e := go pre (b, x) post pre' (a', x') post' he' hp ha (fun z hz => (hp' z hz).1) (.inl ha')
      injection e with e1 e2; subst e2; rw [hx] at hx'; cases hx'
    | hang pre' a' x' post' f ht he' hp' ha' hs hq hm =>
      have e := go pre (b, x) post pre' (a', x') post' he' hp ha (fun z hz => (hp' z hz).1) (.inr ha')
      injection e with e1 e2; subst e2; have := ha.2; rw [show x.wait = _ from ha'.2] at this; cases this
    | nothing hp' hs hq => exact absurd ha (hp' (b, x) (by simp)).1
  rcases h6 with ⟨f, hs, hy, hp'⟩ | ⟨hs, _⟩
  · subst hp'
    rw [peer_of h2.inv.1 (key.2 f hs)] at hy
    subst hy
    exact ⟨w', h4⟩
  · exact absurd hs key.1

/-- The first address refuses, the second one answers. -/
example : attempt ⟨[], 3⟩ none ⟨some [(1, ⟨.refused, .up, true⟩), (2, ⟨.started, .up, true⟩)], (.up, true), false⟩ = .ok (⟨[], 5⟩, none, some 2) := by
  decide

/-- If the first address of a host leaves connections open, the other addresses are never tried: what they would answer makes no difference to any
number of attempts, and no attempt succeeds. -/
theorem callhome_other_addresses_ignored : ∀ (as bs : List Attempt) (w : World) (p : Option Nat), Holds w p → as.length = bs.length →
    (∀ (i : Nat) a b, as[i]? = some a → bs[i]? = some b → sameFirst a b) → (∀ a ∈ as, firstHangs a) →
    attempts w p as = attempts w p bs ∧ ∃ w' p' xs, attempts w p as = .ok (w', p', xs) ∧ ∀ x ∈ xs, x = none := by
  intro as
  induction as with
  | nil =>
    intro bs w p h hl _ _
    cases bs with
    | nil => exact ⟨rfl, w, p, [], rfl, by simp⟩
    | cons b bs => simp at hl
  | cons a as ih =>
    intro bs w p h hl hsame hfirst
    cases bs with
    | nil => simp at hl
    | cons b bs =>
      obtain ⟨hp1, hp2, hp3⟩ := hsame 0 a b rfl rfl
      obtain ⟨⟨x, rest, hadd, hh⟩, hnup⟩ := hfirst a (by simp)
      have hb : ∃ rest', b.addrs = some (x :: rest') := by
        rw [hadd] at hp3
        cases hb : b.addrs with
        | none => rw [hb] at hp3; cases hp3
        | some l =>
          rw [hb] at hp3
          cases l with
          | nil => cases hp3
          | cons y l => simp only [Option.getD_some, List.head?_cons] at hp3; injection hp3 with hp3; subst hp3; exact ⟨l, rfl⟩
      obtain ⟨rest', hb⟩ := hb
      have hA : AInv w p := ⟨h.1, h.2.1, h.2.2⟩
      -- the two calls give the same
      have hconn : connect w (some p) a.addrs a.pend = connect w (some p) b.addrs b.pend := by
        rw [hadd, hb, hp1]
        cases p with
        | some f => rfl
        | none =>
          obtain ⟨c, y⟩ := x
          obtain ⟨w', p', r, h1, h2⟩ := conn_inv (some none) (by simp) c y.setup y.wait hA.inv
          rcases h2 with ⟨_, ha, _⟩ | ⟨_, _, _, hr, _, _, hp'⟩ | ⟨_, hnt, _⟩
          · rw [show y.wait = _ from hh.2] at ha; cases ha
          · subst hr; subst hp'; show loop _ _ _ = loop _ _ _; simp only [loop, h1]
          · have := hnt hh.1 hh.2; cases this
      have hatt : attempt w p a = attempt w p b := by unfold attempt; rw [hconn, hp2]
      obtain ⟨r, w1, p1, y, h0, h1, h2, h3, h4⟩ := attempt_step a hA
      have hnone : y = none := by
        rcases h4 with ⟨f, hs, _, _⟩ | ⟨_, hy, _⟩
        · exfalso
          cases p with
          | some g =>
            obtain ⟨ad, hm⟩ := hA.mem g rfl
            obtain ⟨r', h5, _, h6⟩ := pend_ok a.addrs a.pend hA.inv hm
            rw [h0] at h5; injection h5 with h5; subst h5
            rcases h6 with ⟨hup, _⟩ | ⟨_, hs', _⟩ | ⟨_, _, hs', _⟩
            · exact hnup hup
            · rw [hs] at hs'; cases hs'
            · rw [hs] at hs'; cases hs'
          | none =>
            obtain ⟨r', h5, _, h6⟩ := fresh_ok (some none) (by simp) a.addrs a.pend hA.inv
            rw [h0] at h5; injection h5 with h5; subst h5
            rw [hadd] at h6
            cases h6 with
            | found pre a' x' post f he hp ha hx hs hh' hm =>
              cases pre with
              | nil => injection he with e1 e2; subst e1; have := hh.2; rw [show x'.wait = _ from ha.2] at this; cases this
              | cons z pre => injection he with e1 e2; subst e1; exact (hp x (by simp)).2 rfl hh
            | post pre a' x' post he hp ha hx hs' hq => rw [hs] at hs'; cases hs'
            | hang pre a' x' post f ht he hp ha hs' hq hm => rw [hs] at hs'; cases hs'
            | nothing hp hs' hq => rw [hs] at hs'; cases hs'
        · exact hy
      obtain ⟨h5, w', p', xs, h6, h7⟩ := ih bs w1 p1 ⟨h2.wf, h2.only, h2.mem⟩ (by simpa using hl)
        (fun i a b ha hb => hsame (i + 1) a b (by simpa using ha) (by simpa using hb)) (fun a ha => hfirst a (by simp [ha]))
      have e1 : attempts w p (a :: as) = .ok (w', p', y :: xs) := by simp only [attempts, h1, h6]
      refine ⟨?_, w', p', y :: xs, e1, ?_⟩
      · rw [e1]; simp only [attempts, ← hatt, h1, ← h5, h6]
      · intro z hz
        rcases List.mem_cons.1 hz with h | h
        · rw [h]; exact hnone
        · exact h7 z h

/-- Three attempts with a second address that would answer; the last one closes the pending socket. -/
example : attempts ⟨[], 3⟩ none (List.replicate 3 ⟨some [(1, ⟨.started, .timeout, true⟩), (2, ⟨.started, .up, true⟩)], (.timeout, true), false⟩ ++
      [⟨some [(1, ⟨.started, .timeout, true⟩), (2, ⟨.started, .up, true⟩)], (.timeout, true), true⟩,
       ⟨some [(1, ⟨.started, .timeout, true⟩), (2, ⟨.started, .up, true⟩)], (.timeout, true), false⟩]) =
    .ok (⟨[(4, 1)], 5⟩, some 4, [none, none, none, none, none]) := by decide

/-- So it is false that a host is reached if one of its addresses answers whenever it is tried. -/
theorem callhome_connects_false :
    ¬ ∀ (w : World) (p : Option Nat), Holds w p → ∀ (a : Attempt) (l : List (Nat × Ans)), a.addrs = some l → (∃ y ∈ l, answers y ∧ y.2.post = true) →
      ∃ m w' p' xs, attempts w p (List.replicate m a) = .ok (w', p', xs) ∧ ∃ b, some b ∈ xs := by
  intro h
  obtain ⟨m, w', p', xs, h1, b, hb⟩ := h ⟨[], 3⟩ none ⟨⟨by simp, by simp⟩, by simp, by simp⟩
    ⟨some [(1, ⟨.started, .timeout, true⟩), (2, ⟨.started, .up, true⟩)], (.timeout, true), false⟩ _ rfl ⟨_, by simp; exact .inr rfl, ⟨rfl, rfl⟩, rfl⟩
  have := callhome_other_addresses_ignored (List.replicate m
      ⟨some [(1, ⟨.started, .timeout, true⟩), (2, ⟨.started, .up, true⟩)], (.timeout, true), false⟩) _ ⟨[], 3⟩ none
    ⟨⟨by simp, by simp⟩, by simp, by simp⟩ rfl
    (by intro i a b ha hb; rw [ha] at hb; injection hb with hb; subst hb; exact ⟨rfl, rfl, rfl⟩)
    (by intro a ha; rw [List.eq_of_mem_replicate ha]; exact ⟨⟨_, _, rfl, rfl, rfl⟩, by decide⟩)
  obtain ⟨_, w2, p2, ys, h2, h3⟩ := this
  rw [h1] at h2; injection h2 with h2; injection h2 with _ h2; injection h2 with _ h2; subst h2
  have := h3 _ hb; cases this

/-! ## C147 -/

/-- A connection of a Call Home endpoint goes to an address that the host had at this attempt or at an earlier one. -/
theorem callhome_address_was_configured (as : List Attempt) (w' : World) (p' : Option Nat) (xs : List (Option Nat))
    (h : attempts ⟨[], 3⟩ none as = .ok (w', p', xs)) (i ad : Nat) (hi : xs[i]? = some (some ad)) :
    ∃ j a, j ≤ i ∧ as[j]? = some a ∧ ad ∈ a.list := by
  rcases attempts_addr as ⟨[], 3⟩ none (fun _ => False) ⟨⟨by simp, by simp⟩, by simp, by simp⟩ (by simp) w' p' xs h i ad hi with h | h
  · exact h.elim
  · exact h

/-- The second attempt connects by the socket of the first one. -/
example : attempts ⟨[], 3⟩ none [⟨some [(1, ⟨.started, .timeout, true⟩)], (.up, true), false⟩, ⟨some [(1, ⟨.started, .up, true⟩)], (.up, true), false⟩] =
    .ok (⟨[], 4⟩, none, [none, some 1]) := by decide

/-- As long as the configured addresses stay the same, a connection goes to one of them. -/
theorem callhome_address_configured_partial (as : List Attempt) (w' : World) (p' : Option Nat) (xs : List (Option Nat))
    (h : attempts ⟨[], 3⟩ none as = .ok (w', p', xs)) (i ad : Nat) (hi : xs[i]? = some (some ad)) (l : List Nat)
    (hsame : ∀ (j : Nat) b, j ≤ i → as[j]? = some b → b.list = l) : ad ∈ l := by
  obtain ⟨j, b, hj, hb, hm⟩ := callhome_address_was_configured as w' p' xs h i ad hi
  rw [hsame j b hj hb] at hm; exact hm

/-- It is false without this: after a change of the address, a pending connection to the old address is used. -/
theorem callhome_address_configured_false :
    ¬ ∀ (as : List Attempt) (w' : World) (p' : Option Nat) (xs : List (Option Nat)), attempts ⟨[], 3⟩ none as = .ok (w', p', xs) →
      ∀ (i ad : Nat), xs[i]? = some (some ad) → ∀ a, as[i]? = some a → ad ∈ a.list := by
  intro h
  have := h [⟨some [(1, ⟨.started, .timeout, true⟩)], (.up, true), false⟩, ⟨some [(2, ⟨.started, .up, true⟩)], (.up, true), false⟩] ⟨[], 4⟩ none [none, some 1]
    (by decide) 1 1 rfl _ rfl
  exact absurd this (by decide)

end Verif.Props
