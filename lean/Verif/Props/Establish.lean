import Verif.Lemmas.Establish
/-!
C196: opening an SSH channel and the TLS handshake take no longer than the limit.
C197: how long a server waits for a connection over SSH to be established.
-/
namespace Verif.Props
open Verif.Establish

/-- The server answered with `a` at `t` and before that every round ended, at
least 1 ms before the limit of `ms` milliseconds from `start`, without an answer. -/
def AnsweredInTime {α : Type} (start ms : Nat) (a : α) (t : Nat) (ev : List (Ev α)) : Prop :=
  ∃ pre post, ev = pre ++ ⟨some a, t⟩ :: post ∧
    ∀ e ∈ pre, e.ans = none ∧ e.time + 1000000 ≤ start + ms * 1000000

private theorem answered_iff {α : Type} (start ms : Nat) (a : α) (t : Nat) (ev : List (Ev α)) :
    wait (some (start + ms * 1000000)) ev = .got a t ↔ AnsweredInTime start ms a t ev := by
  constructor
  · intro h
    obtain ⟨pre, post, he, hall⟩ := wait_got _ a t ev h
    refine ⟨pre, post, he, fun e hm => ⟨(hall e hm).1, ?_⟩⟩
    have := (hall e hm).2
    simp only [passed, decide_eq_false_iff_not] at this
    omega
  · rintro ⟨pre, post, rfl, hall⟩
    refine wait_answer _ a t post pre (fun e hm => ⟨(hall e hm).1, ?_⟩)
    have := (hall e hm).2
    simp only [passed, decide_eq_false_iff_not]
    omega

private theorem limit_nat (start ms : Nat) : limitMs start (ms : Int) = some (start + ms * 1000000) := by
  have : (ms : Int) > -1 := by omega
  simp [limitMs, this]

private theorem limit_none (start : Nat) (timeout : Int) (h : timeout < 0) : limitMs start timeout = none := by
  have : ¬ timeout > -1 := by omega
  simp [limitMs, this]

/-- C196: the channel of a client: with a limit of `ms` for each of both steps and
rounds of at most `step`, `open_netconf_channel` has returned within twice the
limit and twice a round, with a channel exactly when it returned 1; and it
returns 1 exactly when the server granted the channel and then the subsystem, each
in time. -/
theorem open_channel_within (ms start step : Nat) (openEv subEv : List (Ev Ssh)) (r : Done) (chan : Bool)
    (ho : Timely step start openEv)
    (hs : ∀ t, AnsweredInTime start ms .ok t openEv → Timely step t subEv)
    (h : openChannel true false ms start openEv subEv = (r, chan)) :
    (∀ rc t, r = .ret rc t →
      (rc = 1 ∨ rc = 0 ∨ rc = -1) ∧ (chan = true ↔ rc = 1) ∧ t ≤ start + 2 * (ms * 1000000) + 2 * step ∧
      (rc = 0 → start + ms * 1000000 < t + 1000000)) ∧
    (r = .running → (∀ e ∈ openEv, e.ans = none ∧ e.time + 1000000 ≤ start + ms * 1000000) ∨
      ∃ t, AnsweredInTime start ms .ok t openEv ∧
        ∀ e ∈ subEv, e.ans = none ∧ e.time + 1000000 ≤ start + 2 * (ms * 1000000) + step) ∧
    (∀ t, r = .ret 1 t ↔ ∃ t1, AnsweredInTime start ms .ok t1 openEv ∧ AnsweredInTime t1 ms .ok t subEv) := by
  have hw := wait_within step (start + ms * 1000000) openEv start (by omega) ho
  have hao : ∀ a t, wait (some (start + ms * 1000000)) openEv = .got a t ↔ AnsweredInTime start ms a t openEv :=
    fun a t => answered_iff start ms a t openEv
  simp only [openChannel, Bool.true_eq_false, if_false, Bool.false_eq_true, limit_nat] at h
  cases h1 : wait (some (start + ms * 1000000)) openEv with
  | waiting =>
    rw [h1] at h
    simp only [Prod.mk.injEq] at h
    obtain ⟨rfl, rfl⟩ := h
    refine ⟨by simp, fun _ => Or.inl (hw.2.2 h1), ?_⟩
    intro t
    simp only [reduceCtorEq, false_iff]
    rintro ⟨t1, h2, _⟩
    rw [← hao, h1] at h2
    cases h2
  | timeout t =>
    rw [h1] at h
    simp only [Prod.mk.injEq] at h
    obtain ⟨rfl, rfl⟩ := h
    have hb := hw.1 t h1
    refine ⟨?_, by simp, ?_⟩
    · intro rc t' hr
      simp only [Done.ret.injEq] at hr
      obtain ⟨rfl, rfl⟩ := hr
      refine ⟨by simp, by simp, by omega, fun _ => hb.1⟩
    · intro t'
      constructor
      · intro h; cases h
      · rintro ⟨t1, h2, _⟩
        rw [← hao, h1] at h2
        cases h2
  | got a t1 =>
    have hb := hw.2.1 a t1 h1
    cases a with
    | error =>
      rw [h1] at h
      simp only [Prod.mk.injEq] at h
      obtain ⟨rfl, rfl⟩ := h
      refine ⟨?_, by simp, ?_⟩
      · intro rc t' hr
        simp only [Done.ret.injEq] at hr
        obtain ⟨rfl, rfl⟩ := hr
        refine ⟨by simp, by simp, by omega, fun h => by cases h⟩
      · intro t'
        constructor
        · intro h; cases h
        · rintro ⟨t1, h2, _⟩
          rw [← hao, h1] at h2
          cases h2
    | ok =>
      have hA := (hao .ok t1).1 h1
      have hT := hs t1 hA
      have hw2 := wait_within step (t1 + ms * 1000000) subEv t1 (by omega) hT
      have has : ∀ a t, wait (some (t1 + ms * 1000000)) subEv = .got a t ↔ AnsweredInTime t1 ms a t subEv :=
        fun a t => answered_iff t1 ms a t subEv
      have huniq : ∀ t', AnsweredInTime start ms .ok t' openEv → t' = t1 := by
        intro t' h'
        rw [← hao, h1] at h'
        cases h'; rfl
      rw [h1] at h
      simp only at h
      cases h2 : wait (some (t1 + ms * 1000000)) subEv with
      | waiting =>
        rw [h2] at h
        simp only [Prod.mk.injEq] at h
        obtain ⟨rfl, rfl⟩ := h
        refine ⟨by simp, fun _ => Or.inr ⟨t1, hA, fun e he => ?_⟩, ?_⟩
        · have := hw2.2.2 h2 e he; exact ⟨this.1, by omega⟩
        · intro t
          simp only [reduceCtorEq, false_iff]
          rintro ⟨t', h3, h4⟩
          rw [huniq t' h3, ← has, h2] at h4
          cases h4
      | timeout t =>
        rw [h2] at h
        simp only [Prod.mk.injEq] at h
        obtain ⟨rfl, rfl⟩ := h
        have hb2 := hw2.1 t h2
        refine ⟨?_, by simp, ?_⟩
        · intro rc t' hr
          simp only [Done.ret.injEq] at hr
          obtain ⟨rfl, rfl⟩ := hr
          refine ⟨by simp, by simp, by omega, fun _ => by omega⟩
        · intro t'
          constructor
          · intro h; cases h
          · rintro ⟨t', h3, h4⟩
            rw [huniq t' h3, ← has, h2] at h4
            cases h4
      | got b t2 =>
        have hb2 := hw2.2.1 b t2 h2
        cases b with
        | error =>
          rw [h2] at h
          simp only [Prod.mk.injEq] at h
          obtain ⟨rfl, rfl⟩ := h
          refine ⟨?_, by simp, ?_⟩
          · intro rc t' hr
            simp only [Done.ret.injEq] at hr
            obtain ⟨rfl, rfl⟩ := hr
            refine ⟨by simp, by simp, by omega, fun h => by cases h⟩
          · intro t'
            constructor
            · intro h; cases h
            · rintro ⟨t', h3, h4⟩
              rw [huniq t' h3, ← has, h2] at h4
              cases h4
        | ok =>
          rw [h2] at h
          simp only [Prod.mk.injEq] at h
          obtain ⟨rfl, rfl⟩ := h
          refine ⟨?_, by simp, ?_⟩
          · intro rc t' hr
            simp only [Done.ret.injEq] at hr
            obtain ⟨rfl, rfl⟩ := hr
            refine ⟨by simp, by simp, by omega, fun h => by cases h⟩
          · intro t'
            constructor
            · intro h
              simp only [Done.ret.injEq, true_and] at h
              subst h
              exact ⟨t1, hA, (has .ok t2).1 h2⟩
            · rintro ⟨t', h3, h4⟩
              rw [huniq t' h3, ← has, h2] at h4
              cases h4; rfl

/-- A channel granted after 3 ms, a subsystem never answered, limit 10 ms. -/
example : openChannel true false 10 0 [⟨none, 1000000⟩, ⟨some .ok, 3000000⟩]
    [⟨none, 5000000⟩, ⟨none, 11000000⟩, ⟨none, 12500000⟩] = (.ret 0 12500000, false) := by decide +kernel

/-- C196: a session that is not connected gets no channel, one that has a channel
keeps it. -/
theorem open_channel_refused (connected channel : Bool) (timeout : Int) (start : Nat) (openEv subEv : List (Ev Ssh))
    (h : connected = false ∨ channel = true) :
    openChannel connected channel timeout start openEv subEv = (.ret (-1) start, channel) := by
  cases connected <;> cases channel <;> simp_all [openChannel]

example : openChannel true true 10 7 [⟨some .ok, 8⟩] [⟨some .ok, 9⟩] = (.ret (-1) 7, true) := by decide

/-- C196: without a limit, both the channel and the handshake wait as long as it
takes: they never time out. -/
theorem no_limit_waits (timeout : Int) (start t : Nat) (openEv subEv : List (Ev Ssh)) (ev : List (Ev Bool)) (h : timeout < 0) :
    (openChannel true false timeout start openEv subEv).1 ≠ .ret 0 t ∧ handshake timeout start ev ≠ .ret 0 t := by
  have hn : ∀ {α : Type} (ev : List (Ev α)) (t : Nat), wait none ev ≠ .timeout t := by
    intro α ev
    induction ev with
    | nil => intro t; simp [wait]
    | cons e r ih =>
      intro t
      cases ha : e.ans with
      | some a => simp [wait, ha]
      | none =>
        have := ih t
        simpa [wait, ha, passed] using this
  constructor
  · simp only [openChannel, Bool.true_eq_false, if_false, Bool.false_eq_true, limit_none _ _ h]
    cases h1 : wait none openEv with
    | waiting => simp
    | timeout t' => exact absurd h1 (hn openEv t')
    | got a t1 =>
      cases a with
      | error => simp
      | ok =>
        simp only
        cases h2 : wait none subEv with
        | waiting => simp
        | timeout t' => exact absurd h2 (hn subEv t')
        | got b t2 => cases b <;> simp
  · simp only [handshake, limit_none _ _ h]
    cases h1 : wait none ev with
    | waiting => simp
    | timeout t' => exact absurd h1 (hn ev t')
    | got b t2 => cases b <;> simp

example : handshake (-1) 0 [⟨none, 10 ^ 15⟩, ⟨some true, 10 ^ 16⟩] = .ret 1 (10 ^ 16) := by decide +kernel

/-- C196: the handshake of TLS of both peers: with a limit of `ms` it has returned
within the limit and one round; it succeeds exactly when the library says so in
time and it times out no earlier than 1 ms before the limit. -/
theorem handshake_within (ms start step : Nat) (ev : List (Ev Bool)) (hT : Timely step start ev) :
    (∀ rc t, handshake ms start ev = .ret rc t → t ≤ start + ms * 1000000 + step ∧
      (rc = 0 → start + ms * 1000000 < t + 1000000)) ∧
    (handshake ms start ev = .running → ∀ e ∈ ev, e.ans = none ∧ e.time + 1000000 ≤ start + ms * 1000000) ∧
    (∀ t, handshake ms start ev = .ret 1 t ↔ AnsweredInTime start ms true t ev) ∧
    (∀ t, handshake ms start ev = .ret (-1) t ↔ AnsweredInTime start ms false t ev) := by
  have hw := wait_within step (start + ms * 1000000) ev start (by omega) hT
  simp only [← answered_iff, handshake, limit_nat]
  cases h1 : wait (some (start + ms * 1000000)) ev with
  | waiting =>
    refine ⟨by simp, fun _ => hw.2.2 h1, by simp, by simp⟩
  | timeout t =>
    have hb := hw.1 t h1
    refine ⟨?_, by simp, ?_, ?_⟩
    · intro rc t' h
      simp only [Done.ret.injEq] at h
      obtain ⟨rfl, rfl⟩ := h
      exact ⟨by omega, fun _ => hb.1⟩
    · intro t'; simp
    · intro t'; simp
  | got a t =>
    have hb := hw.2.1 a t h1
    cases a with
    | true =>
      refine ⟨?_, by simp, ?_, ?_⟩
      · intro rc t' h
        simp only [Done.ret.injEq] at h
        obtain ⟨rfl, rfl⟩ := h
        exact ⟨by omega, fun h => by cases h⟩
      · intro t'; simp
      · intro t'; simp
    | false =>
      refine ⟨?_, by simp, ?_, ?_⟩
      · intro rc t' h
        simp only [Done.ret.injEq] at h
        obtain ⟨rfl, rfl⟩ := h
        exact ⟨by omega, fun h => by cases h⟩
      · intro t'; simp
      · intro t'; simp

example : handshake 10 0 [⟨none, 4000000⟩, ⟨some false, 9500000⟩] = .ret (-1) 9500000 := by decide +kernel

/-- What a user of the server relies on: a client has `ms` for the key exchange,
`authTimeout` seconds to authenticate and `chanMs` to open the channel, so the
server has given up by then (with rounds of at most `step`). -/
def AcceptsWithin (ms authTimeout chanMs : Nat) : Prop :=
  ∀ (start step : Nat) (kexEv : List (Ev Ssh)) (authEv chanEv : List (Ev Msg)),
    Timely step start kexEv →
    (∀ t, AnsweredInTime start ms .ok t kexEv → Timely step t authEv) →
    (∀ t1 t2, AnsweredInTime start ms .ok t1 kexEv → AnsweredInTime t1 (authTimeout * 1000) .done t2 authEv →
      Timely step t2 chanEv) →
    (∀ rc t, acceptSsh ms authTimeout start kexEv authEv chanEv = .ret rc t →
      t ≤ start + (ms + authTimeout * 1000 + chanMs) * 1000000 + 3 * step) ∧
    (acceptSsh ms authTimeout start kexEv authEv chanEv = .running →
      (∀ e ∈ kexEv, e.ans = none ∧ e.time ≤ start + ms * 1000000) ∨
      (∃ t, AnsweredInTime start ms .ok t kexEv ∧ ∀ e ∈ authEv, e.ans = none ∧ e.time ≤ t + authTimeout * 1000 * 1000000) ∨
      ∃ t1 t2, AnsweredInTime start ms .ok t1 kexEv ∧ AnsweredInTime t1 (authTimeout * 1000) .done t2 authEv ∧
        ∀ e ∈ chanEv, e.ans = none ∧ e.time ≤ t2 + chanMs * 1000000)

/-- C197: with a limit for authentication, the server gives up on a client within
the transport timeout, that limit and 1000 transport timeouts.
Missing: the channel has to be opened within 1000 times the transport timeout
(`accept_within_false`); with the limit for authentication 0 nothing ends the wait. -/
theorem accept_within_partial (ms authTimeout : Nat) (hm : 0 < ms) (hms : ms * 1000 < 2 ^ 31) (ha : 0 < authTimeout) :
    AcceptsWithin ms authTimeout (1000 * ms) := by
  intro start step kexEv authEv chanEv hk hau hch
  have hA : ∀ a t, wait (some (start + ms * 1000000)) kexEv = .got a t ↔ AnsweredInTime start ms a t kexEv :=
    fun a t => answered_iff start ms a t kexEv
  have hw := wait_within step (start + ms * 1000000) kexEv start (by omega) hk
  have ha0 : authTimeout ≠ 0 := by omega
  have hm0 : (ms : Int) ≠ 0 := by omega
  have hmod : ((ms : Int) * 1000 % 4294967296).toNat = ms * 1000 := by omega
  simp only [acceptSsh, keyExchange, limit_nat]
  cases h1 : wait (some (start + ms * 1000000)) kexEv with
  | waiting =>
    refine ⟨by simp, fun _ => Or.inl fun e he => ?_⟩
    have := hw.2.2 h1 e he; exact ⟨this.1, by omega⟩
  | timeout t =>
    have hb := hw.1 t h1
    refine ⟨?_, by simp⟩
    intro rc t' h
    simp at h
    omega
  | got a t1 =>
    have hb := hw.2.1 a t1 h1
    cases a with
    | error =>
      refine ⟨?_, by simp⟩
      intro rc t' h
      simp at h
      omega
    | ok =>
      have hA1 := (hA .ok t1).1 h1
      have hw2 := wait_within step (t1 + authTimeout * 1000 * 1000000) authEv t1 (by omega) (hau t1 hA1)
      simp only [authenticate, ne_eq, ha0, not_false_eq_true, if_true, not_true_eq_false, if_false]
      cases h2 : wait (some (t1 + authTimeout * 1000 * 1000000)) authEv with
      | waiting =>
        refine ⟨by simp, fun _ => Or.inr (Or.inl ⟨t1, hA1, fun e he => ?_⟩)⟩
        have := hw2.2.2 h2 e he; exact ⟨this.1, by omega⟩
      | timeout t =>
        have hb2 := hw2.1 t h2
        refine ⟨?_, by simp⟩
        intro rc t' h
        simp at h
        omega
      | got b t2 =>
        have hb2 := hw2.2.1 b t2 h2
        cases b with
        | lost =>
          refine ⟨?_, by simp⟩
          intro rc t' h
          simp at h
          omega
        | done =>
          have hA2 := (answered_iff t1 (authTimeout * 1000) Msg.done t2 authEv).1 h2
          have hw3 := wait_within step (t2 + ms * 1000 * 1000000) chanEv t2 (by omega) (hch t1 t2 hA1 hA2)
          simp only [acceptChannel, ne_eq, hm0, not_false_eq_true, if_true, hmod, not_true_eq_false, if_false]
          cases h3 : wait (some (t2 + ms * 1000 * 1000000)) chanEv with
          | waiting =>
            refine ⟨by simp, fun _ => Or.inr (Or.inr ⟨t1, t2, hA1, hA2, fun e he => ?_⟩)⟩
            have := hw3.2.2 h3 e he; exact ⟨this.1, by omega⟩
          | timeout t =>
            have hb3 := hw3.1 t h3
            refine ⟨?_, by simp⟩
            intro rc t' h
            simp at h
            omega
          | got c t3 =>
            have hb3 := hw3.2.1 c t3 h3
            cases c <;>
            · refine ⟨?_, by simp⟩
              intro rc t' h
              simp at h
              omega

example : acceptSsh 10000 10 0 [⟨none, 2000000⟩, ⟨some .ok, 30000000⟩] [⟨some .done, 40000000⟩]
    [⟨none, 9000000000000⟩, ⟨none, 10000040000000⟩] = .ret 0 10000040000000 := by decide +kernel

/-- C197: a session is accepted exactly when the keys were exchanged, the client
authenticated and the channel was opened, one after the other, each while the
server waited for it. -/
theorem accept_ssh_ok (ms authTimeout start t : Nat) (hm : 0 < ms) (hms : ms * 1000 < 2 ^ 31) (ha : 0 < authTimeout)
    (kexEv : List (Ev Ssh)) (authEv chanEv : List (Ev Msg)) :
    acceptSsh ms authTimeout start kexEv authEv chanEv = .ret 1 t ↔
      ∃ t1 t2, AnsweredInTime start ms .ok t1 kexEv ∧ AnsweredInTime t1 (authTimeout * 1000) .done t2 authEv ∧
        AnsweredInTime t2 (1000 * ms) .done t chanEv := by
  have ha0 : authTimeout ≠ 0 := by omega
  have hm0 : (ms : Int) ≠ 0 := by omega
  have hmod : ((ms : Int) * 1000 % 4294967296).toNat = 1000 * ms := by omega
  simp only [← answered_iff, acceptSsh, keyExchange, limit_nat]
  cases h1 : wait (some (start + ms * 1000000)) kexEv with
  | waiting => simp
  | timeout t => simp
  | got a t1 =>
    cases a with
    | error => simp
    | ok =>
      simp only [authenticate, ne_eq, ha0, not_false_eq_true, if_true, not_true_eq_false, if_false]
      cases h2 : wait (some (t1 + authTimeout * 1000 * 1000000)) authEv with
      | waiting => simp [h2]
      | timeout t => simp [h2]
      | got b t2 =>
        cases b with
        | lost => simp [h2]
        | done =>
          simp only [acceptChannel, ne_eq, hm0, not_false_eq_true, if_true, hmod, not_true_eq_false, if_false]
          cases h3 : wait (some (t2 + 1000 * ms * 1000000)) chanEv with
          | waiting => simp [h2, h3]
          | timeout t => simp [h2, h3]
          | got c t3 => cases c <;> simp [h2, h3]

example : acceptSsh 10000 10 0 [⟨some .ok, 30000000⟩] [⟨none, 31000000⟩, ⟨some .done, 40000000⟩]
    [⟨some .done, 50000000⟩] = .ret 1 50000000 := by decide +kernel

/-- C197 fails: the limit of 10 s (`NC_TRANSPORT_TIMEOUT`) for opening the channel
is not kept: the server is still waiting for a client that has authenticated and
sends nothing more, 9999 s later. -/
theorem accept_within_false : ∃ ms : Nat, (ms : Int) = transportTimeout ∧ ms = 10000 ∧ ∀ authTimeout, 0 < authTimeout →
    (∀ chanMs, chanMs ≤ 9998000 → ¬ AcceptsWithin ms authTimeout chanMs) := by
  refine ⟨10000, by decide, rfl, ?_⟩
  intro authTimeout ha chanMs hc hall
  have ha0 : authTimeout ≠ 0 := by omega
  have hk : ∀ t, AnsweredInTime 0 10000 Ssh.ok t [⟨some Ssh.ok, 0⟩] → t = 0 := by
    intro t h
    rw [← answered_iff] at h
    simp only [wait, Waited.got.injEq, true_and] at h
    exact h.symm
  have hd : ∀ t, AnsweredInTime 0 (authTimeout * 1000) Msg.done t [⟨some Msg.done, 0⟩] → t = 0 := by
    intro t h
    rw [← answered_iff] at h
    simp only [wait, Waited.got.injEq, true_and] at h
    exact h.symm
  obtain ⟨n, hn⟩ : ∃ n : Nat, n = 99989999 := ⟨_, rfl⟩
  have h := (hall 0 100000 [⟨some .ok, 0⟩] [⟨some .done, 0⟩] (silent Msg 100000 0 (n + 1))
    ⟨by simp, by simp, trivial⟩ ?_ ?_).2 ?_
  · obtain ⟨e, he, ht⟩ := silent_last Msg 100000 n 0
    rcases h with h | ⟨t, _, h⟩ | ⟨t1, t2, h1, h2, h3⟩
    · exact absurd (h _ (List.mem_singleton.2 rfl)).1 (by simp)
    · exact absurd (h _ (List.mem_singleton.2 rfl)).1 (by simp)
    · have e1 := hk t1 h1
      subst e1
      have e2 := hd t2 h2
      subst e2
      have := (h3 e he).2
      omega
  · intro t h
    rw [hk t h]
    exact ⟨by simp, by simp, trivial⟩
  · intro t1 t2 h1 h2
    rw [hk t1 h1] at h2
    rw [hd t2 h2]
    exact silent_timely Msg 100000 _ 0
  · have hwait := silent_wait Msg 100000 10000000000000 (n + 1) 0 (by omega)
    generalize silent Msg 100000 0 (n + 1) = ev at hwait
    have hl : (0 : Nat) + ((10000 : Int) * 1000 % 4294967296).toNat * 1000000 = 10000000000000 := by decide +kernel
    simp [acceptSsh, keyExchange, authenticate, acceptChannel, wait, hwait]

end Verif.Props
