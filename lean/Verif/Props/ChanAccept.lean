import Verif.Lemmas.ChanAccept

/-!
# Properties: accepting further channels of one SSH connection
-/

namespace Verif.Props
open Verif.ChanAccept

/-- **C256.** What is given is a session for a channel that waited, which the application was not given before; it is running then, and nothing else changes. -/
theorem channel_given (h : List Ev) (xs : List Nat) (o : Outcome) (i : Nat) (hg : (accept (run Conn.start h) xs o).2 = .given i) :
    o = .hello ∧ ⟨i, .starting⟩ ∈ (run Conn.start h).ring ∧ i ∉ (run Conn.start h).given ∧
    (accept (run Conn.start h) xs o).1.given = (run Conn.start h).given ++ [i] ∧
    ∀ y : Sess, y ∈ (accept (run Conn.start h) xs o).1.ring ↔ y = ⟨i, .running⟩ ∨ (y.id ≠ i ∧ y ∈ (run Conn.start h).ring) := by
  have hi := inv_run h _ inv_start
  generalize run Conn.start h = c at hi hg
  simp only [accept] at hg ⊢
  cases hp : pick c.ring xs with
  | none => simp [hp] at hg
  | some j =>
    have hm := pick_some hp
    cases o <;> simp only [hp] at hg ⊢
    · cases hg
      refine ⟨trivial, hm, hi.starting _ hm rfl, rfl, fun y => ?_⟩
      rw [mem_set]
      constructor
      · rintro (⟨h1, h2⟩ | ⟨rfl, _⟩)
        · exact .inr ⟨h2, h1⟩
        · exact .inl rfl
      · rintro (rfl | ⟨h2, h1⟩)
        · exact .inr ⟨rfl, _, hm, rfl⟩
        · exact .inl ⟨h1, h2⟩
    · cases hg
    · cases hg

example : (accept (run Conn.start [.request 0, .request 0]) [0] .hello).2 = .given 2 := by decide

/-- **C256.** A request on a new channel makes a session that waits, one that was neither given nor freed; the others stay as they are. -/
theorem channel_waits (h : List Ev) (x : Nat) (hx : ⟨x, .running⟩ ∈ (run Conn.start h).ring) :
    ∃ i, i ∉ (run Conn.start h).given ∧ i ∉ (run Conn.start h).freed ∧ (∀ y ∈ (run Conn.start h).ring, y.id ≠ i) ∧
      ∀ y, y ∈ (run Conn.start (h ++ [.request x])).ring ↔ y = ⟨i, .starting⟩ ∨ y ∈ (run Conn.start h).ring := by
  have hi := inv_run h _ inv_start
  have hr : run Conn.start (h ++ [.request x]) = request (run Conn.start h) x := by simp [run, step]
  rw [hr]
  generalize run Conn.start h = c at hi hx
  refine ⟨c.next, fun hm => Nat.lt_irrefl _ (hi.givenLt _ hm), fun hm => Nat.lt_irrefl _ (hi.freedLt _ hm), fun y hy => Nat.ne_of_lt (hi.lt y hy), fun y => ?_⟩
  rw [request, if_pos ((runs_iff _ _).mpr hx)]
  exact mem_ins.trans ⟨fun h => h.elim .inr fun h => .inl h.1, fun h => h.elim (fun h => .inr ⟨h, _, hx, rfl⟩) .inl⟩

example : (run Conn.start [.request 0, .request 0]).ring = [⟨0, .running⟩, ⟨2, .starting⟩, ⟨1, .starting⟩] := by decide

/-- **C256.** No session is given twice and none is freed twice. -/
theorem channel_once (h : List Ev) : (run Conn.start h).given.Nodup ∧ (run Conn.start h).freed.Nodup :=
  ⟨(inv_run h _ inv_start).givenNodup, (inv_run h _ inv_start).freedNodup⟩

example : (run Conn.start [.request 0, .request 0, .accept [0] .hello, .free 0, .request 2, .free 2, .free 2]).freed = [0, 2, 3, 1] := by decide

/-- **C256.** Accepting finds a channel exactly if one waits on the connection and one of the polled sessions of it is running. -/
theorem channel_ready (h : List Ev) (xs : List Nat) (o : Outcome) :
    (accept (run Conn.start h) xs o).2 ≠ .notReady ↔
      (∃ x ∈ xs, ⟨x, .running⟩ ∈ (run Conn.start h).ring) ∧ ∃ i, ⟨i, .starting⟩ ∈ (run Conn.start h).ring := by
  have hi := inv_run h _ inv_start
  generalize run Conn.start h = c at hi
  have hn : (accept c xs o).2 = .notReady ↔ pick c.ring xs = none := by
    simp only [accept]
    cases pick c.ring xs with
    | none => simp
    | some j => cases o <;> simp
  rw [ne_eq, hn, pick_none]
  constructor
  · intro h1
    have h2 : ∃ x ∈ xs, runs c.ring x = true ∧ ∃ y ∈ after c.ring x, y.status = .starting := by
      apply Classical.byContradiction
      intro h3
      exact h1 fun x hx hr y hy hs => h3 ⟨x, hx, hr, y, hy, hs⟩
    obtain ⟨x, hx, hr, y, hy, hs⟩ := h2
    exact ⟨⟨x, hx, (runs_iff _ _).mp hr⟩, y.id, by rw [← hs]; exact mem_after hy⟩
  · rintro ⟨⟨x, hx, hr⟩, i, hs⟩ h1
    refine h1 x hx ((runs_iff _ _).mpr hr) ⟨i, .starting⟩ (after_mem hs ?_) rfl
    intro e
    have := hi.uniq hs hr e
    cases this

example : (accept (run Conn.start [.request 0, .invalid 0]) [0] .hello).2 = .notReady ∧ (accept (run Conn.start [.request 0]) [5, 0] .kept).2 = .failed 1 := by decide

/-- **C256.** The connection is open as long as the application has a session of it. -/
theorem channel_open (h : List Ev) (i : Nat) (hg : i ∈ (run Conn.start h).given) (hf : i ∉ (run Conn.start h).freed) :
    (run Conn.start h).closed = false ∧ ∃ y ∈ (run Conn.start h).ring, y.id = i := by
  have hi := inv_run h _ inv_start
  obtain ⟨y, hy, e⟩ := hi.own i hg hf
  refine ⟨?_, y, hy, e⟩
  cases hc : (run Conn.start h).closed
  · rfl
  · exact absurd (hi.closed.mp hc) (List.ne_nil_of_mem hy)

example : (run Conn.start [.request 0, .accept [0] .hello, .free 0]).closed = false := by decide

/-- **C256.** Freeing a session frees no other one the application has, and while it has another, all others of the connection stay as they are, those that wait too. -/
theorem channel_free (h : List Ev) (x : Nat) (hx : x ∈ (run Conn.start h).given) (hf : x ∉ (run Conn.start h).freed) :
    x ∈ (run Conn.start (h ++ [.free x])).freed ∧
    (∀ i ∈ (run Conn.start h).given, i ≠ x → (i ∈ (run Conn.start (h ++ [.free x])).freed ↔ i ∈ (run Conn.start h).freed)) ∧
    ((∃ i ∈ (run Conn.start h).given, i ≠ x ∧ i ∉ (run Conn.start h).freed) →
      ∀ y, y ∈ (run Conn.start (h ++ [.free x])).ring ↔ y ∈ (run Conn.start h).ring ∧ y.id ≠ x) := by
  have hi := inv_run h _ inv_start
  have hr : run Conn.start (h ++ [.free x]) = free (run Conn.start h) x := by simp [run, step]
  rw [hr]
  generalize run Conn.start h = c at hi hx hf
  rw [free, if_pos ⟨hx, hf⟩]
  by_cases ho : (c.ring.filter fun y => decide (y.id ≠ x)).all (fun y => decide (y.status = .starting)) = true
  · simp only [ho, if_true]
    rw [List.all_eq_true] at ho
    refine ⟨by simp, fun i hi' hne => ?_, ?_⟩
    · simp only [List.mem_append, List.mem_cons, List.mem_map]
      constructor
      · rintro (h1 | h1 | ⟨y, hy, rfl⟩)
        · exact h1
        · exact absurd h1 hne
        · exact absurd hi' (hi.starting y (List.mem_filter.mp hy).1 (by simpa using ho y hy))
      · exact .inl
    · rintro ⟨i, hg, hne, hnf⟩
      obtain ⟨y, hy, rfl⟩ := hi.own i hg hnf
      have := ho y (List.mem_filter.mpr ⟨hy, by simpa using hne⟩)
      exact absurd hg (hi.starting y hy (by simpa using this))
  · simp only [if_neg ho]
    refine ⟨by simp, fun i _ hne => by simp [hne], fun _ y => by simp⟩

example : (run Conn.start [.request 0, .accept [0] .hello, .request 1, .free 0]).ring = [⟨1, .running⟩, ⟨2, .starting⟩] := by decide

/-- **C256.** Full statement (false, see `channel_closed_false`): once the application has freed all sessions it was given, the connection is closed and all its sessions are freed. -/
def ChannelClosed : Prop := ∀ h : List Ev, (∀ i ∈ (run Conn.start h).given, i ∈ (run Conn.start h).freed) →
  (run Conn.start h).closed = true ∧ ∀ i, i < (run Conn.start h).next → i ∈ (run Conn.start h).freed

/-- **C256.** Proved if no connection broke in the handshake of a further channel. -/
theorem channel_closed_partial (h : List Ev) (hb : ∀ xs, Ev.accept xs .broken ∉ h) (hf : ∀ i ∈ (run Conn.start h).given, i ∈ (run Conn.start h).freed) :
    (run Conn.start h).closed = true ∧ ∀ i, i < (run Conn.start h).next → i ∈ (run Conn.start h).freed := by
  have hi := inv_run h _ inv_start
  have hg := invalidGiven_run h _ inv_start (by intro y hy hs; simp [Conn.start] at hy; subst hy; cases hs) hb
  generalize run Conn.start h = c at hi hg hf
  have hr : c.ring = [] := by
    apply Classical.byContradiction
    intro hne
    obtain ⟨y, hy, hs⟩ := hi.some hne
    refine hi.alive y hy (hf _ ?_)
    cases he : y.status with
    | starting => exact absurd he hs
    | running => exact hi.running y hy he
    | invalid => exact hg y hy he
  refine ⟨hi.closed.mpr hr, fun i hlt => ?_⟩
  rcases hi.all i hlt with h1 | ⟨y, hy, _⟩
  · exact h1
  · rw [hr] at hy; cases hy

example : (run Conn.start [.request 0, .accept [0] .hello, .request 1, .free 0, .free 1]).closed = true := by decide

/-- **C256.** The peer closes a further channel during its handshake: its session stays in the ring without an owner, and the connection is never closed. -/
theorem channel_closed_false : ¬ ChannelClosed ∧
    run Conn.start [.request 0, .accept [0] .broken, .free 0] = ⟨[⟨1, .invalid⟩], 2, [0], [0], false⟩ :=
  ⟨fun h => absurd (h [.request 0, .accept [0] .broken, .free 0] (by decide)).1 (by decide), by decide⟩

/-- **C256.** Full statement (false, see `channel_threads_false`): two threads that accept channels, both of which search before one of them has ended its handshake, are given different
sessions. -/
def ChannelThreads : Prop := ∀ (h : List Ev) (xs ys : List Nat) (i j : Nat), pick (run Conn.start h).ring xs = some i → pick (run Conn.start h).ring ys = some j → i ≠ j

/-- **C256.** Proved if the second one searches after the first one has ended its handshake with success: it is given another session or none is ready. -/
theorem channel_threads_partial (h : List Ev) (xs ys : List Nat) (i j : Nat) (hp : pick (run Conn.start h).ring xs = some i)
    (hq : pick (acceptEnd (run Conn.start h) i .hello).1.ring ys = some j) :
    acceptEnd (run Conn.start h) i .hello = accept (run Conn.start h) xs .hello ∧ j ≠ i := by
  refine ⟨by simp [accept, acceptEnd, hp], fun e => ?_⟩
  subst e
  have hm := pick_some hq
  simp only [acceptEnd] at hm
  rcases mem_set.mp hm with ⟨_, hne⟩ | ⟨he, _⟩
  · exact hne rfl
  · cases he

example : pick (acceptEnd (run Conn.start [.request 0, .request 0]) 2 .hello).1.ring [0] = some 1 := by decide

/-- **C256.** Two threads are given the same session: the channel still waits while the first one makes its handshake. -/
theorem channel_threads_false : ¬ ChannelThreads ∧ pick (run Conn.start [.request 0]).ring [0] = some 1 ∧
    (acceptEnd (acceptEnd (run Conn.start [.request 0]) 1 .hello).1 1 .hello).1.given = [0, 1, 1] :=
  ⟨fun h => h [.request 0] [0] [0] 1 1 (by decide) (by decide) rfl, by decide, by decide⟩

/-- Results of accepting channels by way of session `x` one after the other (src/session_server_ssh.c:2015-2062). -/
def acceptResults (x : Nat) : Conn → List Outcome → List Res
  | _, [] => []
  | c, o :: os => (accept c [x] o).2 :: acceptResults x (accept c [x] o).1 os

/-- **C256.** Full statement (false, see `channel_tried_false`): accepting as often as channels wait, each of them has had its handshake. -/
def ChannelTried : Prop := ∀ (h : List Ev) (x : Nat) (os : List Outcome), ⟨x, .running⟩ ∈ (run Conn.start h).ring →
  os.length = (run Conn.start h).ring.countP (fun y => decide (y.status = .starting)) → ∀ i, ⟨i, .starting⟩ ∈ (run Conn.start h).ring →
  .given i ∈ acceptResults x (run Conn.start h) os ∨ .failed i ∈ acceptResults x (run Conn.start h) os

private theorem tried_all (x : Nat) : ∀ (os : List Outcome) (c : Conn), Inv c → ⟨x, .running⟩ ∈ c.ring → Outcome.kept ∉ os →
    os.length = c.ring.countP (fun y => decide (y.status = .starting)) → ∀ i, ⟨i, .starting⟩ ∈ c.ring →
    .given i ∈ acceptResults x c os ∨ .failed i ∈ acceptResults x c os
  | [], c, _, _, _, hl, i, hm => by
    have := List.countP_eq_zero.mp hl.symm _ hm
    simp at this
  | o :: os, c, hi, hx, hk, hl, i, hm => by
    have hxi : i ≠ x := fun e => by
      have := hi.uniq hm hx e
      cases this
    cases hp : pick c.ring [x] with
    | none => exact absurd rfl (pick_none.mp hp x (by simp) ((runs_iff _ _).mpr hx) _ (after_mem hm hxi))
    | some j =>
      have hj := pick_some hp
      have hxj : x ≠ j := fun e => by
        have := hi.uniq hx hj e
        cases this
      have hi' := inv_step hi (.accept [x] o)
      by_cases hij : i = j
      · subst hij
        cases o <;> simp [acceptResults, accept, hp]
      · have hcase : ∀ (st : Status) (c' : Conn), st ≠ .starting → c'.ring = setStatus c.ring j st → Inv c' →
            .given i ∈ acceptResults x c' os ∨ .failed i ∈ acceptResults x c' os := by
          intro st c' hst hr hc
          have hcount := count_set hi.nodup hj hst
          refine tried_all x os c' hc ?_ (fun hx => hk (List.mem_cons_of_mem _ hx)) ?_ i ?_
          · rw [hr]; exact mem_set.mpr (.inl ⟨hx, hxj⟩)
          · rw [hr]; simp only [List.length_cons] at hl; omega
          · rw [hr]; exact mem_set.mpr (.inl ⟨hm, hij⟩)
        simp only [acceptResults, List.mem_cons]
        simp only [step] at hi'
        have hfin := hcase (match o with | .hello => .running | .kept => .running | .broken => .invalid) (accept c [x] o).1
          (by cases o <;> simp) (by
            cases o with
            | hello => simp [accept, hp]
            | kept => exact absurd (by simp) hk
            | broken => simp [accept, hp]) hi'
        exact hfin.imp .inr .inr

/-- **C256.** Proved if each handshake succeeds or ends with a broken connection. -/
theorem channel_tried_partial (h : List Ev) (x : Nat) (os : List Outcome) (hx : ⟨x, .running⟩ ∈ (run Conn.start h).ring) (hk : Outcome.kept ∉ os)
    (hl : os.length = (run Conn.start h).ring.countP (fun y => decide (y.status = .starting))) (i : Nat) (hm : ⟨i, .starting⟩ ∈ (run Conn.start h).ring) :
    .given i ∈ acceptResults x (run Conn.start h) os ∨ .failed i ∈ acceptResults x (run Conn.start h) os :=
  tried_all x os _ (inv_run h _ inv_start) hx hk hl i hm

example : acceptResults 0 (run Conn.start [.request 0, .request 0, .request 0]) [.hello, .broken, .hello] = [.given 3, .failed 2, .given 1] := by decide

/-- **C256.** A client that sends no proper hello on its last channel keeps the others from being accepted, however often the application tries. -/
theorem channel_tried_false : ¬ ChannelTried ∧
    ∀ n, acceptResults 0 (run Conn.start [.request 0, .request 0]) (List.replicate n .kept) = List.replicate n (.failed 2) := by
  refine ⟨fun h => absurd (h [.request 0, .request 0] 0 [.kept, .kept] (by decide) (by decide) 1 (by decide)) (by decide), fun n => ?_⟩
  induction n with
  | zero => rfl
  | succ n ih =>
    have hs : accept (run Conn.start [.request 0, .request 0]) [0] .kept = (run Conn.start [.request 0, .request 0], .failed 2) := by decide
    rw [List.replicate_succ, List.replicate_succ, acceptResults, hs, ih]

end Verif.Props
