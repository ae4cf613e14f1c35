import Verif.Spec.SockOpt
import Verif.Lemmas.Accept

/-!
# Lemmas: options of the sockets of sessions
-/

namespace Verif.SockOpt
open Verif.ConfEndpt (Ka Srv Endpt)
open Verif.Accept (Bind Ev choose Choice Chosen choose_spec)

theorem configureKa_ok {k : Ka} {a : KaAns} {o o' : Opts} (h : configureKa k a o = (o', true)) :
    KeepsAlive k o' ∧ o'.nonblock = o.nonblock ∧ o'.nodelay = o.nodelay := by
  obtain ⟨e, ki, kp, kn⟩ := k
  obtain ⟨a1, a2, a3, a4⟩ := a
  cases e <;> cases a1 <;> cases a2 <;> cases a3 <;> cases a4 <;> simp [configureKa] at h <;> subst h <;> simp [KeepsAlive, Alive]

theorem configureKa_iff (k : Ka) (a : KaAns) (o : Opts) : (configureKa k a o).2 = true ↔ Settable k a := by
  obtain ⟨e, ki, kp, kn⟩ := k
  obtain ⟨a1, a2, a3, a4⟩ := a
  cases e <;> cases a1 <;> cases a2 <;> cases a3 <;> cases a4 <;> simp [configureKa, Settable]

theorem listenInet_nodelay {new o : Opts} {a : ListenAns} (h : listenInet new a = some o) : o.nodelay = true := by
  obtain ⟨a1, a2, a3, a4, a5⟩ := a
  cases a1 <;> cases a2 <;> cases a3 <;> cases a4 <;> cases a5 <;> simp [listenInet] at h
  subst h; rfl

theorem chosen_socks {ev : Int → Ev} {ok : Bool} {bs bs' : List Bind} {ch : Choice} (h : Chosen ev ok bs bs' ch) : bs'.map Bind.sock = bs.map Bind.sock := by
  have key : ∀ (f : Nat → Bind → Bool) (l : List Bind), l.length = bs.length →
      (∀ (j : Nat) (b : Bind), bs[j]? = some b → l[j]? = some { b with pollin := f j b }) → l.map Bind.sock = bs.map Bind.sock := by
    intro f l hl hf
    apply List.ext_getElem?
    intro j
    rw [List.getElem?_map, List.getElem?_map]
    cases hb : bs[j]? with
    | none =>
      have : l[j]? = none := by rw [List.getElem?_eq_none_iff] at hb ⊢; omega
      rw [this]
    | some b => rw [hf j b hb]; rfl
  cases h with
  | leftover k b h1 h2 h3 =>
    apply List.ext_getElem?
    intro j
    rw [List.getElem?_map, List.getElem?_map, List.getElem?_modify]
    cases bs[j]? with
    | none => rfl
    | some b => by_cases hk : k = j <;> simp [hk]
  | pollError => rfl
  | timeout => rfl
  | polled _ k b _ _ _ _ hl hf => exact key _ _ hl hf
  | other _ b _ _ _ _ _ hl hf => exact key _ _ hl hf

theorem chosen_at {ev : Int → Ev} {ok : Bool} {bs bs' : List Bind} {i : Nat} (h : Chosen ev ok bs bs' (.at i)) : ∃ b, bs[i]? = some b ∧ 0 ≤ b.sock := by
  cases h with
  | leftover k b h1 h2 h3 => exact ⟨b, h1, by simp only [Accept.Bind.marked, Accept.Bind.valid, Bool.and_eq_true, decide_eq_true_eq] at h2; omega⟩
  | polled _ k b _ _ h1 h2 => exact ⟨b, h1, by simp only [Accept.ready, Accept.Bind.valid, Bool.and_eq_true, decide_eq_true_eq] at h2; omega⟩

/-- What `nc_sock_accept_binds` returns. -/
theorem acceptBinds_spec (ev : Int → Ev) (ok : Bool) (lst : Int → Opts) (a : AcceptAns) (bs : List Bind) :
    ∃ bs' ch, choose (if ok then some ev else none) bs = some (bs', ch) ∧ bs'.map Bind.sock = bs.map Bind.sock ∧
      ((∃ i b, ch = .at i ∧ bs'[i]? = some b ∧ 0 ≤ b.sock ∧ acceptBinds (if ok then some ev else none) lst a bs =
        some (bs', if a.accept && a.flags && a.host then some (i, { lst b.sock with nonblock := true }) else none)) ∨
      ((∀ i, ch ≠ .at i) ∧ acceptBinds (if ok then some ev else none) lst a bs = some (bs', none))) := by
  obtain ⟨bs', ch, h1, h2⟩ := choose_spec ev ok bs
  have hs := chosen_socks h2
  refine ⟨bs', ch, h1, hs, ?_⟩
  cases ch with
  | timeout => right; exact ⟨by simp, by simp only [acceptBinds, h1]⟩
  | error => right; exact ⟨by simp, by simp only [acceptBinds, h1]⟩
  | «at» i =>
    left
    obtain ⟨b0, hb0, hp⟩ := chosen_at h2
    have hm : (bs'.map Bind.sock)[i]? = some b0.sock := by rw [hs, List.getElem?_map, hb0]; rfl
    rw [List.getElem?_map] at hm
    cases hb : bs'[i]? with
    | none => rw [hb] at hm; cases hm
    | some b =>
      rw [hb] at hm
      simp only [Option.map_some, Option.some.injEq] at hm
      refine ⟨i, b, rfl, hb, by omega, ?_⟩
      simp only [acceptBinds, h1, hb]
      cases a.accept <;> cases a.flags <;> cases a.host <;> rfl

theorem waitSock_conn {keep : Bool} {k : Ka} {w : Wait} {ka : KaAns} {o o' : Opts} (h : waitSock keep k w ka o = .conn o') :
    KeepsAlive k o' ∧ o'.nonblock = o.nonblock ∧ o'.nodelay = o.nodelay := by
  cases w with
  | error => cases h
  | failed => cases h
  | timeout => cases keep <;> simp [waitSock] at h
  | up =>
    simp only [waitSock] at h
    split at h
    · rename_i hk; cases h; exact configureKa_ok hk
    · cases h

theorem waitSock_pending {keep : Bool} {k : Ka} {w : Wait} {ka : KaAns} {o o' : Opts} (h : waitSock keep k w ka o = .pending o') : keep = true ∧ o' = o := by
  cases w with
  | error => cases h
  | failed => cases h
  | timeout => cases keep <;> simp [waitSock] at h; exact ⟨rfl, h.symm⟩
  | up =>
    simp only [waitSock] at h
    split at h <;> cases h

theorem sockConnect_conn {new : Opts} {keep : Bool} {k : Ka} {a : Ans} {o : Opts} (h : sockConnect new keep k a = .conn o) :
    KeepsAlive k o ∧ o.nonblock = true := by
  unfold sockConnect at h
  split at h
  · cases h
  split at h
  · cases h
  simp only at h
  split at h
  · cases h
  exact ⟨(waitSock_conn h).1, (waitSock_conn h).2.1⟩

theorem sockConnect_pending {new : Opts} {keep : Bool} {k : Ka} {a : Ans} {o : Opts} (h : sockConnect new keep k a = .pending o) :
    keep = true ∧ o.nonblock = true := by
  unfold sockConnect at h
  split at h
  · cases h
  split at h
  · cases h
  simp only at h
  split at h
  · cases h
  obtain ⟨h1, h2⟩ := waitSock_pending h
  exact ⟨h1, by rw [h2]⟩

theorem loop_conn {new : Opts} {keep : Bool} {k : Ka} {as : List Ans} {o : Opts} (h : loop new keep k as = .conn o) :
    KeepsAlive k o ∧ o.nonblock = true ∧ o.nodelay = true := by
  induction as with
  | nil => cases h
  | cons a as ih =>
    simp only [loop] at h
    split at h
    · exact ih h
    · cases h
    · rename_i o' ho
      obtain ⟨h1, h2⟩ := sockConnect_conn ho
      split at h
      · cases h
      split at h
      · cases h
      cases h
      exact ⟨h1, h2, rfl⟩

theorem loop_pending {new : Opts} {keep : Bool} {k : Ka} {as : List Ans} {o : Opts} (h : loop new keep k as = .pending o) : keep = true ∧ o.nonblock = true := by
  induction as with
  | nil => cases h
  | cons a as ih =>
    simp only [loop] at h
    split at h
    · exact ih h
    · rename_i o' ho; cases h; exact sockConnect_pending ho
    · split at h
      · cases h
      split at h <;> cases h

theorem connect_conn {new : Opts} {keep : Bool} {p : Option Opts} {k : Ka} {as : List Ans} {a : PendAns} {o : Opts} (hp : ∀ q, p = some q → q.nonblock = true)
    (h : connect new keep p k as a = .conn o) : KeepsAlive k o ∧ o.nonblock = true ∧ (p = none → o.nodelay = true) := by
  cases p with
  | none => exact ⟨(loop_conn h).1, (loop_conn h).2.1, fun _ => (loop_conn h).2.2⟩
  | some q =>
    simp only [connect] at h
    split at h
    · rename_i o' ho
      split at h
      · cases h
      cases h
      obtain ⟨h1, h2, -⟩ := waitSock_conn ho
      exact ⟨h1, by rw [h2]; exact hp q rfl, fun e => by cases e⟩
    · rename_i hn; exact absurd h (hn o)

theorem connect_pending {new : Opts} {keep : Bool} {p : Option Opts} {k : Ka} {as : List Ans} {a : PendAns} {o : Opts}
    (hp : ∀ q, p = some q → q.nonblock = true) (h : connect new keep p k as a = .pending o) : o.nonblock = true := by
  cases p with
  | none => exact (loop_pending h).2
  | some q =>
    simp only [connect] at h
    split at h
    · split at h <;> cases h
    · rw [(waitSock_pending h).2]; exact hp q rfl

theorem kept_nonblock {last : Bool} {r : Out} (h : ∀ o, r = .pending o → o.nonblock = true) (q : Opts) (hq : kept last r = some q) : q.nonblock = true := by
  cases r with
  | failed => cases hq
  | conn o => cases hq
  | pending o =>
    cases last
    · cases hq; exact h _ rfl
    · cases hq

/-- Attempts one after another: every connection, and what was pending before it. -/
theorem attempts_conn (new : Opts) (ts : List Attempt) : ∀ (p : Option Opts), (∀ q, p = some q → q.nonblock = true) → ∀ (j : Nat) (o : Opts),
    (attempts new p ts)[j]? = some (.conn o) → ∃ t, ts[j]? = some t ∧ KeepsAlive t.ka o ∧ o.nonblock = true ∧
      ((j = 0 → p = none) → (∀ (i : Nat) (u : Attempt) (q : Opts), i + 1 = j → ts[i]? = some u → (attempts new p ts)[i]? = some (.pending q) → u.last = true) →
        o.nodelay = true) := by
  induction ts with
  | nil => intro p _ j o h; simp [attempts] at h
  | cons t ts ih =>
    intro p hp j o h
    cases j with
    | zero =>
      simp only [attempts, List.getElem?_cons_zero, Option.some.injEq] at h
      obtain ⟨h1, h2, h3⟩ := connect_conn hp h
      exact ⟨t, rfl, h1, h2, fun he _ => h3 (he rfl)⟩
    | succ j =>
      simp only [attempts, List.getElem?_cons_succ] at h
      obtain ⟨u, h1, h2, h3, h4⟩ := ih _ (kept_nonblock (fun o ho => connect_pending hp ho)) j o h
      refine ⟨u, by simpa using h1, h2, h3, fun _ hl => h4 (fun hj => ?_) fun i v q hi hv hq => ?_⟩
      · subst hj
        cases hr : connect new true p t.ka t.ans t.pend with
        | failed => rfl
        | conn o => rfl
        | pending q =>
          have := hl 0 t q rfl rfl (by simp only [attempts, List.getElem?_cons_zero, hr])
          simp [kept, this]
      · exact hl (i + 1) v q (by omega) (by simpa using hv) (by simpa only [attempts, List.getElem?_cons_succ] using hq)

end Verif.SockOpt
