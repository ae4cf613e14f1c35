import Verif.Model.HostKeys

/-! # Lemmas about giving host keys to libssh -/

namespace Verif.HostKeys

theorem addOne_clean (typeOf : Nat → Option Nat) (ks : List StoreKey) (e : Env) (h : HostKey) (s : St) (h1 : e.stream = true) (h2 : e.dup = true)
    (h3 : e.unlink = true) : (addOne typeOf ks e h s).2.files = s.files := by
  unfold addOne
  cases privOf ks h with
  | none => rfl
  | some p =>
    cases p with
    | none => rfl
    | some k =>
      cases hc : e.create <;> cases hw : e.written <;> simp [tmpFile, h1, h2, h3, hc, hw]
      split <;> rfl

theorem addOne_umask (typeOf : Nat → Option Nat) (ks : List StoreKey) (e : Env) (h : HostKey) (s : St) : (addOne typeOf ks e h s).2.umask = s.umask := by
  unfold addOne
  cases privOf ks h with
  | none => rfl
  | some p =>
    cases p with
    | none => rfl
    | some k =>
      cases h1 : e.create <;> cases h2 : e.stream <;> cases h3 : e.written <;> cases h4 : e.dup <;> cases e.unlink <;>
        simp [tmpFile, h1, h2, h3, h4] <;> split <;> rfl

theorem addOne_files (typeOf : Nat → Option Nat) (ks : List StoreKey) (e : Env) (h : HostKey) (s : St) :
    (addOne typeOf ks e h s).2.files = s.files ∨ ∃ k, (addOne typeOf ks e h s).2.files = ⟨0o600#9, k⟩ :: s.files := by
  unfold addOne
  cases privOf ks h with
  | none => exact Or.inl rfl
  | some p =>
    cases p with
    | none => exact Or.inl rfl
    | some k =>
      cases h1 : e.create <;> cases h2 : e.stream <;> cases h3 : e.written <;> cases h4 : e.dup <;> cases e.unlink <;>
        simp [tmpFile, h1, h2, h3, h4] <;> split <;> simp

/-- What is used of a host key that was given to libssh. -/
theorem addOne_ok {typeOf : Nat → Option Nat} {ks : List StoreKey} {e : Env} {h : HostKey} {s s' : St} (he : addOne typeOf ks e h s = (true, s')) :
    ∃ k t, privOf ks h = some (some k) ∧ typeOf k = some t ∧ s'.slots = fun t' => if t' = t then some k else s.slots t' := by
  unfold addOne at he
  cases hp : privOf ks h with
  | none => rw [hp] at he; cases he
  | some p =>
    rw [hp] at he
    cases p with
    | none => cases he
    | some k =>
      cases h1 : e.create <;> cases h2 : e.stream <;> cases h3 : e.written <;> cases h4 : e.dup <;> cases h6 : e.flushed <;>
        simp [tmpFile, h1, h2, h3, h4, h6, setKey] at he
      cases ht : typeOf k with
      | none => rw [ht] at he; simp at he
      | some t =>
        rw [ht] at he
        simp only [Prod.mk.injEq, true_and] at he
        exact ⟨k, t, rfl, ht, by rw [← he]⟩

theorem addOne_grant (typeOf : Nat → Option Nat) (ks : List StoreKey) (e : Env) (h : HostKey) (s : St) (k t : Nat) (hp : privOf ks h = some (some k))
    (ht : typeOf k = some t) (hc : e.create = true) (h1 : e.stream = true) (hw : e.written = true) (hf : e.flushed = true) (h2 : e.dup = true) :
    (addOne typeOf ks e h s).1 = true := by
  simp [addOne, hp, tmpFile, hc, h1, hw, hf, h2, setKey, ht]

end Verif.HostKeys
