import Verif.Lemmas.HostKeys

/-! # Giving the host keys to libssh -/

namespace Verif.Props

open Verif.HostKeys

/-- C178: no file with a private key, nor any other file, is left behind by accepting an SSH session, whichever host key fails, if files can be removed and memory is there. -/
theorem hostkey_files_removed_partial (typeOf : Nat → Option Nat) (ks : List StoreKey) (e : Nat → Env) (h1 : ∀ i, (e i).stream = true)
    (h2 : ∀ i, (e i).dup = true) (h3 : ∀ i, (e i).unlink = true) : ∀ (hs : List HostKey) (i : Nat) (s : St), (addKeys typeOf ks e i hs s).2.files = s.files
  | [], i, s => rfl
  | h :: hs, i, s => by
    have ho := addOne_clean typeOf ks (e i) h s (h1 i) (h2 i) (h3 i)
    rw [addKeys]
    revert ho
    generalize addOne typeOf ks (e i) h s = r
    obtain ⟨b, s1⟩ := r
    intro ho
    cases b
    · exact ho
    · exact (hostkey_files_removed_partial typeOf ks e h1 h2 h3 hs (i + 1) s1).trans ho

/-- C178: a file that is left in spite of this can be read by the owner only, and the mask for new files is as before. -/
theorem hostkey_files_private (typeOf : Nat → Option Nat) (ks : List StoreKey) (e : Nat → Env) : ∀ (hs : List HostKey) (i : Nat) (s : St),
    (∀ f ∈ (addKeys typeOf ks e i hs s).2.files, f ∈ s.files ∨ f.mode = 0o600#9) ∧ (addKeys typeOf ks e i hs s).2.umask = s.umask
  | [], i, s => ⟨fun f h => Or.inl h, rfl⟩
  | h :: hs, i, s => by
    have ho := addOne_files typeOf ks (e i) h s
    have hu := addOne_umask typeOf ks (e i) h s
    rw [addKeys]
    revert ho hu
    generalize addOne typeOf ks (e i) h s = r
    obtain ⟨b, s1⟩ := r
    intro ho hu
    have hf : ∀ f ∈ s1.files, f ∈ s.files ∨ f.mode = 0o600#9 := by
      intro f hf
      rcases ho with h | ⟨k, h⟩ <;> simp only at h <;> rw [h] at hf
      · exact Or.inl hf
      · rcases List.mem_cons.1 hf with rfl | hf
        · exact Or.inr rfl
        · exact Or.inl hf
    cases b
    · exact ⟨hf, hu⟩
    · obtain ⟨a, b⟩ := hostkey_files_private typeOf ks e hs (i + 1) s1
      refine ⟨fun f h => ?_, b.trans hu⟩
      rcases a f h with h | h
      · exact hf f h
      · exact Or.inr h

/-- C178 is false without memory for the path: the private key stays in the file. -/
theorem hostkey_files_removed_false (typeOf : Nat → Option Nat) (ks : List StoreKey) (e : Nat → Env) (k : Nat) (hs : List HostKey) (i : Nat) (s : St)
    (h : e i = ⟨true, true, true, true, false, true⟩) :
    addKeys typeOf ks e i (.stored (some k) :: hs) s = (false, { s with files := ⟨0o600#9, some k⟩ :: s.files }) := by
  simp [addKeys, addOne, privOf, tmpFile, h]

/-- All calls succeed. -/
def keysGood : Nat → Env := fun _ => ⟨true, true, true, true, true, true⟩

/-- What can be compared of a result. -/
def keysSeen (r : Bool × St) : Bool × List File × BitVec 9 × List (Option Nat) := (r.1, r.2.files, r.2.umask, [r.2.slots 0, r.2.slots 1, r.2.slots 2])

/-- Keys below 10 have the type of their last bits. -/
def keyType (k : Nat) : Option Nat := if k < 10 then some (k % 3) else none

example : keysSeen (addKeys keyType [⟨7, some 4, false⟩] keysGood 0 [.stored (some 3), .ref 7] ⟨[⟨0o644#9, none⟩], 0o22#9, fun _ => none⟩) =
    (true, [⟨0o644#9, none⟩], 0o22#9, [some 3, some 4, none]) := by decide

example : keysSeen (addKeys keyType [] (fun _ => ⟨true, true, true, true, false, true⟩) 0 [.stored (some 3)] ⟨[], 0o22#9, fun _ => none⟩) =
    (false, [⟨0o600#9, some 3⟩], 0o22#9, [none, none, none]) := by decide

/-- The private keys of host keys, `none` if one cannot be used. -/
def privKeys (typeOf : Nat → Option Nat) (ks : List StoreKey) : List HostKey → Option (List Nat)
  | [] => some []
  | .stored (some k) :: hs => if (typeOf k).isSome = true then (privKeys typeOf ks hs).map (k :: ·) else none
  | .stored none :: _ => none
  | .ref n :: hs =>
    match ks.find? (fun x => x.name == n) with
    | some ⟨_, some k, false⟩ => if (typeOf k).isSome = true then (privKeys typeOf ks hs).map (k :: ·) else none
    | _ => none

theorem privKeys_cons (typeOf : Nat → Option Nat) (ks : List StoreKey) (h : HostKey) (hs : List HostKey) (k : Nat) (hp : privOf ks h = some (some k))
    (ht : (typeOf k).isSome = true) : privKeys typeOf ks (h :: hs) = (privKeys typeOf ks hs).map (k :: ·) := by
  cases h with
  | stored p => simp only [privOf, Option.some.injEq] at hp; subst hp; simp [privKeys, ht]
  | ref n =>
    simp only [privOf, storeKey] at hp
    rw [privKeys]
    cases hf : ks.find? (fun x => x.name == n) with
    | none => simp [hf] at hp
    | some x =>
      obtain ⟨nm, pr, sp⟩ := x
      cases sp <;> simp [hf] at hp
      subst hp
      simp [ht]

theorem privKeys_uncons (typeOf : Nat → Option Nat) (ks : List StoreKey) (h : HostKey) (hs : List HostKey) (l : List Nat)
    (hl : privKeys typeOf ks (h :: hs) = some l) : ∃ k t l', privOf ks h = some (some k) ∧ typeOf k = some t ∧ privKeys typeOf ks hs = some l' ∧ l = k :: l' := by
  have fin : ∀ k, (if (typeOf k).isSome = true then (privKeys typeOf ks hs).map (k :: ·) else none) = some l →
      ∃ t l', typeOf k = some t ∧ privKeys typeOf ks hs = some l' ∧ l = k :: l' := by
    intro k hk
    cases ht : typeOf k with
    | none => simp [ht] at hk
    | some t =>
      cases hr : privKeys typeOf ks hs with
      | none => simp [ht, hr] at hk
      | some l' => simp [ht, hr] at hk; exact ⟨t, l', rfl, rfl, hk.symm⟩
  cases h with
  | stored p =>
    cases p with
    | none => simp [privKeys] at hl
    | some k =>
      obtain ⟨t, l', a, b, c⟩ := fin k (by simpa only [privKeys] using hl)
      exact ⟨k, t, l', rfl, a, b, c⟩
  | ref n =>
    rw [privKeys] at hl
    cases hf : ks.find? (fun x => x.name == n) with
    | none => simp [hf] at hl
    | some x =>
      obtain ⟨nm, pr, sp⟩ := x
      cases pr with
      | none => simp [hf] at hl
      | some k =>
        cases sp with
        | true => simp [hf] at hl
        | false =>
          obtain ⟨t, l', a, b, c⟩ := fin k (by simpa only [hf] using hl)
          exact ⟨k, t, l', by simp [privOf, storeKey, hf], a, b, c⟩

/-- C179: a session goes on only if all host keys can be used; libssh then has for each type the last host key of that type. -/
theorem hostkeys_set_partial (typeOf : Nat → Option Nat) (ks : List StoreKey) (e : Nat → Env) : ∀ (hs : List HostKey) (i : Nat) (s s' : St),
    addKeys typeOf ks e i hs s = (true, s') →
    ∃ l, privKeys typeOf ks hs = some l ∧ ∀ t, s'.slots t = ((l.filter (fun k => typeOf k == some t)).getLast?).or (s.slots t)
  | [], i, s, s', h => by cases h; exact ⟨[], rfl, fun t => rfl⟩
  | h :: hs, i, s, s', hr => by
    rw [addKeys] at hr
    cases ho : addOne typeOf ks (e i) h s with
    | mk b s1 =>
      rw [ho] at hr
      cases b
      · cases hr
      · obtain ⟨k, t, hp, ht, hsl⟩ := addOne_ok ho
        obtain ⟨l, hl, hl2⟩ := hostkeys_set_partial typeOf ks e hs (i + 1) s1 s' hr
        refine ⟨k :: l, by rw [privKeys_cons typeOf ks h hs k hp (by simp [ht]), hl]; rfl, fun t' => ?_⟩
        rw [hl2 t', hsl]
        by_cases htt : t' = t
        · subst htt
          have : (k :: l).filter (fun k => typeOf k == some t') = k :: l.filter (fun k => typeOf k == some t') := by simp [ht]
          rw [this, List.getLast?_cons]
          cases (l.filter (fun k => typeOf k == some t')).getLast? <;> simp
        · have : (k :: l).filter (fun k => typeOf k == some t') = l.filter (fun k => typeOf k == some t') := by
            simp [ht, Ne.symm htt]
          rw [this]
          simp [htt]

/-- C179: so with one host key for each type all of them are used. -/
theorem hostkeys_all_used (typeOf : Nat → Option Nat) (ks : List StoreKey) (e : Nat → Env) (hs : List HostKey) (i : Nat) (s s' : St) (l : List Nat)
    (hl : privKeys typeOf ks hs = some l) (hd : ∀ k1 ∈ l, ∀ k2 ∈ l, typeOf k1 = typeOf k2 → k1 = k2) (h : addKeys typeOf ks e i hs s = (true, s')) :
    ∀ k ∈ l, ∃ t, typeOf k = some t ∧ s'.slots t = some k := by
  obtain ⟨l', hl', hs'⟩ := hostkeys_set_partial typeOf ks e hs i s s' h
  rw [hl] at hl'
  cases hl'
  intro k hk
  have hsome : ∀ (hs : List HostKey) l, privKeys typeOf ks hs = some l → ∀ k ∈ l, ∃ t, typeOf k = some t := by
    intro hs
    induction hs with
    | nil => intro l h k hk; cases h; cases hk
    | cons h hs ih =>
      intro l hl k hk
      obtain ⟨k', t, l', -, b, c, rfl⟩ := privKeys_uncons typeOf ks h hs l hl
      rcases List.mem_cons.1 hk with rfl | hk
      · exact ⟨t, b⟩
      · exact ih l' c k hk
  obtain ⟨t, ht⟩ := hsome hs l hl k hk
  refine ⟨t, ht, ?_⟩
  rw [hs' t]
  have hm : k ∈ l.filter (fun k => typeOf k == some t) := List.mem_filter.2 ⟨hk, by simp [ht]⟩
  cases hg : (l.filter (fun k => typeOf k == some t)).getLast? with
  | none => rw [List.getLast?_eq_none_iff] at hg; rw [hg] at hm; cases hm
  | some k' =>
    have hk' := List.mem_of_getLast? hg
    rw [List.mem_filter] at hk'
    have := hd k' hk'.1 k hk (by rw [ht]; simpa using hk'.2)
    simp [this]

/-- C179: host keys that can all be used are accepted when no call fails. -/
theorem hostkeys_accepted (typeOf : Nat → Option Nat) (ks : List StoreKey) (e : Nat → Env)
    (he : ∀ i, (e i).create = true ∧ (e i).stream = true ∧ (e i).written = true ∧ (e i).flushed = true ∧ (e i).dup = true) :
    ∀ (hs : List HostKey) (i : Nat) (s : St) (l : List Nat), privKeys typeOf ks hs = some l → (addKeys typeOf ks e i hs s).1 = true
  | [], i, s, l, h => rfl
  | h :: hs, i, s, l, hl => by
    obtain ⟨k, t, l', hp, ht, hl', -⟩ := privKeys_uncons typeOf ks h hs l hl
    obtain ⟨c1, c2, c3, c4, c5⟩ := he i
    have ho := addOne_grant typeOf ks (e i) h s k t hp ht c1 c2 c3 c4 c5
    rw [addKeys]
    cases hr : addOne typeOf ks (e i) h s with
    | mk b s1 =>
      rw [hr] at ho
      cases ho
      exact hostkeys_accepted typeOf ks e he hs (i + 1) s1 l' hl'

/-- C179 is false with two host keys of one type: the first one is not used at all. -/
theorem hostkeys_set_false (typeOf : Nat → Option Nat) (ks : List StoreKey) (k1 k2 t : Nat) (h1 : typeOf k1 = some t) (h2 : typeOf k2 = some t) (hne : k1 ≠ k2) (i : Nat)
    (s : St) (hs : ∀ t, s.slots t ≠ some k1) :
    ∃ s', addKeys typeOf ks keysGood i [.stored (some k1), .stored (some k2)] s = (true, s') ∧ ∀ t, s'.slots t ≠ some k1 := by
  refine ⟨_, by simp only [addKeys, addOne, privOf, tmpFile, keysGood, setKey, h1, h2, Bool.true_eq_false, Bool.and_self, if_true, if_false]; rfl, fun t' => ?_⟩
  by_cases h : t' = t
  · simp [h, Ne.symm hne]
  · simpa [h] using hs t'

example : keysSeen (addKeys keyType [] keysGood 0 [.stored (some 3), .stored (some 6)] ⟨[], 0o22#9, fun _ => none⟩) = (true, [], 0o22#9, [some 6, none, none]) := by
  decide

example : (addKeys keyType [⟨7, some 4, true⟩] keysGood 0 [.stored (some 3), .ref 7] ⟨[], 0, fun _ => none⟩).1 = false := by decide

end Verif.Props
