import Verif.Lemmas.Dnssec

/-! # Host key fingerprints in DNS: properties (src/session_client_ssh.c:231-322, 372-403, 499-556) -/

namespace Verif.Props
open Verif.Dnssec

/-- A fingerprint, another one, and a secure answer with given records for the host `h`. -/
def dnHash : List Byte := List.replicate 20 7
def dnOther : List Byte := List.replicate 20 8
def dnReply (l : List Rr) : Reply := ⟨false, true, true, 0, true, some ("h".toList, 44, 1), l⟩

/-! ## C156: a host key is accepted because of DNS only if DNSSEC vouches for it -/

/-- A result other than "no match" comes, for keys with a number, from a record with the fingerprint in an answer of a validating resolver. -/
theorem dnssec_record {key : KeyType} {hostname : List Char} {r : Reply} {hash : List Byte} {n : Nat} {b : Bool} (hh : hash.length = 20)
    (hk : algNumber key ≠ none) (h : sshfpCheck key hostname r hash = .ok (n, b)) (hn : n ≠ 2) :
    Answers hostname r ∧ (∃ rr ∈ r.answers, Vouches key hash rr) ∧ n = (if r.ad then 0 else 1) := by
  rw [sshfp_eq] at h
  cases ha : algNumber key with
  | none => exact absurd ha hk
  | some t =>
    rw [ha] at h
    simp only at h
    cases hc : check hostname r hash t 1 with
    | ub => rw [hc] at h; cases h
    | ok m =>
      rw [hc] at h
      injection h with h; injection h with h _; subst h
      obtain ⟨h1, h2⟩ := check_answers hc hn
      have h3 : m = if r.ad then 0 else 1 := (loop_values _ _ _ _ _ _ h2).resolve_right hn
      refine ⟨h1, ?_, h3⟩
      rw [h3] at h2
      obtain ⟨rr, hrr, ht, fp, hd, hcmp⟩ := loop_found hash t 1 _ (by cases r.ad <;> simp) _ h2
      obtain ⟨g1, _, g3⟩ := compare_true _ _ _ hcmp
      refine ⟨rr, hrr, t, ha, ht, fp, hd, g1, ?_⟩
      rw [g3, List.take_of_length_le (by omega)]

/-- A key that is not known is accepted without asking only if the reply was secured by DNSSEC and has a record with the fingerprint of the key; only
such keys are added to the known hosts. -/
theorem dnssec_accept_sound {key : KeyType} {hostname : List Char} {r : Reply} {hash : List Byte} (hh : hash.length = 20) :
    (newKey key hostname r hash = .ok none → Answers hostname r ∧ r.ad = true ∧ ∃ rr ∈ r.answers, Vouches key hash rr) ∧
      (∀ n, sshfpCheck key hostname r hash = .ok (n, true) → newKey key hostname r hash = .ok none) := by
  have hk : ∀ b, sshfpCheck key hostname r hash = .ok (0, b) → algNumber key ≠ none := by
    intro b h e
    rw [sshfp_eq, e] at h
    cases h
  constructor
  · intro h
    unfold newKey at h
    split at h
    · cases h
    · rename_i b hs
      obtain ⟨h1, h2, h3⟩ := dnssec_record hh (hk _ hs) hs (by decide)
      refine ⟨h1, ?_, h2⟩
      cases ha : r.ad with
      | true => rfl
      | false => rw [ha] at h3; cases h3
    · cases h
    · cases h
    · cases h
  · intro n h
    have : n = 0 := by
      unfold sshfpCheck at h
      split at h
      · cases h
      · injection h with h; injection h with h1 h2; subst h1; exact of_decide_eq_true h2
    subst this
    unfold newKey
    rw [h]
    rfl

example : newKey .rsa "h".toList (dnReply [⟨1, [4]⟩, ⟨44, 3 :: 1 :: dnOther⟩, ⟨44, 1 :: 1 :: dnHash⟩]) dnHash = .ok none := by decide +kernel
example : newKey .rsa "h".toList { dnReply [⟨44, 1 :: 1 :: dnHash⟩] with ad := false } dnHash = .ok (some .matching) := by decide +kernel
example : newKey .rsa "h".toList { dnReply [⟨44, 1 :: 1 :: dnHash⟩] with trusted := false } dnHash = .ok (some .noMatch) := by decide +kernel
example : newKey .dss "h".toList (dnReply [⟨44, 1 :: 1 :: dnHash⟩]) dnHash = .ok (some .noMatch) := by decide +kernel

/-! ## C157: a key that DNSSEC vouches for is accepted -/

/-- It is, if the first record of that kind has the fingerprint, and the records before are well formed. -/
theorem dnssec_accept_complete_partial {key : KeyType} {hostname : List Char} {r : Reply} {hash : List Byte} (hh : hash.length = 20)
    (ha : Answers hostname r) (hs : r.ad = true) {pre post : List Rr} {rr : Rr} (hr : r.answers = pre ++ rr :: post) (hv : Vouches key hash rr)
    (hw : ∀ x ∈ pre, WellFormed x) (hn : ∀ x ∈ pre, ¬ SameKind key x) : newKey key hostname r hash = .ok none := by
  obtain ⟨t, hk, ht, fp, hd, hl, hf⟩ := hv
  have h1 : check hostname r hash t 1 = .ok 0 := by
    rw [check_of_answers ha, hs, hr, loop_skip _ _ _ _ _ hw (fun x hx h => hn x hx ⟨t, hk, h⟩)]
    unfold answerLoop
    rw [if_neg (by simp [ht]), hd]
    simp only
    rw [if_neg (by simp), if_neg (by simp), compare_same 20 fp hash hl (by omega) (by rw [hf, List.take_of_length_le (by omega)])]
    rfl
  unfold newKey
  rw [sshfp_eq, hk]
  simp only [h1]

example : Vouches .ecdsa dnHash ⟨44, 3 :: 1 :: dnHash⟩ ∧ newKey .ecdsa "h".toList (dnReply [⟨44, 1 :: 1 :: dnOther⟩, ⟨44, 3 :: 1 :: dnHash⟩]) dnHash = .ok none :=
  ⟨⟨3, rfl, rfl, dnHash, rfl, by decide, by decide⟩, by decide +kernel⟩

/-- Only the first record of a kind is looked at: while a key is replaced and DNS has the fingerprints of both, one of them is refused. -/
theorem dnssec_accept_complete_false :
    ¬ ∀ (key : KeyType) (hostname : List Char) (r : Reply) (hash : List Byte), hash.length = 20 → Answers hostname r → r.ad = true →
      (∀ rr ∈ r.answers, WellFormed rr) → (∃ rr ∈ r.answers, Vouches key hash rr) → newKey key hostname r hash = .ok none := by
  intro h
  have := h .rsa "h".toList (dnReply [⟨44, 1 :: 1 :: dnOther⟩, ⟨44, 1 :: 1 :: dnHash⟩]) dnHash (by decide) ⟨rfl, rfl, rfl, rfl, rfl⟩ rfl
    (by
      intro rr hrr _
      rcases List.mem_cons.1 hrr with rfl | hrr
      · exact ⟨1, 1, dnOther, rfl, fun _ => by decide⟩
      · rw [List.mem_singleton] at hrr; subst hrr; exact ⟨1, 1, dnHash, rfl, fun _ => by decide⟩)
    ⟨⟨44, 1 :: 1 :: dnHash⟩, by simp [dnReply], 1, rfl, rfl, dnHash, rfl, by decide, by decide⟩
  revert this
  decide +kernel

/-! ## C158: the user is told the truth about DNS -/

/-- For RSA, DSA and ECDSA keys the user is told that DNS has a matching fingerprint only if the reply has one. -/
theorem dnssec_told_partial {key : KeyType} {hostname : List Char} {r : Reply} {hash : List Byte} (hh : hash.length = 20) (hk : algNumber key ≠ none)
    (h : newKey key hostname r hash = .ok (some .matching)) : Answers hostname r ∧ ∃ rr ∈ r.answers, Vouches key hash rr := by
  unfold newKey at h
  split at h
  · cases h
  · cases h
  · rename_i b hs
    obtain ⟨h1, h2, _⟩ := dnssec_record hh hk hs (by decide)
    exact ⟨h1, h2⟩
  · cases h
  · cases h

/-- For all other keys, Ed25519 among them, the user is always told that a matching fingerprint was found in DNS; DNS is not even asked. -/
theorem dnssec_told_false (key : KeyType) (hk : algNumber key = none) (hostname : List Char) (r : Reply) (hash : List Byte) :
    newKey key hostname r hash = .ok (some .matching) := by
  unfold newKey
  rw [sshfp_eq, hk]
  rfl

/-- For example if the query failed. -/
example : newKey .other "h".toList { dnReply [] with failed := true } dnHash = .ok (some .matching) ∧
    newKey .rsa "h".toList { dnReply [] with failed := true } dnHash = .ok (some .noMatch) := by decide +kernel

/-! ## C159: no reply makes the client read outside of a record -/

/-- None does whose SSHFP records are well formed. -/
theorem dnssec_reads_partial {key : KeyType} {hostname : List Char} {r : Reply} {hash : List Byte} (hh : hash.length = 20)
    (hw : ∀ rr ∈ r.answers, WellFormed rr) : newKey key hostname r hash ≠ .ub := by
  have hc : ∀ t, check hostname r hash t 1 ≠ .ub := by
    intro t
    unfold check
    split
    · simp
    · split
      · simp
      · split
        · simp
        · cases r.question with
          | none => simp
          | some q =>
            obtain ⟨name, qt, qc⟩ := q
            simp only
            split
            · simp
            · exact loop_no_ub hash hh t _ _ hw
  have hs : sshfpCheck key hostname r hash ≠ .ub := by
    rw [sshfp_eq]
    cases algNumber key with
    | none => simp
    | some t =>
      simp only
      cases h : check hostname r hash t 1 with
      | ub => exact absurd h (hc t)
      | ok n => simp
  unfold newKey
  split
  · rename_i h; exact absurd h hs
  · simp
  · simp
  · simp
  · simp

example : WellFormed ⟨44, 1 :: 1 :: dnHash⟩ ∧ WellFormed ⟨44, 4 :: 2 :: List.replicate 32 9⟩ :=
  ⟨fun _ => ⟨1, 1, dnHash, rfl, fun _ => by decide⟩, fun _ => ⟨4, 2, List.replicate 32 9, rfl, fun h => by cases h⟩⟩

/-- Lengths are not checked: an empty record or a short fingerprint that is a prefix of the right one is read over its end. -/
theorem dnssec_reads_false :
    newKey .rsa "h".toList (dnReply [⟨44, []⟩]) dnHash = .ub ∧ newKey .rsa "h".toList (dnReply [⟨44, [1, 1, 7, 7]⟩]) dnHash = .ub := by
  decide +kernel

end Verif.Props
