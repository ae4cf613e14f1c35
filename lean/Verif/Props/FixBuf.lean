import Verif.Lemmas.FixBuf

/-!
Texts printed into arrays of a fixed size (C198, C199).
-/

namespace Verif.Props

open Verif.FixBuf

/-- The text, if there is one, stays in the array and reads as the number. -/
def PrintsNumber (t : Option Text) (n : Nat) : Prop := ∃ s, t = some s ∧ valueOf s = some n

/-- C198: every number printed for an RPC, an error, the configuration and the content identifier fits into its array and is the number. -/
theorem numbers_fit (n32 n16 n8 : Nat) (h32 : n32 < 4294967296) (h16 : n16 < 65536) (h8 : n8 < 256) :
    PrintsNumber (errSid n32) n32 ∧ PrintsNumber (rpcNumber n32) n32 ∧ PrintsNumber (uidToStr n32) n32 ∧
    PrintsNumber (addPort n16) n16 ∧ PrintsNumber (addPeriod n16) n16 ∧ PrintsNumber (addIdle n16) n16 ∧
    PrintsNumber (defaultContentId n16) n16 ∧ PrintsNumber (some (dstPort n16)) n16 ∧
    (∃ a w, addStrategy n8 n16 = some (a, w) ∧ (if n8 = 0 then a = none else PrintsNumber a n8) ∧
      (if n16 = 0 then w = none else PrintsNumber w n16)) := by
  have l32 := dec_len32 h32
  have l16 := dec_len16 h16
  have l8 : (dec n8).length ≤ 5 := dec_len16 (by omega)
  refine ⟨⟨_, sprintf_fits (by omega), dec_value _⟩, ⟨_, sprintf_fits (by omega), dec_value _⟩,
    ⟨_, sprintf_fits (by omega), dec_value _⟩, ⟨_, sprintf_fits (by omega), dec_value _⟩,
    ⟨_, sprintf_fits (by omega), dec_value _⟩, ⟨_, sprintf_fits (by omega), dec_value _⟩,
    ⟨_, sprintf_fits (by omega), dec_value _⟩, ⟨_, rfl, ?_⟩, ?_⟩
  · rw [dstPort, snprintf, List.take_of_length_le (by omega)]; exact dec_value _
  · unfold addStrategy
    rw [sprintf_fits (t := dec n8) (by omega), sprintf_fits (t := dec n16) (by omega)]
    refine ⟨if n8 = 0 then none else some (dec n8), if n16 = 0 then none else some (dec n16), ?_, ?_, ?_⟩
    · by_cases ha : n8 = 0 <;> by_cases hw : n16 = 0 <;> simp [ha, hw]
    · by_cases ha : n8 = 0 <;> simp [ha, PrintsNumber, dec_value]
    · by_cases hw : n16 = 0 <;> simp [hw, PrintsNumber, dec_value]

example : errSid 4294967295 = some "4294967295".toList ∧ rpcNumber 4294967295 = some "4294967295".toList ∧
    addPort 65535 = some "65535".toList ∧ addStrategy 255 0 = some (some "255".toList, none) := by
  have e : dec 4294967295 = "4294967295".toList := by decide +kernel
  have e' : dec 65535 = "65535".toList := by decide +kernel
  have e'' : dec 255 = "255".toList := by decide +kernel
  simp [errSid, rpcNumber, addPort, addStrategy, e, e', e'', sprintf]

/-- C198: the header of a chunk fits and has the length of the chunk between `\n#` and `\n`. -/
theorem chunk_header_fits (n : Nat) (h : n < 4294967296) :
    ∃ s, chunkHeader n = some ('\n' :: '#' :: s ++ ['\n']) ∧ valueOf s = some n :=
  ⟨dec n, sprintf_fits (by have := dec_len32 h; simp; omega), dec_value n⟩

example : chunkHeader 1024 = some "\n#1024\n".toList := by
  have e : dec 1024 = "1024".toList := by decide +kernel
  simp [chunkHeader, e, sprintf]

/-- What C199 asks: no failure of polling and no content identifier leaves the array. `file` and `err` texts are those of the compiler
and of the C library, which are short; texts of libssh have up to 1023 characters (its `ERROR_BUFFERLEN` is 1024). -/
def TextsFit : Prop :=
  (∀ t : Text, t.length ≤ 1023 → pollMsg (.sshError t) ≠ none) ∧
  (∀ new id n, n < 65536 → yangLib new id n ≠ none)

/-- C199, the part which holds: all other texts fit (file names up to 200 and errors up to 200 characters), a text of libssh fits exactly
if it has at most 230 characters, the capability is right without a callback, and with one exactly for identifiers of up to 4012 (4009)
characters; a text that fits is complete. -/
theorem texts_fit_partial :
    (∀ f s, pollMsg f = some s → s = f.text) ∧
    (∀ t : Text, (pollMsg (.sshError t)).isSome ↔ t.length ≤ 230) ∧
    (∀ (file : Text) l, file.length ≤ 200 → l < 65536 → (pollMsg (.internal file l)).isSome) ∧
    (∀ e : Text, e.length ≤ 200 → (pollMsg (.poll e)).isSome) ∧
    (∀ f ∈ [Fail.idle, .ioLock, .sshEof, .closed, .sockErr], (pollMsg f).isSome) ∧
    (∀ new n, n < 65536 → ∃ s, yangLib new none n = some ((if new then "urn:ietf:params:netconf:capability:yang-library:1.1?revision=2019-01-04&content-id="
      else "urn:ietf:params:netconf:capability:yang-library:1.0?revision=2016-06-21&module-set-id=").toList ++ s) ∧ valueOf s = some n) ∧
    (∀ n (id : Text), (yangLib true (some id) n).isSome ↔ id.length ≤ 4012) ∧
    (∀ n (id : Text), (yangLib false (some id) n).isSome ↔ id.length ≤ 4009) := by
  have p83 : ylNew.length = 83 := by decide +kernel
  have p86 : ylOld.length = 86 := by decide +kernel
  have p24 : tSsh.length = 24 := by decide +kernel
  have p16 : tInternal.length = 16 := by decide +kernel
  have p13 : tPoll.length = 13 := by decide +kernel
  refine ⟨?_, ?_, ?_, ?_, ?_, ?_, ?_, ?_⟩
  · intro f s h; unfold pollMsg sprintf at h; split at h
    · exact (Option.some.inj h).symm
    · cases h
  · intro t
    rw [pollMsg_ssh, List.append_assoc, sprintf_pre 256 tSsh _ 24 p24, List.length_append, List.length_singleton]
    clear p83 p86 p24 p16 p13
    omega
  · intro file l hf hl
    have := dec_len16 hl
    rw [pollMsg_internal, List.append_assoc, List.append_assoc, List.append_assoc, sprintf_pre 256 tInternal _ 16 p16]
    simp only [List.length_append, List.length_singleton]
    clear p83 p86 p24 p16 p13
    omega
  · intro e he
    rw [pollMsg_poll, List.append_assoc, sprintf_pre 256 tPoll _ 13 p13, List.length_append, List.length_singleton]
    clear p83 p86 p24 p16 p13
    omega
  · decide +kernel
  · intro new n hn
    have := dec_len16 hn
    have hd : defaultContentId n = some (dec n) := sprintf_fits (by omega)
    cases new
    · refine ⟨dec n, ?_, dec_value n⟩
      have e : yangLib false none n = sprintf 4096 (ylOld ++ dec n) := by simp [yangLib, hd, yangLibCap]
      rw [e, sprintf_fits (by rw [List.length_append, p86]; omega)]
      rfl
    · refine ⟨dec n, ?_, dec_value n⟩
      have e : yangLib true none n = sprintf 4096 (ylNew ++ dec n) := by simp [yangLib, hd, yangLibCap]
      rw [e, sprintf_fits (by rw [List.length_append, p83]; omega)]
      rfl
  · intro n id; simp only [yangLib, yangLibCap, if_true]; rw [sprintf_pre _ _ _ _ p83]; clear p83 p86 p24 p16 p13; omega
  · intro n id; simp only [yangLib, yangLibCap, Bool.false_eq_true, if_false]; rw [sprintf_pre _ _ _ _ p86]
    clear p83 p86 p24 p16 p13; omega

example : pollMsg (.sshError "Socket error: disconnected".toList) = some "SSH channel poll error (Socket error: disconnected)".toList ∧
    pollMsg (.poll "Bad file descriptor".toList) = some "Poll failed (Bad file descriptor)".toList := by decide +kernel


/-- C199 is false: a text of libssh, such as the reason a client gives for its disconnect, may be longer than the array, and so may the
identifier returned by the application. -/
theorem texts_fit_false : ¬ TextsFit := by
  intro h
  have h' := h.1 (List.replicate 1000 'x') (by rw [List.length_replicate]; omega)
  have := (texts_fit_partial.2.1 (List.replicate 1000 'x')).1 (Option.isSome_iff_ne_none.2 h')
  rw [List.length_replicate] at this
  omega

example : ¬ (pollMsg (.sshError (List.replicate 231 'x'))).isSome ∧ ¬ (yangLib true (some (List.replicate 5000 'x')) 0).isSome := by
  rw [texts_fit_partial.2.1, texts_fit_partial.2.2.2.2.2.2.1, List.length_replicate, List.length_replicate]
  omega

end Verif.Props
