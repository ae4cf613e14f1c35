import Verif.Lemmas.TlsWrap

/-!
# The two TLS libraries (C200 to C204)
-/

namespace Verif.Props

open Verif.TlsIo Verif.TlsWrap

/-! ## Reading and writing -/

/-- What a user expects from reading for each cause: the data, nothing yet, or
the end of the session with its reason. -/
def ExpectedRead : Cause → Out
  | .data n => ⟨(n : Int) + 1, none⟩
  | .nothing => ⟨0, none⟩
  | .ticket => ⟨0, none⟩
  | .closed => ⟨-1, some .dropped⟩
  | .eof => ⟨-1, some .other⟩
  | .lost _ => ⟨-1, some .other⟩
  | .broken => ⟨-1, some .other⟩

/-- C200, partial: with OpenSSL reading always does what is expected; with
Mbed TLS it does, except after a failure of the connection or a new ticket. -/
theorem tls_read_partial (c : Cause) :
    osslRead (osslResult c).1 (osslResult c).2 = ExpectedRead c ∧
    (c ≠ .ticket → (∀ e, c ≠ .lost e) → mbedRead (mbedResult c) = ExpectedRead c) := by
  cases c with
  | data n =>
    have h : ¬ ((n : Int) + 1 ≤ 0) := by omega
    exact ⟨by simp [osslRead, osslResult, ExpectedRead, h], fun _ _ => by simp [mbedRead, mbedResult, ExpectedRead, h]⟩
  | lost e => exact ⟨rfl, fun _ h => absurd rfl (h e)⟩
  | ticket => exact ⟨rfl, fun h => absurd rfl h⟩
  | _ => exact ⟨rfl, fun _ _ => by decide⟩

example : osslRead 7 .unknown = ⟨7, none⟩ ∧ mbedRead wantRead = ⟨0, none⟩ := by decide

/-- C200 is false with Mbed TLS: a lost connection is taken for one without
data, and a ticket sent by the server ends the session. -/
theorem tls_read_false :
    (∀ e, mbedRead (mbedResult (.lost e)) = ⟨0, none⟩) ∧
    mbedRead (mbedResult .ticket) = ⟨-1, some .other⟩ ∧
    ∃ c, mbedRead (mbedResult c) ≠ ExpectedRead c := by
  refine ⟨fun e => by cases e <;> decide, by decide, .ticket, by decide⟩

/-- C200: whatever the library returns, reading fails exactly if it ended the
session, a positive result is that of the library, and the result of writing is
never more than what the library wrote; it is negative exactly if the library
failed for another reason than having to wait (Mbed TLS: `MBEDTLS_ERR_SSL_WANT_READ` -0x6900, `MBEDTLS_ERR_SSL_WANT_WRITE` -0x6880). -/
theorem tls_io_status (rc : Int) (err : SslErr) :
    (((osslRead rc err).rc < 0 ↔ (osslRead rc err).ended ≠ none) ∧
      (0 < (osslRead rc err).rc ↔ 0 < rc) ∧ (0 < rc → (osslRead rc err).rc = rc)) ∧
    (((mbedRead rc).rc < 0 ↔ (mbedRead rc).ended ≠ none) ∧
      (0 < (mbedRead rc).rc ↔ 0 < rc) ∧ (0 < rc → (mbedRead rc).rc = rc)) ∧
    ((0 < rc → (osslWrite rc err).rc = rc) ∧
      (rc ≤ 0 → (osslWrite rc err).rc = if err = .wantRead ∨ err = .wantWrite then 0 else -1)) ∧
    ((0 ≤ rc → (mbedWrite rc).rc = rc) ∧
      (rc < 0 → (mbedWrite rc).rc = if rc = -0x6900 ∨ rc = -0x6880 then 0 else -1)) := by
  rw [show (-0x6900 : Int) = wantRead from rfl, show (-0x6880 : Int) = wantWrite from rfl]
  refine ⟨⟨?_, ?_, ?_⟩, ⟨?_, ?_, ?_⟩, ⟨?_, ?_⟩, ?_, ?_⟩
  · unfold osslRead; split
    · cases err <;> simp
    · simp; omega
  · unfold osslRead; split
    · cases err <;> simp <;> omega
    · simp
  · intro h; simp [osslRead, show ¬ rc ≤ 0 by omega]
  · unfold mbedRead; split
    · split
      · simp
      · split <;> simp
    · simp; omega
  · unfold mbedRead; split
    · split
      · simp; omega
      · split <;> simp <;> omega
    · simp
  · intro h; simp [mbedRead, show ¬ rc ≤ 0 by omega]
  · intro h; simp [osslWrite, show ¬ rc < 1 by omega]
  · intro h; simp only [osslWrite, show rc < 1 by omega, if_true]; cases err <;> simp
  · intro h; simp [mbedWrite, show ¬ rc < 0 by omega]
  · intro h; simp only [mbedWrite, h, if_true]
    split
    · rfl
    · split <;> rfl

example : (osslWrite (-1) .syscall).rc = -1 ∧ (mbedWrite wantWrite).rc = 0 ∧ (mbedWrite 12).rc = 12 := by decide

/-! ## Handshake -/

/-- C201: a step reports the handshake as finished exactly if the library does
(OpenSSL: 1, Mbed TLS: 0), as going on only if the library has to wait, and
otherwise as failed. -/
theorem handshake_steps (ret : Int) (err : SslErr) (rc : Int) (hrc : rc ≤ 0) (p : PollRes) :
    ((osslHandshake ret err = 1 ↔ ret = 1) ∧
      (osslHandshake ret err = 0 ↔ ret = -1 ∧ (err = .wantRead ∨ err = .wantWrite)) ∧
      (osslHandshake ret err = 1 ∨ osslHandshake ret err = 0 ∨ osslHandshake ret err < 0)) ∧
    ((mbedAccept rc = 1 ↔ rc = 0) ∧ (mbedAccept rc = 0 ↔ rc = -0x6900 ∨ rc = -0x6880) ∧
      (mbedAccept rc = 1 ∨ mbedAccept rc = 0 ∨ mbedAccept rc < 0)) ∧
    ((mbedConnect rc p = 1 ↔ rc = 0) ∧
      (mbedConnect rc p = 0 ↔ (rc = -0x6900 ∨ rc = -0x6880) ∧ p = .fine) ∧
      (mbedConnect rc p = 1 ∨ mbedConnect rc p = 0 ∨ mbedConnect rc p < 0)) := by
  rw [show (-0x6900 : Int) = wantRead from rfl, show (-0x6880 : Int) = wantWrite from rfl]
  have hw : ∀ x : Int, x = wantRead ∨ x = wantWrite → x ≠ 0 := by
    rintro x (h | h) <;> rw [h] <;> decide
  refine ⟨?_, ?_, ?_⟩
  · by_cases h1 : ret = 1
    · simp [osslHandshake, h1]
    · by_cases h2 : ret = -1
      · by_cases h3 : err = .wantRead ∨ err = .wantWrite
        · simp [osslHandshake, h2, h3]
        · simp [osslHandshake, h2, h3]
      · simp [osslHandshake, h1, h2]
  · by_cases h1 : rc = 0
    · subst h1; decide
    · by_cases h2 : rc = wantRead ∨ rc = wantWrite
      · simp [mbedAccept, h1, h2]
      · simp [mbedAccept, h1, h2]; omega
  · by_cases h1 : rc = 0
    · subst h1; cases p <;> decide
    · by_cases h2 : rc = wantRead ∨ rc = wantWrite
      · cases p <;> simp [mbedConnect, h1, h2]
      · simp [mbedConnect, h1, h2]; omega

example : mbedConnect wantRead .lost = -1 ∧ mbedConnect 0 .fine = 1 ∧ osslHandshake (-1) .wantRead = 0 ∧
    osslHandshake 0 .wantRead = -1 := by decide

/-! ## Closing -/

/-- C202, partial: a connection known to be lost gets no notification; with
OpenSSL at most one attempt is made to send it, and it counts as sent exactly if the socket took all of it; with Mbed TLS freeing goes on
once the socket has taken the notification (in the worst case byte by byte). -/
theorem close_notify_partial (left : Nat) (r : Except Errno Nat) (s : List (Except Errno Nat)) :
    (∀ close, freeNotify close false left s = some (false, s)) ∧
    (∃ b s', freeNotify osslClose true left (r :: s) = some (b, s') ∧ (s' = s ∨ left = 0 ∧ s' = r :: s) ∧ (b = true ↔ left = 0 ∨ ∃ n, r = .ok n ∧ left ≤ n)) ∧
    (left ≤ (s.filter fun r => match r with | .ok n => decide (0 < n) | .error _ => false).length →
      (freeNotify mbedClose true left s).isSome = true) := by
  refine ⟨fun _ => rfl, ?_, ?_⟩
  · cases left with
    | zero => exact ⟨true, r :: s, rfl, by simp, by simp⟩
    | succ m =>
      cases r with
      | ok n => exact ⟨_, s, rfl, by simp, by simp⟩
      | error e => exact ⟨_, s, rfl, by simp, by simp⟩
  · intro h
    have e : (fun r : Except Errno Nat => match r with | .ok n => decide (0 < n) | .error _ => false) = takes := by
      funext r; cases r <;> rfl
    rw [e] at h
    exact mbedClose_takes s left h

example : freeNotify mbedClose true 31 [.error .eagain, .ok 10, .error .eintr, .ok 21, .ok 5] = some (true, [.ok 5]) ∧
    freeNotify osslClose true 31 [.error .epipe, .ok 3] = some (false, [.ok 3]) := ⟨rfl, rfl⟩

/-- C202 is false with Mbed TLS: while sending fails, be it because the peer
does not read or because the connection is lost, freeing a session calls `send`
again and again without waiting and never goes on. -/
theorem close_notify_false (left : Nat) (h : 0 < left) :
    (∀ s : List (Except Errno Nat), (∀ r ∈ s, ∃ e, r = .error e) → freeNotify mbedClose true left s = none) ∧
    ∀ n, freeNotify mbedClose true left (List.replicate n (.error .epipe)) = none := by
  have hn : ∀ s : List (Except Errno Nat), (∀ r ∈ s, ∃ e, r = .error e) → freeNotify mbedClose true left s = none :=
    fun s hs => mbedClose_errors left h s hs
  exact ⟨hn, fun n => hn _ (fun r hr => ⟨.epipe, List.eq_of_mem_replicate hr⟩)⟩

/-! ## Growing buffers -/

/-- C203, partial: if there is memory, keys, points and names that are not empty
are converted whole, whatever their length; the text always fits in its buffer,
and the buffer is at most twice as large as needed or the first one. -/
theorem converted_whole_partial (mem : Nat → Bool) (t : List Char) :
    ((∀ n, mem n = true) →
      (t ≠ [] → ∃ n, dn2str mem t = .ok t n ∧ n ≤ max 64 (2 * (t.length + 1))) ∧
      (∃ n, exportPem mem (some t) = .ok t n ∧ n ≤ max 128 (2 * (t.length + 1))) ∧
      ∃ n, pointToBin mem (some t) = .ok t n ∧ n ≤ max 32 (2 * t.length)) ∧
    (∀ u n, dn2str mem t = .ok u n → u = t ∧ t.length < n) ∧
    (∀ u n, exportPem mem (some t) = .ok u n → u = t ∧ t.length < n) ∧
    (∀ u n, pointToBin mem (some t) = .ok u n → u = t ∧ t.length ≤ n) ∧
    exportPem mem none = .err ∧ pointToBin mem none = .err := by
  refine ⟨fun hm => ⟨fun hne => ?_, ?_, ?_⟩, ?_, ?_, ?_, ?_, ?_⟩
  · obtain ⟨n, e, h1, h2⟩ := grow_enough mem hm (t.length + 1) 64 (by omega)
    refine ⟨n, ?_, h2⟩
    have hl : ¬ t.length < 1 := by
      intro h; exact hne (List.length_eq_zero_iff.1 (by omega))
    simp only [dn2str, hm, if_true, e, if_neg hl]
  · obtain ⟨n, e, h1, h2⟩ := grow_enough mem hm (t.length + 1) 128 (by omega)
    exact ⟨n, by simp only [exportPem, hm, if_true, e], h2⟩
  · obtain ⟨n, e, h1, h2⟩ := grow_enough mem hm t.length 32 (by omega)
    exact ⟨n, by simp only [pointToBin, hm, if_true, e], h2⟩
  · intro u n h
    unfold dn2str at h
    split at h
    · split at h
      · simp at h
      · rename_i m hg
        split at h
        · simp at h
        · simp only [Conv.ok.injEq] at h
          have := grow_some _ _ _ _ hg
          exact ⟨h.1.symm, by omega⟩
    · simp at h
  · intro u n h
    unfold exportPem at h
    split at h
    · simp only at h
      split at h
      · simp at h
      · rename_i m hg
        simp only [Conv.ok.injEq] at h
        have := grow_some _ _ _ _ hg
        exact ⟨h.1.symm, by omega⟩
    · simp at h
  · intro u n h
    unfold pointToBin at h
    split at h
    · simp only at h
      split at h
      · simp at h
      · rename_i m hg
        simp only [Conv.ok.injEq] at h
        have := grow_some _ _ _ _ hg
        exact ⟨h.1.symm, by omega⟩
    · simp at h
  · simp [exportPem]
  · simp [pointToBin]

example : exportPem (fun _ => true) (some (List.replicate 300 'x')) = .ok (List.replicate 300 'x') 512 := by
  decide +kernel

/-- C203 is false: an empty name, which certificates with alternative names may
have, is not converted though there is memory. -/
theorem converted_whole_false : ∃ t, dn2str (fun _ => true) t = .err := ⟨[], by decide +kernel⟩

/-! ## Base64 -/

/-- C204, partial: with Mbed TLS neither conversion writes behind its buffer;
bytes converted to text and back are exactly the same bytes (there is at least
one); and accepted texts have Base64 characters, blanks and ends of lines only. -/
theorem mbed_base64_partial (mem : Bool) (t : List Char) (bin : List Nat) :
    (TlsWrap.decodeWrap mem t ≠ .ub ∧ TlsWrap.encodeWrap mem bin ≠ .ub) ∧
    ((∀ x ∈ bin, x < 256) → bin ≠ [] →
      ∃ u, TlsWrap.encodeWrap true bin = .ok u ∧ Codec.encodeWrap true bin = .ok u ∧
        TlsWrap.decodeWrap true u = .ok bin) ∧
    ∀ w, TlsWrap.decodeWrap mem t = .ok w →
      ∀ c ∈ t, c = ' ' ∨ c = '\r' ∨ c = '\n' ∨ c ∈ Spec.b64Alphabet ∨ c = '=' := by
  have hsize : ∀ bin : List Nat, (Codec.encodeBlock bin).length =
      (bin.length / 3 + if bin.length % 3 = 0 then 0 else 1) * 4 := by
    intro bin
    induction bin using Codec.encodeBlock.induct with
    | case1 => rfl
    | case2 a => simp [Codec.encodeBlock]
    | case3 a b => simp [Codec.encodeBlock]
    | case4 a b c r ih =>
      simp only [Codec.encodeBlock, List.length_cons, ih]
      split <;> split <;> omega
  have henc : ∀ bin : List Nat, bin ≠ [] →
      TlsWrap.encodeWrap true bin = .ok (Codec.encodeBlock bin) := by
    intro bin hne
    have h0 := hsize bin
    have e : ∀ dlen, libEncode dlen bin = if dlen < (Codec.encodeBlock bin).length + 1 then
        .small ((Codec.encodeBlock bin).length + 1) else .ok (Codec.encodeBlock bin) := by
      intro dlen
      simp only [libEncode, if_neg hne]
      rw [← h0]
    have e1 : libEncode 0 bin = .small ((Codec.encodeBlock bin).length + 1) := by
      rw [e, if_pos (by omega)]
    have e2 : libEncode ((Codec.encodeBlock bin).length + 1) bin = .ok (Codec.encodeBlock bin) := by
      rw [e, if_neg (by omega)]
    simp only [TlsWrap.encodeWrap, e1, e2, if_true]
    rw [if_neg (by omega)]
  refine ⟨⟨?_, ?_⟩, ?_, ?_⟩
  · unfold TlsWrap.decodeWrap
    cases hsc : scan false 0 t with
    | none => simp [libDecode, hsc]
    | some ds =>
      by_cases hd : ds = []
      · simp [libDecode, hsc, hd]
      · obtain ⟨⟨p, k, hds, hk, -, hp⟩, -⟩ := scan_shape t _ _ _ hsc
        have hk2 : k ≤ 2 := by omega
        have hl := emit_length k hk2 p hp
        have hf : (ds.filter (· = '=')).length = k := by
          rw [hds, List.filter_append, List.filter_eq_nil_iff.2 (by simpa using hp)]
          simp
        have hlen : ds.length = p.length + k := by rw [hds]; simp
        have hle : (emit 0 ds).length ≤ 6 * (ds.length / 8) + (6 * (ds.length % 8) + 7) / 8 -
            (ds.filter (· = '=')).length := by
          rw [hf, hlen]
          unfold sizeFor at hl
          rw [← hds] at hl
          omega
        obtain ⟨n, hn⟩ : ∃ n, n = 6 * (ds.length / 8) + (6 * (ds.length % 8) + 7) / 8 -
            (ds.filter (· = '=')).length := ⟨_, rfl⟩
        have e1 : libDecode 0 true t = .small n := by simp [libDecode, hsc, hd, hn]
        have e2 : libDecode n false t = .ok (emit 0 ds) := by
          simp only [libDecode, hsc, if_neg hd]
          rw [← hn]; simp
        rw [← hn] at hle
        simp only [e1, e2]
        cases mem with
        | false => simp
        | true => simp only [if_true]; rw [if_neg (by omega)]; simp
  · by_cases hne : bin = []
    · simp [TlsWrap.encodeWrap, libEncode, hne]
    · cases mem with
      | true => rw [henc bin hne]; simp
      | false => unfold TlsWrap.encodeWrap; split <;> simp
  · intro hb hne
    refine ⟨Codec.encodeBlock bin, henc bin hne, ?_, ?_⟩
    · have := (base64_fits true [] bin).2
      unfold Codec.encodeWrap at this ⊢
      simp only [if_true] at this ⊢
      split
      · rename_i h; rw [if_pos h] at this; exact absurd rfl this
      · rfl
    · have hsc := scan_encode bin hb
      have hpad := encode_pad bin hb
      have hd : Codec.encodeBlock bin ≠ [] := by
        intro h
        have := hsize bin
        rw [h, List.length_nil] at this
        have hl : bin.length = 0 := by
          split at this <;> omega
        exact hne (List.length_eq_zero_iff.1 hl)
      have hm4 := b64_encode_length bin
      have hn : 6 * ((Codec.encodeBlock bin).length / 8) + (6 * ((Codec.encodeBlock bin).length % 8) + 7) / 8 -
          ((Codec.encodeBlock bin).filter (· = '=')).length = bin.length := by omega
      have e1 : libDecode 0 true (Codec.encodeBlock bin) = .small bin.length := by
        simp only [libDecode, hsc, if_neg hd]
        rw [hn]; simp
      have e2 : libDecode bin.length false (Codec.encodeBlock bin) = .ok bin := by
        simp only [libDecode, hsc, if_neg hd]
        rw [hn, emit_encode bin hb]; simp
      simp [TlsWrap.decodeWrap, e1, e2]
  · intro w h
    unfold TlsWrap.decodeWrap at h
    cases hsc : scan false 0 t with
    | none => simp [libDecode, hsc] at h
    | some ds => exact fun c hc => (scan_shape t _ _ _ hsc).2 c hc |>.imp id (Or.imp id (Or.imp id b64_value_char))

example : TlsWrap.encodeWrap true [1, 2, 3, 255] = .ok ['A', 'Q', 'I', 'D', '/', 'w', '=', '='] ∧
    TlsWrap.decodeWrap true ['A', 'Q', 'I', 'D', '\n', '/', 'w', '=', '='] = .ok [1, 2, 3, 255] := by decide

/-- C204 is false: converting no bytes, or an empty text, is refused though
OpenSSL does it, and an incomplete text is accepted without its last characters
though OpenSSL refuses it. -/
theorem mbed_base64_false :
    (TlsWrap.encodeWrap true [] = .err ∧ Codec.encodeWrap true [] = .ok []) ∧
    (TlsWrap.decodeWrap true [] = .err ∧ Codec.decodeWrap true [] = .ok []) ∧
    TlsWrap.decodeWrap true ['A', 'Q', 'I', 'D', '/', 'w'] = .ok [1, 2, 3] ∧
    Codec.decodeWrap true ['A', 'Q', 'I', 'D', '/', 'w'] = .err := by decide

end Verif.Props
