import Verif.Lemmas.Reader2
import Verif.Lemmas.Writer2
import Verif.Lemmas.Writer3

/-!
# Properties C01-C08: message framing

Spec side: `Verif.Spec.chunk`, `frame11`, `eom`, `FirstEom`, `WellFramed` (RFC 6242).
-/

namespace Verif.Props

open Verif Verif.Reader Verif.Writer

/-! ## Auxiliary facts about the specifications (not claims) -/

theorem frame11_length_ge (cs : List (List Byte)) : cs.length + 4 ≤ (Spec.frame11 cs).length := by
  induction cs with
  | nil => simp [Spec.frame11]
  | cons c cs ih =>
    simp only [Spec.frame11, List.flatMap_cons, List.length_append, List.length_cons, Spec.chunk] at *
    omega

theorem flatMap_encV_v11 (cs : List (List Byte)) : cs.flatMap (encV .v11) ++ endTag .v11 = Spec.frame11 cs := rfl

theorem flatMap_encV_v10 (cs : List (List Byte)) : cs.flatMap (encV .v10) = cs.flatten := by
  induction cs with
  | nil => rfl
  | cons c cs ih => simp [List.flatMap_cons, encV] at *; exact ih

/-- What a message cut into the pieces `cs` looks like on the wire. -/
def wireForm : Version → List (List Byte) → List Byte
  | .v11, cs => Spec.frame11 cs
  | .v10, cs => cs.flatten ++ Spec.eom

/-! ## C01 -/

/-- **C01.** Whatever the printer writes in NETCONF 1.1 mode (`ops`: any split into writes, escaped or not) and
however the transport splits the accepted bytes, the bytes put on the wire are read back as
exactly the printed text, leaving everything behind them (`rest`) unread; this also holds for every behaviour
`script` of the reading transport for which the receive call does not fail.
The text must be non-empty and without NUL (XML documents are), and a single printer write shorter than
2^32-1024 bytes. -/
theorem framing11_roundtrip (k : Sink) (ops : List Op) (hv : k.valid = true) (hs : NoFail k.script)
    (hlen : ∀ o ∈ ops, o.bs.length < 2 ^ 32 - 1024) (hne : text ops ≠ []) (hnul : 0 ∉ text ops) :
    ∃ k' sent, sendMsg .v11 k ops = (true, k') ∧ k'.wire = k.wire ++ sent ∧
      (∀ rest, recv11 (sent ++ rest) = .msg (text ops) rest) ∧
      (∀ rest script mallocOk F c, readMsg11 ncRead mallocOk F F none ⟨sent ++ rest, script⟩ = c →
        c = .fail ∨ ∃ script', c = .msg (text ops) ⟨rest, script'⟩) := by
  obtain ⟨k', cs, h1, h2, h3, h4, -, -⟩ := sendMsg_good .v11 k k.wire ops ⟨rfl, hv, hs⟩ hlen
  have hcs : cs ≠ [] := by rintro rfl; simp at h3; exact hne h3
  have hlen' := frame11_length_ge cs
  refine ⟨k', Spec.frame11 cs, h1, ?_, ?_, ?_⟩
  · rw [h4, ← flatMap_encV_v11]; simp
  · intro rest
    unfold recv11
    rw [readMsg11_chunks _ (fun _ => rfl) cs rest _ _ none h2 (Or.inr hcs)
      (by simp; omega) (by simp; omega)]
    simp [h3, cstr_of_no_nul hnul]
  · intro rest script mo F c hc
    by_cases hf : readMsg11 ncRead mo F F none ⟨Spec.frame11 cs ++ rest, script⟩ = .fail
    · left; rw [← hc, hf]
    · right
      have hsim := readMsg11_sim ncRead readN Chan.bytes ncRead_sim mo (fun _ => true) (fun _ _ => rfl) F
        (F + (Spec.frame11 cs).length + 1) (by omega) F (F + (Spec.frame11 cs).length + 1) none
        ⟨Spec.frame11 cs ++ rest, script⟩ (by omega) hf
      rw [readMsg11_chunks _ (fun _ => rfl) cs rest _ _ none h2 (Or.inr hcs)
        (by omega) (by omega), hc] at hsim
      simp only [h3, Option.getD_none, List.nil_append, cstr_of_no_nul hnul] at hsim
      cases c with
      | msg m s =>
        obtain ⟨bytes, sc⟩ := s
        simp only [Res.map, Res.msg.injEq] at hsim
        exact ⟨sc, by rw [hsim.1, hsim.2]⟩
      | fail => simp [Res.map] at hsim
      | bad => simp [Res.map] at hsim
      | ub => simp [Res.map] at hsim

/-- C01 is not vacuous: two writes, one escaped, through a transport accepting byte by byte. -/
example : (sendMsg .v11 ⟨[], [.acc 0, .again, .acc 1], true⟩ [⟨[60, 97, 62], false, true⟩, ⟨[38], true, false⟩]).1 = true ∧
    text [⟨[60, 97, 62], false, true⟩, ⟨[38], true, false⟩] = [60, 97, 62, 38, 97, 109, 112, 59] := by
  decide +kernel

/-! ## C02 -/

/-- **C02 (partial).** In NETCONF 1.0 mode the receive call returns exactly the bytes before the first end marker
and leaves everything after it unread, for every transport behaviour, **provided** the bytes before the marker do not end with `]`
or `]]>` and are, with the marker, fewer than 2^31.  Missing: contents ending in a prefix of the marker, where the claim is false
(`framing10_first_eom_false`), and messages of 2 GiB and more, where it is as well (`reader10_no_ub_false`). -/
theorem framing10_first_eom_partial (s m rest : List Byte) (hf : Spec.FirstEom s m rest) (hnul : 0 ∉ m) (hsz : m.length + 6 < 2147483648)
    (h1 : ¬ [93] <:+ m) (h2 : ¬ [93, 93, 62] <:+ m) :
    recv10 s = .msg m rest ∧
    ∀ script F c, readMsg10 ncRead F ⟨s, script⟩ = c → c = .fail ∨ ∃ script', c = .msg m ⟨rest, script'⟩ := by
  obtain ⟨rfl, hfirst⟩ := hf
  have hin : ¬ endTag10 <:+: m := by
    rintro ⟨a, b, rfl⟩
    have := hfirst a (b ++ Spec.eom ++ rest) (by simp [Spec.eom, endTag10])
    simp [endTag10] at this
    omega
  have hov : NoOverlap endTag10 m := by
    intro p hp hpre hsuf
    have hl := hpre.length_le
    rw [List.prefix_iff_eq_take] at hpre
    generalize hn : p.length = n at *
    simp only [endTag10, List.length_cons, List.length_nil] at hl hpre
    have h93 : ∀ q, q ++ [93] <:+ m → False := fun q h => h1 (List.IsSuffix.trans (List.suffix_append q [93]) h)
    have h62 : ∀ q, q ++ [93, 93, 62] <:+ m → False :=
      fun q h => h2 (List.IsSuffix.trans (List.suffix_append q [93, 93, 62]) h)
    have : n = 0 ∨ n = 1 ∨ n = 2 ∨ n = 3 ∨ n = 4 ∨ n = 5 ∨ n = 6 := by omega
    rcases this with rfl | rfl | rfl | rfl | rfl | rfl | rfl <;> simp at hpre <;> subst hpre
    · exact hp rfl
    · exact h93 [] hsuf
    · exact h93 [93] hsuf
    · exact h62 [] hsuf
    · exact h93 [93, 93, 62] hsuf
    · exact h93 [93, 93, 62, 93] hsuf
    · exact h62 [93, 93, 62] hsuf
  have hread : ∀ F, m.length + 6 < F → readMsg10 readN F (m ++ Spec.eom ++ rest) = .msg m rest := by
    intro F hF
    unfold readMsg10
    have := readUntil_top endTag10 m rest (by decide) hov hin F (by simpa [endTag10] using hF)
    have he : Spec.eom = endTag10 := rfl
    rw [he, this]
    have hl : (m ++ endTag10).length = m.length + 6 := by simp [endTag10]
    simp only [hl, asInt_small hsz]
    rw [if_neg (by omega), if_neg (by omega)]
    have h6 : (((m.length + 6 : Nat) : Int) - 6).toNat = m.length := by omega
    rw [h6, List.take_left, cstr_of_no_nul hnul]
  refine ⟨?_, ?_⟩
  · unfold recv10
    exact hread _ (by simp [Spec.eom]; omega)
  · intro script F c hc
    by_cases hf : readMsg10 ncRead F ⟨m ++ Spec.eom ++ rest, script⟩ = .fail
    · left; rw [← hc, hf]
    · right
      have hsim := readMsg10_sim ncRead readN Chan.bytes ncRead_sim F (F + m.length + 7) (by omega) _ hf
      rw [hread _ (by omega), hc] at hsim
      cases c with
      | msg m' s =>
        obtain ⟨bytes, sc⟩ := s
        simp only [Res.map, Res.msg.injEq] at hsim
        exact ⟨sc, by rw [hsim.1, hsim.2]⟩
      | fail => simp [Res.map] at hsim
      | bad => simp [Res.map] at hsim
      | ub => simp [Res.map] at hsim

/-- Witness stream for C02: the content `x]]>]` followed by the marker. -/
def eomWitness : List Byte := [120, 93, 93, 62, 93] ++ Spec.eom

theorem eomWitness_first : Spec.FirstEom eomWitness [120, 93, 93, 62, 93] [] := by
  refine ⟨by simp [eomWitness], ?_⟩
  intro m' rest' h
  rcases Nat.lt_or_ge m'.length 5 with hlt | hge
  · exfalso
    have hd : (eomWitness.drop m'.length).take 6 = Spec.eom := by
      rw [h, List.append_assoc, List.drop_left]; rfl
    have : m'.length = 0 ∨ m'.length = 1 ∨ m'.length = 2 ∨ m'.length = 3 ∨ m'.length = 4 := by omega
    rcases this with e | e | e | e | e <;> rw [e] at hd <;> revert hd <;> decide
  · simpa using hge

/-- **C02 (negation).** The unrestricted claim is false: on the stream `x]]>]` `]]>]]>` the marker is missed and the receive
call waits for more data (here: fails at the end of the stream). -/
theorem framing10_first_eom_false :
    ¬ ∀ s m rest, 0 ∉ m → Spec.FirstEom s m rest → recv10 s = .msg m rest := by
  intro h
  have := h _ _ _ (by decide) eomWitness_first
  revert this
  decide

/-- The same content makes the next message be swallowed: two messages `x]]>]` and `y` arrive as one. -/
example : recv10 (eomWitness ++ [121] ++ Spec.eom) = .msg (eomWitness ++ [121]) [] := by decide

/-- C02 (partial) is not vacuous. -/
example : Spec.FirstEom ([60, 97, 47, 62] ++ Spec.eom ++ [60]) [60, 97, 47, 62] [60] ∧
    recv10 ([60, 97, 47, 62] ++ Spec.eom ++ [60]) = .msg [60, 97, 47, 62] [60] := by
  refine ⟨⟨rfl, ?_⟩, by decide⟩
  intro m' rest' h
  rcases Nat.lt_or_ge m'.length 4 with hlt | hge
  · exfalso
    have hd : (([60, 97, 47, 62] ++ Spec.eom ++ [60]).drop m'.length).take 6 = Spec.eom := by
      rw [h, List.append_assoc, List.drop_left]; rfl
    have : m'.length = 0 ∨ m'.length = 1 ∨ m'.length = 2 ∨ m'.length = 3 := by omega
    rcases this with e | e | e | e <;> rw [e] at hd <;> revert hd <;> decide
  · simpa using hge

/-! ## C03 -/

/-- Send a list of messages one after another. -/
def sendAll (v : Version) : List (List Op) → Sink → Bool × Sink
  | [], k => (true, k)
  | m :: ms, k =>
    match sendMsg v k m with
    | (false, k1) => (false, k1)
    | (true, k1) => sendAll v ms k1

/-- Receive `n` messages one after another. -/
def recvAll (recv : List Byte → Res (List Byte)) : Nat → List Byte → Option (List (List Byte) × List Byte)
  | 0, s => some ([], s)
  | n + 1, s =>
    match recv s with
    | .msg m s1 =>
      match recvAll recv n s1 with
      | some (ms, s2) => some (m :: ms, s2)
      | none => none
    | _ => none

/-- **C03 (NETCONF 1.1).** A sequence of messages is received as the same sequence. -/
theorem framing11_sequence (ms : List (List Op)) : ∀ (k : Sink), k.valid = true → NoFail k.script →
    (∀ ops ∈ ms, (∀ o ∈ ops, o.bs.length < 2 ^ 32 - 1024) ∧ text ops ≠ [] ∧ 0 ∉ text ops) →
    ∃ k' sent, sendAll .v11 ms k = (true, k') ∧ k'.wire = k.wire ++ sent ∧
      ∀ rest, recvAll recv11 ms.length (sent ++ rest) = some (ms.map text, rest) := by
  induction ms with
  | nil => intro k _ _ _; exact ⟨k, [], rfl, by simp, fun rest => rfl⟩
  | cons m ms ih =>
    intro k hv hs hall
    obtain ⟨hl, hne, hnul⟩ := hall m (by simp)
    obtain ⟨k1, cs, h1, h2, h3, h4, h5, h6⟩ := sendMsg_good .v11 k k.wire m ⟨rfl, hv, hs⟩ hl
    obtain ⟨k1', s1, g1, g2, g3, -⟩ := framing11_roundtrip k m hv hs hl hne hnul
    have : k1' = k1 := by rw [h1] at g1; simpa using g1.symm
    subst this
    obtain ⟨k2, s2, i1, i2, i3⟩ := ih k1' h5 h6 (fun o ho => hall o (by simp [ho]))
    refine ⟨k2, s1 ++ s2, ?_, ?_, ?_⟩
    · simp only [sendAll, h1]; exact i1
    · rw [i2, g2]; simp
    · intro rest
      simp only [List.length_cons, recvAll]
      rw [List.append_assoc, g3 (s2 ++ rest)]
      simp only [i3 rest, List.map_cons]

/-- **C03 (NETCONF 1.0, partial).** The same for NETCONF 1.0, if no message contains the end marker or ends with `]` or
`]]>` and all are shorter than 2^31 bytes with the marker.  Missing: other message contents, for which the claim is false
(`framing10_sequence_false`, `reader10_no_ub_false`). -/
theorem framing10_sequence_partial (ms : List (List Op)) : ∀ (k : Sink), k.valid = true → NoFail k.script →
    (∀ ops ∈ ms, (∀ o ∈ ops, o.bs.length < 2 ^ 32 - 1024) ∧ 0 ∉ text ops ∧ (text ops).length + 6 < 2147483648 ∧
      ¬ Spec.eom <:+: text ops ∧ ¬ [93] <:+ text ops ∧ ¬ [93, 93, 62] <:+ text ops) →
    ∃ k' sent, sendAll .v10 ms k = (true, k') ∧ k'.wire = k.wire ++ sent ∧
      ∀ rest, recvAll recv10 ms.length (sent ++ rest) = some (ms.map text, rest) := by
  induction ms with
  | nil => intro k _ _ _; exact ⟨k, [], rfl, by simp, fun rest => rfl⟩
  | cons m ms ih =>
    intro k hv hs hall
    obtain ⟨hl, hnul, hsz, hin, he1, he2⟩ := hall m (by simp)
    obtain ⟨k1, cs, h1, h2, h3, h4, h5, h6⟩ := sendMsg_good .v10 k k.wire m ⟨rfl, hv, hs⟩ hl
    rw [flatMap_encV_v10, h3] at h4
    obtain ⟨k2, s2, i1, i2, i3⟩ := ih k1 h5 h6 (fun o ho => hall o (by simp [ho]))
    refine ⟨k2, text m ++ Spec.eom ++ s2, ?_, ?_, ?_⟩
    · simp only [sendAll, h1]; exact i1
    · rw [i2, h4]; simp [endTag, Spec.eom]
    · intro rest
      simp only [List.length_cons, recvAll]
      have hfirst : Spec.FirstEom (text m ++ Spec.eom ++ (s2 ++ rest)) (text m) (s2 ++ rest) := by
        refine ⟨rfl, ?_⟩
        intro m' rest' h
        rcases Nat.lt_or_ge m'.length (text m).length with hlt | hge
        · exfalso
          -- the earlier marker overlaps the text or lies in it
          rw [List.append_assoc, List.append_assoc] at h
          obtain ⟨t, ht⟩ : ∃ t, text m = m' ++ t := by
            have h' := congrArg (List.take m'.length) h
            rw [List.take_left, List.take_append_of_le_length (by omega)] at h'
            exact ⟨(text m).drop m'.length, by have := List.take_append_drop m'.length (text m); rw [h'] at this; exact this.symm⟩
          rw [ht, List.append_assoc, List.append_cancel_left_eq] at h
          have htne : t ≠ [] := by rintro rfl; simp at ht; rw [ht] at hlt; simp at hlt
          rw [ht] at hin he1 he2
          rcases Nat.lt_or_ge t.length 6 with htl | htl
          · have htp : t = Spec.eom.take t.length := by
              have h' := congrArg (List.take t.length) h
              rw [List.take_left, List.take_append_of_le_length (by simp [Spec.eom]; omega)] at h'
              exact h'
            generalize hn : t.length = n at *
            have : n = 0 ∨ n = 1 ∨ n = 2 ∨ n = 3 ∨ n = 4 ∨ n = 5 := by omega
            have hs1 : ∀ q, t = q ++ [93] → False := fun q hq => he1 ⟨m' ++ q, by rw [hq]; simp⟩
            have hs2 : ∀ q, t = q ++ [93, 93, 62] → False := fun q hq => he2 ⟨m' ++ q, by rw [hq]; simp⟩
            rcases this with rfl | rfl | rfl | rfl | rfl | rfl <;> simp [Spec.eom] at htp
            · exact htne htp
            · exact hs1 [] htp
            · exact hs1 [93] htp
            · exact hs2 [] htp
            · exact hs1 [93, 93, 62] htp
            · exact hs1 [93, 93, 62, 93] htp
          · have h' := congrArg (List.take 6) h
            rw [List.take_append_of_le_length htl] at h'
            have h6 : (Spec.eom ++ rest').take 6 = Spec.eom := rfl
            rw [h6] at h'
            exact hin ⟨m', t.drop 6, by rw [← h']; simp [List.take_append_drop]⟩
        · exact hge
      rw [show text m ++ Spec.eom ++ s2 ++ rest = text m ++ Spec.eom ++ (s2 ++ rest) by simp]
      rw [(framing10_first_eom_partial _ _ _ hfirst hnul hsz he1 he2).1]
      simp only [i3 rest, List.map_cons]

/-- **C03 (negation for NETCONF 1.0).** Without the restriction a message is lost: `x]]>]` followed by `y`. -/
theorem framing10_sequence_false :
    ¬ ∀ (ms : List (List Op)) (k : Sink), k.valid = true → k.script = [] →
      (∀ ops ∈ ms, 0 ∉ text ops ∧ ¬ Spec.eom <:+: text ops) →
      ∃ k' sent, sendAll .v10 ms k = (true, k') ∧ k'.wire = k.wire ++ sent ∧
        ∀ rest, recvAll recv10 ms.length (sent ++ rest) = some (ms.map text, rest) := by
  intro h
  obtain ⟨k', sent, h1, h2, h3⟩ := h [[⟨[120, 93, 93, 62, 93], false, true⟩], [⟨[121], false, true⟩]] ⟨[], [], true⟩ rfl rfl
    (by
      intro ops ho
      simp at ho
      rcases ho with rfl | rfl
      · refine ⟨by decide, ?_⟩
        intro hi; have := hi.length_le; simp [Spec.eom, text] at this
      · refine ⟨by decide, ?_⟩
        intro hi; have := hi.length_le; simp [Spec.eom, text] at this)
  have hk : k'.wire = [120, 93, 93, 62, 93] ++ Spec.eom ++ [121] ++ Spec.eom := by
    have : sendAll .v10 [[⟨[120, 93, 93, 62, 93], false, true⟩], [⟨[121], false, true⟩]] ⟨[], [], true⟩ =
      (true, ⟨[120, 93, 93, 62, 93] ++ Spec.eom ++ [121] ++ Spec.eom, [], true⟩) := by decide
    rw [this] at h1
    simp at h1
    rw [← h1]; rfl
  rw [hk] at h2
  simp at h2
  have := h3 []
  rw [← h2] at this
  revert this
  decide

/-- C03 premises are satisfiable: two concrete messages in one sequence. -/
example : recvAll recv11 2 ((sendAll .v11 [[⟨[60, 97, 62], false, true⟩], [⟨[98], true, false⟩]] ⟨[], [], true⟩).2.wire) =
    some ([[60, 97, 62], [98]], []) := by
  decide +kernel

/-! ## C04 -/

/-- **C04 (negation).** A peer can cause undefined behaviour: the header `LF#-1LF` announces 2^64-1 bytes, the size computation
wraps to 0 and the data that follow are stored outside of the allocated memory. -/
theorem reader_no_ub_false : ¬ ∀ s, recv11 s ≠ .ub := by
  intro h
  exact h [10, 35, 45, 49, 10, 120] (by decide +kernel)

/-- A second kind: a size of 2^32+1 makes the reader use 2^32 bytes that were never received. -/
example : recv11 ([10, 35] ++ [52, 50, 57, 52, 57, 54, 55, 50, 57, 55] ++ [10, 120]) = .ub := by decide +kernel

/-- **C04 (partial).** Undefined behaviour needs a chunk header whose value is at least 2^32: whatever the stream,
the allocator and the progress made so far, if the reader performs an undefined access, then the stream contains
`LF # h LF` with such an `h`.  Missing: those headers, for which the claim is false. -/
theorem reader_no_ub_partial (mo : Nat → Bool) (F : Nat) : ∀ f data s, readMsg11 readN mo F f data s = .ub →
    ∃ pre h post, s = pre ++ [10, 35] ++ h ++ [10] ++ post ∧ 10 ∉ h ∧ 2 ^ 32 ≤ strtoul (h ++ [10]) := by
  intro f
  induction f with
  | zero => intro data s h; simp [readMsg11] at h
  | succ f ih =>
    intro data s h
    unfold readMsg11 at h
    split at h
    · cases h
    · rename_i b1 s1 h1
      obtain ⟨e1, a, rfl⟩ := readUntil_consumes chunkStart F [] 0 s b1 s1 (by decide) (by simp) h1
      split at h
      · cases h
      split at h
      · cases h
      · rename_i hdr s2 h2
        obtain ⟨g, g1, rfl, g3⟩ := readUntil_lf_inv F [] s1 hdr s2 (by simp) h2
        simp only [List.nil_append] at e1 g3
        split at h
        · cases h
        split at h
        · split at h <;> cases h
        · simp only at h
          split at h
          · cases h
          · split at h
            · cases h
            · rename_i hu
              refine ⟨a, g, s2, ?_, g1, readChunk_ub mo _ _ hu⟩
              rw [e1, g3]; simp [chunkStart]
            · rename_i bs s3 hd
              obtain ⟨d1, d2, d3⟩ := readChunk_data mo _ _ _ _ hd
              obtain ⟨pre, h', post, i1, i2, i3⟩ := ih _ _ h
              refine ⟨a ++ [10, 35] ++ g ++ [10] ++ bs ++ pre, h', post, ?_, i2, i3⟩
              rw [e1, g3, d1, i1]; simp [chunkStart]

/-- **C04 (partial, NETCONF 1.0).** In NETCONF 1.0 mode undefined behaviour needs 2 GiB of data before the end marker, whatever the stream and
the progress made so far.  Missing: such streams, for which the claim is false. -/
theorem reader10_no_ub_partial (F : Nat) (s : List Byte) (h : readMsg10 readN F s = .ub) :
    ∃ m rest, s = m ++ Spec.eom ++ rest ∧ 2147483648 ≤ m.length + 6 := by
  unfold readMsg10 at h
  split at h
  · cases h
  · rename_i b s1 h1
    obtain ⟨e1, a, rfl⟩ := readUntil_consumes endTag10 F [] 0 s b s1 (by decide) (by simp) h1
    refine ⟨a, s1, by simpa [Spec.eom, endTag10] using e1, ?_⟩
    have hl : (a ++ endTag10).length = a.length + 6 := by simp [endTag10]
    rw [hl] at h
    rcases Nat.lt_or_ge (a.length + 6) 2147483648 with hlt | hge
    · rw [asInt_small hlt, if_neg (by omega), if_neg (by omega)] at h
      cases h
    · exact hge

/-- **C04 (negation, NETCONF 1.0).** A peer can cause undefined behaviour with any message, without NUL or part of the marker, of 2 GiB up to
4 GiB less a few bytes: its length is negative as an `int` and a byte in front of the memory allocated is overwritten. -/
theorem reader10_no_ub_false (m rest : List Byte) (hin : ∀ b ∈ m, b ≠ 93 ∧ b ≠ 62)
    (h1 : 2147483648 ≤ m.length + 6) (h2 : m.length + 6 < 4294967295) : recv10 (m ++ Spec.eom ++ rest) = .ub := by
  have hov : NoOverlap endTag10 m := by
    intro p hp hpre hsuf
    obtain ⟨x, hx⟩ := List.exists_mem_of_ne_nil p hp
    have h3 := hin x (hsuf.subset hx)
    have h4 := hpre.subset hx
    simp only [endTag10, List.mem_cons, List.not_mem_nil, or_false] at h4
    omega
  have hnot : ¬ endTag10 <:+: m := by
    intro hi
    exact (hin 93 (hi.subset (by simp [endTag10]))).1 rfl
  have := readUntil_top endTag10 m rest (by decide) hov hnot ((m ++ Spec.eom ++ rest).length + 1)
    (by simp only [Spec.eom, endTag10, List.length_append, List.length_cons, List.length_nil]; omega)
  unfold recv10 readMsg10
  have he : Spec.eom = endTag10 := rfl
  rw [he] at this ⊢
  rw [this]
  have hl : (m ++ endTag10).length = m.length + 6 := by simp [endTag10]
  have ha : asInt (m.length + 6) < -1 := by unfold asInt; omega
  simp only [hl]
  rw [if_neg (by omega), if_pos (by omega)]

/-- There are such messages. -/
example : ∃ m : List Byte, (∀ b ∈ m, b ≠ 93 ∧ b ≠ 62) ∧ 2147483648 ≤ m.length + 6 ∧ m.length + 6 < 4294967295 := by
  obtain ⟨n, hn⟩ : ∃ n : Nat, n = 2147483648 := ⟨_, rfl⟩
  refine ⟨List.replicate n 97, ?_, ?_, ?_⟩
  · intro b hb
    rw [List.eq_of_mem_replicate hb]
    decide
  · rw [List.length_replicate]; omega
  · rw [List.length_replicate]; omega

/-- The buffer of `nc_read_until` is always large enough: for any sequence of reads of at most 6
bytes, storing `need` bytes and the terminating NUL stays within the allocation of `size + 1`. -/
theorem until_buffer_safe : ∀ (needs : List Nat) (size count : Nat), (∀ n ∈ needs, n ≤ 6) → count ≤ size →
    ∀ pre need post, needs = pre ++ need :: post →
      let st := pre.foldl (fun st n => (untilSize st.1 st.2 n, st.2 + n)) (size, count)
      st.2 + need + 1 ≤ untilSize st.1 st.2 need + 1 := by
  intro needs
  induction needs with
  | nil => intro size count _ _ pre need post h; simp at h
  | cons n ns ih =>
    intro size count hn hc pre need post h
    cases pre with
    | nil =>
      simp at h; obtain ⟨rfl, rfl⟩ := h
      simp only [List.foldl_nil]
      have := hn n (by simp)
      unfold untilSize; split <;> omega
    | cons p pre =>
      simp at h; obtain ⟨rfl, rfl⟩ := h
      simp only [List.foldl_cons]
      have := hn n (by simp)
      refine ih _ _ (fun x hx => hn x (by simp [hx])) ?_ pre need post rfl
      unfold untilSize; split <;> omega

/-! ## C05 -/

/-- **C05 (negation).** Streams that are not RFC 6242 chunked messages are accepted (here: junk before the first chunk). -/
theorem framing11_strict_false :
    ¬ ∀ s m rest, recv11 s = .msg m rest → ∃ w, s = w ++ rest ∧ Spec.WellFramed w m := by
  intro h
  obtain ⟨w, h1, cs, h2, -, h3, -⟩ := h [120, 10, 35, 49, 10, 97, 10, 35, 35, 10] [97] [] (by decide +kernel)
  simp at h1
  rw [h3] at h1
  cases cs with
  | nil => exact h2 rfl
  | cons c cs => simp [Spec.frame11, Spec.chunk] at h1

/-- More ill-formed chunk sizes that are accepted: ` +1x`, and `-18446744073709551615` (taken for 1). -/
example : recv11 [10, 35, 32, 43, 49, 120, 10, 97, 10, 35, 35, 10] = .msg [97] [] ∧
    recv11 ([10, 35, 45] ++ [49, 56, 52, 52, 54, 55, 52, 52, 48, 55, 51, 55, 48, 57, 53, 53, 49, 54, 49, 53] ++
      [10, 97, 10, 35, 35, 10]) = .msg [97] [] := by
  decide +kernel

/-- The framing that is actually accepted: chunks and the end marker, each with arbitrary bytes in front of it, and
headers whose `strtoul` value is the chunk size. -/
inductive Loose : List Byte → List Byte → List Byte → Prop where
  | last (junk rest : List Byte) : Loose (junk ++ [10, 35, 35, 10] ++ rest) [] rest
  | chunk (junk h c s m rest : List Byte) (hh : 10 ∉ h) (hc : c ≠ []) (hl : strtoul (h ++ [10]) = c.length)
      (ht : Loose s m rest) : Loose (junk ++ [10, 35] ++ h ++ [10] ++ c ++ s) (c ++ m) rest

theorem cstr_before_nul (x y : List Byte) : cstr (x ++ 0 :: y ++ [10]) = cstr x := by
  unfold cstr
  induction x with
  | nil => simp
  | cons z zs ih => simp only [List.cons_append, List.takeWhile_cons]; split <;> simp_all

theorem framing11_accepts_loose_aux (mo : Nat → Bool) (F : Nat) : ∀ f data s m rest,
    readMsg11 readN mo F f data s = .msg m rest →
    ∃ m', Loose s m' rest ∧ m = cstr (data.getD [] ++ m') ∧ (data = none → m' ≠ []) := by
  intro f
  induction f with
  | zero => intro data s m rest h; simp [readMsg11] at h
  | succ f ih =>
    intro data s m rest h
    unfold readMsg11 at h
    split at h
    · cases h
    · rename_i b1 s1 h1
      obtain ⟨e1, a, rfl⟩ := readUntil_consumes chunkStart F [] 0 s b1 s1 (by decide) (by simp) h1
      split at h
      · cases h
      split at h
      · cases h
      · rename_i hdr s2 h2
        obtain ⟨g, g1, rfl, g3⟩ := readUntil_lf_inv F [] s1 hdr s2 (by simp) h2
        simp only [List.nil_append] at e1 g3
        split at h
        · cases h
        split at h
        · rename_i hc
          split at h
          · cases h
          · rename_i d
            simp at h; obtain ⟨rfl, rfl⟩ := h
            have hg : g = [35] := by
              by_cases hnul : 0 ∈ g ++ [10]
              · exfalso
                have hno : 10 ∉ cstr (g ++ [10]) := by
                  have h0 : 0 ∈ g := by simpa using hnul
                  intro hm
                  obtain ⟨x, y, rfl⟩ := List.append_of_mem h0
                  have : cstr (x ++ 0 :: y ++ [10]) = cstr x := cstr_before_nul x y
                  rw [this] at hm
                  exact g1 (List.mem_append_left _ (List.takeWhile_subset _ hm))
                rw [hc] at hno; simp at hno
              · rw [cstr_of_no_nul hnul] at hc
                have : g ++ [10] = [35] ++ [10] := hc
                exact List.append_cancel_right this
            subst hg
            refine ⟨[], ?_, by simp, by simp⟩
            rw [e1, g3]
            have := Loose.last a s2
            simpa [chunkStart] using this
        · simp only at h
          split at h
          · cases h
          · rename_i hz
            split at h
            · cases h
            · cases h
            · rename_i bs s3 hd
              obtain ⟨d1, d2, d3⟩ := readChunk_data mo _ _ _ _ hd
              obtain ⟨m', i1, i2, -⟩ := ih _ _ _ _ h
              have hbne : bs ≠ [] := by rintro rfl; simp at d2; exact hz d2.symm
              refine ⟨bs ++ m', ?_, by simpa using i2, by simp [hbne]⟩
              have := Loose.chunk a g bs s3 m' rest g1 hbne d2.symm i1
              rw [e1, g3, d1]
              simpa [chunkStart] using this

/-- **C05 (partial).** Whatever is accepted consists of at least one non-empty chunk whose announced and real sizes agree, closed by
`LF##LF`, and the delivered message is the concatenation of the chunks (up to the first NUL).
Missing: rejection of junk between the chunks and of size texts other than plain decimal. -/
theorem framing11_strict_partial (s m rest : List Byte) (h : recv11 s = .msg m rest) :
    ∃ m', m' ≠ [] ∧ Loose s m' rest ∧ m = cstr m' := by
  obtain ⟨m', h1, h2, h3⟩ := framing11_accepts_loose_aux _ _ _ _ _ _ _ h
  exact ⟨m', h3 rfl, h1, by simpa using h2⟩

/-- A stream that starts like a chunked message but has a zero size or no chunk at all is malformed, not a message. -/
example : recv11 [10, 35, 48, 10, 97, 10, 35, 35, 10] = .bad ∧ recv11 [10, 35, 35, 10] = .bad := by decide +kernel

/-! ## C06, C07 -/

/-- **C06 (bounds).** For every transport behaviour (including errors) and every sequence of printer
writes of any size, no byte is stored past the end of the 1024 byte buffer. -/
theorem write_buffer_bounded (v : Version) (k : Sink) (ops : List Op) :
    (runOps v ops ⟨k, [], 0⟩).2.hi ≤ 1024 ∧ (runOps v ops ⟨k, [], 0⟩).2.buf.length ≤ 1024 :=
  let h := runOps_bounded v ops ⟨k, [], 0⟩ ⟨by simp, by simp⟩
  ⟨h.2, h.1⟩

/-- **C06 (order).** Without hard write errors the transport receives the printed text in order, cut into non-empty
pieces (each framed as an RFC 6242 chunk in NETCONF 1.1), followed by the end marker. -/
theorem write_order (v : Version) (k : Sink) (ops : List Op) (hv : k.valid = true) (hs : NoFail k.script)
    (hlen : ∀ o ∈ ops, o.bs.length < 2 ^ 32 - 1024) :
    ∃ k' cs, sendMsg v k ops = (true, k') ∧ (∀ c ∈ cs, c ≠ []) ∧ cs.flatten = text ops ∧
      k'.wire = k.wire ++ wireForm v cs := by
  obtain ⟨k', cs, h1, h2, h3, h4, -, -⟩ := sendMsg_good v k k.wire ops ⟨rfl, hv, hs⟩ hlen
  refine ⟨k', cs, h1, fun c hc => (h2 c hc).1, h3, ?_⟩
  cases v with
  | v11 => rw [h4, wireForm, ← flatMap_encV_v11]; simp
  | v10 => rw [h4, flatMap_encV_v10]; simp [endTag, Spec.eom, wireForm]

example : (runOps .v11 [⟨List.replicate 1020 120, false, true⟩, ⟨[38, 60], true, false⟩] ⟨⟨[], [], true⟩, [], 0⟩).2.hi = 1020 := by
  decide +kernel

/-- Reading back escaped text: the five bytes of `&amp;` are `&`, `&lt;` is `<`, `&gt;` is `>`; a raw `<`, `>` or any other `&` is an error
(XML 1.0, section 2.4). -/
def unescape : List Byte → Option (List Byte)
  | [] => some []
  | 38 :: 97 :: 109 :: 112 :: 59 :: t => (unescape t).map (38 :: ·)
  | 38 :: 108 :: 116 :: 59 :: t => (unescape t).map (60 :: ·)
  | 38 :: 103 :: 116 :: 59 :: t => (unescape t).map (62 :: ·)
  | b :: t => if b = 38 ∨ b = 60 ∨ b = 62 then none else (unescape t).map (b :: ·)

theorem unescape_esc (b : Byte) (t : List Byte) : unescape (esc b ++ t) = (unescape t).map (b :: ·) := by
  unfold esc
  split
  · rename_i h; subst h; simp [unescape]
  · split
    · rename_i h; subst h; simp [unescape]
    · split
      · rename_i h; subst h; simp [unescape]
      · rename_i h1 h2 h3
        simp only [List.cons_append, List.nil_append]
        conv => lhs; unfold unescape
        split
        · rename_i heq; simp at heq
        · rename_i heq; simp at heq; exact absurd heq.1 h1
        · rename_i heq; simp at heq; exact absurd heq.1 h1
        · rename_i heq; simp at heq; exact absurd heq.1 h1
        · rename_i heq
          simp at heq
          obtain ⟨rfl, rfl⟩ := heq
          rw [if_neg (by omega)]

/-- **C07.** XML content of any length, sent in NETCONF 1.0 mode (the hello message) from any fill level of the buffer, reaches
the wire as text that un-escapes to exactly the original and contains neither `<` nor `>`. -/
theorem xml_escape_roundtrip (k : Sink) (before content after : List Byte) (hv : k.valid = true) (hs : NoFail k.script)
    (h1 : before.length < 2 ^ 32 - 1024) (h2 : content.length < 2 ^ 32 - 1024) (h3 : after.length < 2 ^ 32 - 1024) :
    ∃ k' e, sendMsg .v10 k [⟨before, false, false⟩, ⟨content, true, false⟩, ⟨after, false, false⟩] = (true, k') ∧
      k'.wire = k.wire ++ before ++ e ++ after ++ Spec.eom ∧
      unescape e = some content ∧ 60 ∉ e ∧ 62 ∉ e := by
  obtain ⟨k', cs, g1, -, g3, g2⟩ := write_order .v10 k [⟨before, false, false⟩, ⟨content, true, false⟩, ⟨after, false, false⟩] hv hs
    (by intro o ho; simp at ho; rcases ho with rfl | rfl | rfl <;> assumption)
  refine ⟨k', content.flatMap esc, g1, ?_, ?_, ?_, ?_⟩
  · rw [g2, wireForm, g3]; simp [text]
  · clear g3; clear g1 g2 h2
    induction content with
    | nil => rfl
    | cons b bs ih => rw [List.flatMap_cons, unescape_esc, ih]; rfl
  · intro hm
    rw [List.mem_flatMap] at hm
    obtain ⟨b, -, hb⟩ := hm
    unfold esc at hb
    split at hb <;> (try split at hb) <;> (try split at hb) <;> simp at hb
    omega
  · intro hm
    rw [List.mem_flatMap] at hm
    obtain ⟨b, -, hb⟩ := hm
    unfold esc at hb
    split at hb <;> (try split at hb) <;> (try split at hb) <;> simp at hb
    omega

example : unescape ([97, 38, 60, 62].flatMap esc) = some [97, 38, 60, 62] := by decide

/-! ## C08 -/

/-- **C08 (negation).** A send can report success although nothing reached the transport: the flush fails with a socket error, whose
report by the write callback is ignored. -/
theorem send_success_complete_false :
    ¬ ∀ (v : Version) (k k' : Sink) (ops : List Op), sendMsg v k ops = (true, k') →
      ∃ cs : List (List Byte), cs.flatten = text ops ∧
        k'.wire = k.wire ++ wireForm v cs := by
  intro h
  obtain ⟨cs, h1, h2⟩ := h .v10 ⟨[], [.fail false, .fail false], true⟩ ⟨[], [.fail false], true⟩ [⟨[97], false, true⟩] (by decide)
  rw [wireForm, h1] at h2
  revert h2; clear h1; decide +revert

/-- Also in the middle of a message: the start is lost, the rest is sent, success is reported. -/
example : sendMsg .v10 ⟨[], [.fail false], true⟩ [⟨List.replicate 1000 97, false, false⟩, ⟨List.replicate 25 98, false, true⟩]
    = (false, ⟨[], [], true⟩) ∧
    (sendMsg .v10 ⟨[], [.fail false], true⟩ [⟨List.replicate 1000 97, false, false⟩, ⟨List.replicate 25 98, false, false⟩,
      ⟨[99], false, false⟩]).1 = true := by
  decide +kernel

/-- **C08 (partial).** With any pattern of short writes and would-block results but no hard write error, the
send reports success and the complete framed message was written.  Missing: hard write errors that do not invalidate the
session, for which the claim is false. -/
theorem send_success_complete_partial (v : Version) (k : Sink) (ops : List Op) (hv : k.valid = true) (hs : NoFail k.script)
    (hlen : ∀ o ∈ ops, o.bs.length < 2 ^ 32 - 1024) :
    ∃ k' cs, sendMsg v k ops = (true, k') ∧ cs.flatten = text ops ∧
      k'.wire = k.wire ++ wireForm v cs := by
  obtain ⟨k', cs, h1, -, h2, h3⟩ := write_order v k ops hv hs hlen
  exact ⟨k', cs, h1, h2, h3⟩

/-- **C08 (partial, hard errors).** If every hard write error invalidates the session (as a detected disconnection does), then a reported
success means that the complete framed message was written.  Missing: hard errors that leave the session valid. -/
theorem send_success_complete_inval_partial (v : Version) (k k' : Sink) (ops : List Op) (hv : k.valid = true)
    (hs : WriteEv.fail false ∉ k.script) (hlen : ∀ o ∈ ops, o.bs.length < 2 ^ 32 - 1024) (h : sendMsg v k ops = (true, k')) :
    ∃ cs : List (List Byte), (∀ c ∈ cs, c ≠ []) ∧ cs.flatten = text ops ∧ k'.wire = k.wire ++ wireForm v cs := by
  obtain ⟨cs, h1, h2, h3⟩ := sendMsg_I v k k' ops hv hs hlen h
  refine ⟨cs, h1, h2, ?_⟩
  cases v with
  | v11 => rw [h3, wireForm, ← flatMap_encV_v11]; simp
  | v10 => rw [h3, flatMap_encV_v10]; simp [endTag, Spec.eom, wireForm]

/-- An error invalidating the session during the last write is reported, and so is one before it. -/
example : (sendMsg .v10 ⟨[], [.acc 0, .fail true], true⟩ [⟨[97, 98], false, false⟩]).1 = false ∧
    (sendMsg .v10 ⟨[], [.acc 5, .fail true], true⟩ [⟨[97, 98], false, false⟩]).1 = false ∧
    (sendMsg .v10 ⟨[], [.acc 0, .again], true⟩ [⟨[97, 98], false, false⟩]).1 = true := by decide +kernel

/-- **C08 (partial, any transport).** For every transport, also one with hard errors that leave the session valid: if the result of every write of the printer is checked, a
reported success means that all of the message except at most the last buffer (1024 bytes) and the end marker is on the wire, in order and framed. -/
theorem send_success_prefix_partial (v : Version) (k k' : Sink) (ops : List Op) (hlen : ∀ o ∈ ops, o.bs.length < 2 ^ 32 - 1024)
    (hk : ∀ o ∈ ops, o.checked = true) (h : sendMsg v k ops = (true, k')) :
    ∃ (cs : List (List Byte)) (rest : List Byte), (∀ c ∈ cs, c ≠ []) ∧ cs.flatten ++ rest = text ops ∧ rest.length ≤ 1024 ∧
      k.wire ++ (match v with | .v11 => cs.flatMap Spec.chunk | .v10 => cs.flatten) <+: k'.wire := by
  obtain ⟨cs, rest, h1, h2, h3, h4⟩ := sendMsg_A v k k' ops hlen hk h
  refine ⟨cs, rest, h1, h2, h3, ?_⟩
  cases v with
  | v11 => exact h4
  | v10 => rw [flatMap_encV_v10] at h4; exact h4

/-- A hard error in the first flush is reported; one in the last flush is not. -/
example : (sendMsg .v10 ⟨[], [.fail false], true⟩ [⟨List.replicate 1000 97, false, true⟩, ⟨List.replicate 25 98, false, true⟩]).1 = false ∧
    (sendMsg .v10 ⟨[], [.acc 1000, .fail false], true⟩ [⟨List.replicate 1000 97, false, true⟩, ⟨List.replicate 25 98, false, true⟩]).1 = true := by
  decide +kernel

end Verif.Props
