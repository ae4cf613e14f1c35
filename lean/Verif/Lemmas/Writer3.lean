import Verif.Lemmas.Writer

/-! Lemmas about the writer on arbitrary transports: what a successful step has written. -/

namespace Verif.Writer

open Verif

theorem ncWriteLoop_ok (valid : Bool) : ∀ sc wire bs k, ncWriteLoop wire valid sc bs = (true, k) → k.wire = wire ++ bs := by
  intro sc
  induction sc with
  | nil => intro wire bs k h; simp [ncWriteLoop] at h; rw [← h]
  | cons e sc ih =>
    intro wire bs k h
    cases e with
    | fail inv => simp [ncWriteLoop] at h
    | again => exact ih wire bs k h
    | acc n =>
      simp only [ncWriteLoop] at h
      split at h
      · simp at h; rw [← h]
      · have := ih _ _ _ h
        simpa using this

/-- Nothing that was written disappears. -/
theorem ncWriteLoop_mono (valid : Bool) : ∀ sc wire bs, wire <+: (ncWriteLoop wire valid sc bs).2.wire := by
  intro sc
  induction sc with
  | nil => intro wire bs; simp [ncWriteLoop]
  | cons e sc ih =>
    intro wire bs
    cases e with
    | fail inv => simp [ncWriteLoop]
    | again => exact ih wire bs
    | acc n =>
      simp only [ncWriteLoop]
      split
      · simp
      · exact (List.prefix_append _ _).trans (ih _ _)

theorem ncWrite_ok {k k' : Sink} {bs : List Byte} (h : ncWrite k bs = (true, k')) : k'.wire = k.wire ++ bs := by
  unfold ncWrite at h
  split at h
  · simp at h
  · exact ncWriteLoop_ok _ _ _ _ _ h

theorem ncWrite_mono (k : Sink) (bs : List Byte) : k.wire <+: (ncWrite k bs).2.wire := by
  unfold ncWrite
  split
  · exact List.prefix_rfl
  · exact ncWriteLoop_mono _ _ _ _

theorem startAndMsg_ok {v : Version} {k k' : Sink} {bs : List Byte} (h : startAndMsg v k bs = (true, k')) :
    k'.wire = k.wire ++ encV v bs := by
  cases v with
  | v10 => exact ncWrite_ok h
  | v11 =>
    unfold startAndMsg at h
    generalize hr : ncWrite k ([10, 35] ++ dec bs.length ++ [10]) = r at h
    obtain ⟨ok, k1⟩ := r
    cases ok with
    | false => simp at h
    | true =>
      have h1 := ncWrite_ok hr
      have h2 := ncWrite_ok h
      rw [h2, h1]
      simp [encV, Spec.chunk]

theorem startAndMsg_mono (v : Version) (k : Sink) (bs : List Byte) : k.wire <+: (startAndMsg v k bs).2.wire := by
  cases v with
  | v10 => exact ncWrite_mono k bs
  | v11 =>
    unfold startAndMsg
    have h1 := ncWrite_mono k ([10, 35] ++ dec bs.length ++ [10])
    generalize ncWrite k ([10, 35] ++ dec bs.length ++ [10]) = r at h1
    obtain ⟨ok, k1⟩ := r
    cases ok with
    | false => exact h1
    | true => exact h1.trans (ncWrite_mono k1 bs)

/-- What has been written and what is buffered. -/
structure WInvA (v : Version) (wire0 t : List Byte) (w : WArg) : Prop where
  ex : ∃ cs : List (List Byte), (∀ c ∈ cs, c ≠ []) ∧ w.sink.wire = wire0 ++ cs.flatMap (encV v) ∧ cs.flatten ++ w.buf = t
  len : w.buf.length ≤ bufSize

theorem flush_A {v : Version} {wire0 t : List Byte} {w w' : WArg} (h : WInvA v wire0 t w) (hf : flush v w = (true, w')) :
    WInvA v wire0 t w' ∧ w'.buf = [] := by
  obtain ⟨⟨cs, h1, h2, h3⟩, h4⟩ := h
  unfold flush at hf
  split at hf
  · rename_i hb
    simp at hf; subst hf
    exact ⟨⟨⟨cs, h1, h2, h3⟩, h4⟩, hb⟩
  · rename_i hb
    generalize hr : startAndMsg v w.sink w.buf = r at hf
    obtain ⟨ok, k'⟩ := r
    simp at hf
    obtain ⟨rfl, rfl⟩ := hf
    have hk := startAndMsg_ok hr
    refine ⟨⟨⟨cs ++ [w.buf], ?_, ?_, ?_⟩, by simp⟩, rfl⟩
    · intro c hc
      rw [List.mem_append] at hc
      rcases hc with hc | hc
      · exact h1 c hc
      · simp at hc; subst hc; exact hb
    · simp only [hk, h2]; simp [List.flatMap_append]
    · simpa using h3

theorem flush_mono (v : Version) (w : WArg) : w.sink.wire <+: (flush v w).2.sink.wire := by
  unfold flush
  split
  · exact List.prefix_rfl
  · exact startAndMsg_mono v w.sink w.buf

theorem store_A {v : Version} {wire0 t : List Byte} {w : WArg} (h : WInvA v wire0 t w) (bs : List Byte)
    (hl : w.buf.length + bs.length ≤ bufSize) : WInvA v wire0 (t ++ bs) (store w bs) := by
  obtain ⟨⟨cs, h1, h2, h3⟩, h4⟩ := h
  exact ⟨⟨cs, h1, h2, by simp [store, ← h3]⟩, by simpa [store] using hl⟩

theorem xmlLoop_A {v : Version} {wire0 : List Byte} : ∀ bs t w w', WInvA v wire0 t w → xmlLoop v bs w = (true, w') →
    WInvA v wire0 (t ++ bs.flatMap esc) w' := by
  intro bs
  induction bs with
  | nil => intro t w w' h hx; simp [xmlLoop] at hx; subst hx; simpa using h
  | cons b bs ih =>
    intro t w w' h hx
    have he := (esc_length b).1
    unfold xmlLoop at hx
    split at hx
    · generalize hr : flush v w = r at hx
      obtain ⟨ok, w1⟩ := r
      cases ok with
      | false => simp at hx
      | true =>
        obtain ⟨hi, hb⟩ := flush_A h hr
        have := ih _ _ _ (store_A hi (esc b) (by rw [hb]; simp [bufSize]; omega)) hx
        simpa using this
    · have := ih _ _ _ (store_A h (esc b) (by unfold bufSize at *; omega)) hx
      simpa using this

theorem clb_A {v : Version} {wire0 t : List Byte} {w w' : WArg} (h : WInvA v wire0 t w) (bs : List Byte) (xml : Bool)
    (hl : bs.length < 2 ^ 32 - 1024) (hc : clb v w bs xml = (true, w')) : WInvA v wire0 (t ++ opText bs xml) w' := by
  have key : ∀ w1, (if w.buf ≠ [] ∧ (w.buf.length + bs.length) % 2 ^ 32 > bufSize then flush v w else (true, w)) = (true, w1) →
      WInvA v wire0 t w1 ∧ (w1.buf = [] ∨ w1.buf.length + bs.length ≤ bufSize) := by
    intro w1 hr
    split at hr
    · obtain ⟨a, b⟩ := flush_A h hr
      exact ⟨a, Or.inl b⟩
    · rename_i hn
      simp at hr; subst hr
      refine ⟨h, ?_⟩
      by_cases hb : w.buf = []
      · exact Or.inl hb
      · right
        have hlen := h.len
        unfold bufSize at *
        have : (w.buf.length + bs.length) % 2 ^ 32 = w.buf.length + bs.length := Nat.mod_eq_of_lt (by omega)
        rw [this] at hn
        have : ¬ (w.buf.length + bs.length > 1024) := fun hc => hn ⟨hb, hc⟩
        omega
  unfold clb at hc
  generalize hrr : (if w.buf ≠ [] ∧ (w.buf.length + bs.length) % 2 ^ 32 > bufSize then flush v w else (true, w)) = r at hc
  obtain ⟨ok, w1⟩ := r
  cases ok with
  | false => simp at hc
  | true =>
    obtain ⟨hi, hlen1⟩ := key w1 hrr
    simp only at hc
    cases xml with
    | true =>
      simp only [Bool.not_true, Bool.false_and, if_neg Bool.false_ne_true, if_true] at hc
      simpa [opText] using xmlLoop_A bs t w1 w' hi hc
    | false =>
      simp only [Bool.not_false, Bool.true_and, decide_eq_true_eq, if_neg Bool.false_ne_true] at hc
      simp only [opText, if_neg Bool.false_ne_true]
      by_cases hb : bs.length > bufSize
      · rw [if_pos hb] at hc
        have hbe : w1.buf = [] := by
          rcases hlen1 with h' | h'
          · exact h'
          · omega
        obtain ⟨⟨cs, c1, c2, c3⟩, c4⟩ := hi
        generalize hr : startAndMsg v w1.sink bs = q at hc
        obtain ⟨ok, k'⟩ := q
        simp at hc
        obtain ⟨rfl, rfl⟩ := hc
        have hk := startAndMsg_ok hr
        refine ⟨⟨cs ++ [bs], ?_, ?_, ?_⟩, c4⟩
        · intro c hc
          rw [List.mem_append] at hc
          rcases hc with hc | hc
          · exact c1 c hc
          · simp at hc; subst hc
            intro h0; rw [h0] at hb; simp at hb
        · simp only [hk, c2]; simp [List.flatMap_append]
        · simp only [hbe, List.append_nil] at c3 ⊢
          simp [← c3]
      · rw [if_neg hb] at hc
        simp at hc; subst hc
        refine store_A hi bs ?_
        rcases hlen1 with h' | h'
        · rw [h']; simp; omega
        · exact h'

theorem runOps_A {v : Version} {wire0 : List Byte} : ∀ ops t w w', (∀ o ∈ ops, o.bs.length < 2 ^ 32 - 1024) → (∀ o ∈ ops, o.checked = true) →
    WInvA v wire0 t w → runOps v ops w = (true, w') → WInvA v wire0 (t ++ text ops) w' := by
  intro ops
  induction ops with
  | nil => intro t w w' _ _ h hr; simp [runOps] at hr; subst hr; simpa [text] using h
  | cons o ops ih =>
    intro t w w' ho hk h hr
    unfold runOps at hr
    generalize hc : clb v w o.bs o.xml = r at hr
    obtain ⟨ok, w1⟩ := r
    have hck := hk o (by simp)
    cases ok with
    | false => simp [hck] at hr
    | true =>
      have h1 := clb_A h o.bs o.xml (ho o (by simp)) hc
      simp only [Bool.not_true, Bool.and_false, if_neg Bool.false_ne_true] at hr
      have := ih _ w1 w' (fun o' h' => ho o' (by simp [h'])) (fun o' h' => hk o' (by simp [h'])) h1 hr
      simpa [text, opText] using this

theorem sendMsg_A (v : Version) (k k' : Sink) (ops : List Op) (ho : ∀ o ∈ ops, o.bs.length < 2 ^ 32 - 1024)
    (hk : ∀ o ∈ ops, o.checked = true) (h : sendMsg v k ops = (true, k')) :
    ∃ (cs : List (List Byte)) (rest : List Byte), (∀ c ∈ cs, c ≠ []) ∧ cs.flatten ++ rest = text ops ∧ rest.length ≤ bufSize ∧
      k.wire ++ cs.flatMap (encV v) <+: k'.wire := by
  have h0 : WInvA v k.wire [] ⟨k, [], 0⟩ := ⟨⟨[], by simp, by simp, rfl⟩, by simp⟩
  unfold sendMsg at h
  split at h
  · simp at h
  · generalize hr : runOps v ops ⟨k, [], 0⟩ = r at h
    obtain ⟨ok, w1⟩ := r
    cases ok with
    | false => simp at h
    | true =>
      obtain ⟨⟨cs, c1, c2, c3⟩, c4⟩ := runOps_A ops [] _ w1 ho hk h0 hr
      refine ⟨cs, w1.buf, c1, by simpa using c3, c4, ?_⟩
      have hw : k' = (clbEnd v w1).2.sink := by simpa using (congrArg Prod.snd h).symm
      rw [hw, ← c2]
      unfold clbEnd
      have hm := flush_mono v w1
      generalize flush v w1 = q at hm
      obtain ⟨ok, w2⟩ := q
      cases ok with
      | false => exact hm
      | true => exact hm.trans (ncWrite_mono w2.sink (endTag v))

end Verif.Writer
