import Verif.Model.Writer
import Verif.Spec.Framing

namespace Verif.Writer

open Verif

/-- No hard error among the future write results. -/
def NoFail (sc : List WriteEv) : Prop := ∀ i, WriteEv.fail i ∉ sc

theorem ncWriteLoop_noFail (valid : Bool) : ∀ sc wire bs, NoFail sc →
    ∃ sc', NoFail sc' ∧ ncWriteLoop wire valid sc bs = (true, ⟨wire ++ bs, sc', valid⟩) := by
  intro sc
  induction sc with
  | nil => intro wire bs _; exact ⟨[], by simp [NoFail], rfl⟩
  | cons e sc ih =>
    intro wire bs h
    have h' : NoFail sc := fun i hi => h i (List.mem_cons_of_mem _ hi)
    cases e with
    | fail inv => exact absurd (List.mem_cons_self) (h inv)
    | again => exact ih wire bs h'
    | acc k =>
      simp only [ncWriteLoop]
      split
      · exact ⟨sc, h', rfl⟩
      · obtain ⟨sc', h1, h2⟩ := ih (wire ++ bs.take (k + 1)) (bs.drop (k + 1)) h'
        refine ⟨sc', h1, ?_⟩
        rw [h2]; simp

/-- A valid sink without hard errors ahead, holding `wire`. -/
def Good (k : Sink) (wire : List Byte) : Prop := k.wire = wire ∧ k.valid = true ∧ NoFail k.script

theorem ncWrite_good {k : Sink} {wire : List Byte} (h : Good k wire) (bs : List Byte) :
    ∃ k', ncWrite k bs = (true, k') ∧ Good k' (wire ++ bs) := by
  obtain ⟨h1, h2, h3⟩ := h
  obtain ⟨sc', h4, h5⟩ := ncWriteLoop_noFail k.valid k.script k.wire bs h3
  refine ⟨⟨k.wire ++ bs, sc', k.valid⟩, ?_, ?_⟩
  · unfold ncWrite; rw [h2] at h5 ⊢; simpa using h5
  · exact ⟨by rw [h1], h2, h4⟩

/-- Wire form of one piece of output. -/
def encV : Version → List Byte → List Byte
  | .v11, c => Spec.chunk c
  | .v10, c => c

theorem startAndMsg_good {v : Version} {k : Sink} {wire : List Byte} (h : Good k wire) (bs : List Byte) :
    ∃ k', startAndMsg v k bs = (true, k') ∧ Good k' (wire ++ encV v bs) := by
  cases v with
  | v10 => exact ncWrite_good h bs
  | v11 =>
    obtain ⟨k1, h1, h2⟩ := ncWrite_good h ([10, 35] ++ dec bs.length ++ [10])
    obtain ⟨k2, h3, h4⟩ := ncWrite_good h2 bs
    refine ⟨k2, ?_, ?_⟩
    · unfold startAndMsg; simp only [h1]; exact h3
    · simpa [encV, Spec.chunk] using h4

/-- State of the writer after having been asked to print `t` on top of `wire0`. -/
structure WInv (v : Version) (wire0 t : List Byte) (w : WArg) : Prop where
  ex : ∃ cs : List (List Byte), (∀ c ∈ cs, c ≠ [] ∧ c.length < 2 ^ 32 - 1) ∧
    Good w.sink (wire0 ++ cs.flatMap (encV v)) ∧ cs.flatten ++ w.buf = t
  len : w.buf.length ≤ bufSize

theorem flush_inv {v : Version} {wire0 t : List Byte} {w : WArg} (h : WInv v wire0 t w) :
    ∃ w', flush v w = (true, w') ∧ WInv v wire0 t w' ∧ w'.buf = [] := by
  obtain ⟨⟨cs, h1, h2, h3⟩, h4⟩ := h
  unfold flush
  split
  · rename_i hb
    exact ⟨w, rfl, ⟨⟨cs, h1, h2, h3⟩, h4⟩, hb⟩
  · rename_i hb
    obtain ⟨k', hk, hg⟩ := startAndMsg_good (v := v) h2 w.buf
    rw [hk]
    refine ⟨_, rfl, ⟨⟨cs ++ [w.buf], ?_, ?_, ?_⟩, ?_⟩, rfl⟩
    · intro c hc
      rw [List.mem_append] at hc
      rcases hc with hc | hc
      · exact h1 c hc
      · simp at hc; subst hc
        refine ⟨hb, ?_⟩
        unfold bufSize at h4; omega
    · simpa [List.flatMap_append] using hg
    · simpa using h3
    · simp

theorem store_inv {v : Version} {wire0 t : List Byte} {w : WArg} (h : WInv v wire0 t w) (bs : List Byte)
    (hl : w.buf.length + bs.length ≤ bufSize) : WInv v wire0 (t ++ bs) (store w bs) := by
  obtain ⟨⟨cs, h1, h2, h3⟩, h4⟩ := h
  exact ⟨⟨cs, h1, h2, by simp [store, ← h3]⟩, by simpa [store] using hl⟩

theorem esc_length (b : Byte) : (esc b).length ≤ 5 ∧ esc b ≠ [] := by
  unfold esc; split <;> (try split) <;> (try split) <;> simp

theorem xmlLoop_inv {v : Version} {wire0 : List Byte} : ∀ bs t w, WInv v wire0 t w →
    ∃ w', xmlLoop v bs w = (true, w') ∧ WInv v wire0 (t ++ bs.flatMap esc) w' := by
  intro bs
  induction bs with
  | nil => intro t w h; exact ⟨w, rfl, by simpa using h⟩
  | cons b bs ih =>
    intro t w h
    have he := (esc_length b).1
    unfold xmlLoop
    split
    · obtain ⟨w1, hf, hi, hb⟩ := flush_inv h
      rw [hf]
      obtain ⟨w2, h2, h3⟩ := ih _ _ (store_inv hi (esc b) (by rw [hb]; simp [bufSize]; omega))
      exact ⟨w2, h2, by simpa using h3⟩
    · rename_i hlt
      obtain ⟨w2, h2, h3⟩ := ih _ _ (store_inv h (esc b) (by unfold bufSize at *; omega))
      exact ⟨w2, h2, by simpa using h3⟩

/-- Text of one write. -/
def opText (bs : List Byte) (xml : Bool) : List Byte := if xml then bs.flatMap esc else bs

theorem clb_inv {v : Version} {wire0 t : List Byte} {w : WArg} (h : WInv v wire0 t w) (bs : List Byte) (xml : Bool)
    (hl : bs.length < 2 ^ 32 - 1024) :
    ∃ w', clb v w bs xml = (true, w') ∧ WInv v wire0 (t ++ opText bs xml) w' := by
  have key : ∃ w1, (if w.buf ≠ [] ∧ (w.buf.length + bs.length) % 2 ^ 32 > bufSize then flush v w else (true, w)) = (true, w1) ∧
      WInv v wire0 t w1 ∧ (w1.buf = [] ∨ w1.buf.length + bs.length ≤ bufSize) := by
    split
    · obtain ⟨w1, a, b, c⟩ := flush_inv h
      exact ⟨w1, a, b, Or.inl c⟩
    · rename_i hn
      refine ⟨w, rfl, h, ?_⟩
      by_cases hb : w.buf = []
      · exact Or.inl hb
      · right
        have hlen := h.len
        unfold bufSize at *
        have : (w.buf.length + bs.length) % 2 ^ 32 = w.buf.length + bs.length := Nat.mod_eq_of_lt (by omega)
        rw [this] at hn
        have : ¬ (w.buf.length + bs.length > 1024) := fun hc => hn ⟨hb, hc⟩
        omega
  obtain ⟨w1, hr, hi, hlen1⟩ := key
  unfold clb
  simp only [hr]
  cases xml with
  | true =>
    simp only [Bool.not_true, Bool.false_and, if_neg Bool.false_ne_true, if_true]
    simpa [opText] using xmlLoop_inv bs t w1 hi
  | false =>
    simp only [Bool.not_false, Bool.true_and, decide_eq_true_eq, opText, if_neg Bool.false_ne_true]
    by_cases hb : bs.length > bufSize
    · rw [if_pos hb]
      have hbe : w1.buf = [] := by
        rcases hlen1 with h' | h'
        · exact h'
        · omega
      obtain ⟨⟨cs, h1, h2, h3⟩, h4⟩ := hi
      obtain ⟨k', hk, hg⟩ := startAndMsg_good (v := v) h2 bs
      rw [hk]
      refine ⟨_, rfl, ⟨⟨cs ++ [bs], ?_, ?_, ?_⟩, h4⟩⟩
      · intro c hc
        rw [List.mem_append] at hc
        rcases hc with hc | hc
        · exact h1 c hc
        · simp at hc; subst hc
          refine ⟨?_, by omega⟩
          intro h0; rw [h0] at hb; simp at hb
      · simpa [List.flatMap_append] using hg
      · simp only [hbe, List.append_nil] at h3 ⊢
        simp [← h3]
    · rw [if_neg hb]
      refine ⟨_, rfl, store_inv hi bs ?_⟩
      rcases hlen1 with h' | h'
      · rw [h']; simp; omega
      · exact h'

theorem runOps_inv {v : Version} {wire0 : List Byte} : ∀ ops t w, (∀ o ∈ ops, o.bs.length < 2 ^ 32 - 1024) →
    WInv v wire0 t w → ∃ w', runOps v ops w = (true, w') ∧ WInv v wire0 (t ++ text ops) w' := by
  intro ops
  induction ops with
  | nil => intro t w _ h; exact ⟨w, rfl, by simpa [text] using h⟩
  | cons o ops ih =>
    intro t w ho h
    obtain ⟨w1, h1, h2⟩ := clb_inv h o.bs o.xml (ho o (by simp))
    obtain ⟨w2, h3, h4⟩ := ih _ w1 (fun o' h' => ho o' (by simp [h'])) h2
    refine ⟨w2, ?_, ?_⟩
    · unfold runOps; simp only [h1]; simpa using h3
    · simpa [text, opText] using h4

theorem sendMsg_good (v : Version) (k : Sink) (wire0 : List Byte) (ops : List Op) (hk : Good k wire0)
    (ho : ∀ o ∈ ops, o.bs.length < 2 ^ 32 - 1024) :
    ∃ k', ∃ cs : List (List Byte), sendMsg v k ops = (true, k') ∧ (∀ c ∈ cs, c ≠ [] ∧ c.length < 2 ^ 32 - 1) ∧ cs.flatten = text ops ∧
      Good k' (wire0 ++ cs.flatMap (encV v) ++ endTag v) := by
  have h0 : WInv v wire0 [] ⟨k, [], 0⟩ := ⟨⟨[], by simp, by simpa using hk, rfl⟩, by simp⟩
  obtain ⟨w1, h1, h2⟩ := runOps_inv ops [] _ ho h0
  obtain ⟨w2, h3, h4, h5⟩ := flush_inv h2
  obtain ⟨⟨cs, c1, c2, c3⟩, _⟩ := h4
  obtain ⟨k', h6, h7⟩ := ncWrite_good c2 (endTag v)
  refine ⟨k', cs, ?_, c1, ?_, h7⟩
  · unfold sendMsg
    rw [hk.2.1]
    simp only [Bool.not_true, if_neg Bool.false_ne_true, h1, clbEnd, h3, h6, h7.2.1]
  · simpa [h5] using c3

/-! ## Bounds that hold for every transport behaviour -/

/-- The ghost high-water mark and the buffer stay within the buffer. -/
def Bounded (w : WArg) : Prop := w.buf.length ≤ bufSize ∧ w.hi ≤ bufSize

theorem flush_bounded (v : Version) {w : WArg} (h : Bounded w) : Bounded (flush v w).2 ∧ ((flush v w).2.buf = []) := by
  unfold flush
  split
  · rename_i hb; exact ⟨h, hb⟩
  · exact ⟨⟨by simp, h.2⟩, rfl⟩

theorem store_bounded {w : WArg} (h : Bounded w) (bs : List Byte) (hl : w.buf.length + bs.length ≤ bufSize) :
    Bounded (store w bs) := by
  refine ⟨by simpa [store] using hl, ?_⟩
  have := h.2
  simp only [store]; omega

theorem xmlLoop_bounded (v : Version) : ∀ bs w, Bounded w → Bounded (xmlLoop v bs w).2 := by
  intro bs
  induction bs with
  | nil => intro w h; exact h
  | cons b bs ih =>
    intro w h
    have he := (esc_length b).1
    unfold xmlLoop
    split
    · obtain ⟨h1, h2⟩ := flush_bounded v h
      split
      · rename_i w1 hf; rw [hf] at h1; exact h1
      · rename_i w1 hf
        rw [hf] at h1 h2
        exact ih _ (store_bounded h1 _ (by simp only at h2; rw [h2]; simp [bufSize]; omega))
    · rename_i hlt
      exact ih _ (store_bounded h _ (by unfold bufSize at *; omega))

theorem clb_bounded (v : Version) {w : WArg} (h : Bounded w) (bs : List Byte) (xml : Bool) :
    Bounded (clb v w bs xml).2 := by
  have key : ∀ r, r = (if w.buf ≠ [] ∧ (w.buf.length + bs.length) % 2 ^ 32 > bufSize then flush v w else (true, w)) →
      Bounded r.2 ∧ (r.2.buf = [] ∨ bs.length ≤ bufSize → r.2.buf.length + bs.length ≤ bufSize ∨ bs.length > bufSize) := by
    intro r hr
    split at hr
    · subst hr
      obtain ⟨h1, h2⟩ := flush_bounded v h
      exact ⟨h1, fun _ => by rw [h2]; simp; omega⟩
    · rename_i hn
      subst hr
      refine ⟨h, fun _ => ?_⟩
      by_cases hbig : bs.length > bufSize
      · exact Or.inr hbig
      · left
        have hl := h.1
        by_cases hb : w.buf = []
        · simp [hb]; omega
        · unfold bufSize at *
          have : (w.buf.length + bs.length) % 2 ^ 32 = w.buf.length + bs.length := Nat.mod_eq_of_lt (by omega)
          rw [this] at hn
          have : ¬ (w.buf.length + bs.length > 1024) := fun hc => hn ⟨hb, hc⟩
          show w.buf.length + bs.length ≤ 1024
          omega
  unfold clb
  generalize hrr : (if w.buf ≠ [] ∧ (w.buf.length + bs.length) % 2 ^ 32 > bufSize then flush v w else (true, w)) = r
  obtain ⟨h1, h2⟩ := key r hrr.symm
  obtain ⟨ok, w1⟩ := r
  cases ok with
  | false => exact h1
  | true =>
    simp only
    split
    · exact ⟨h1.1, h1.2⟩
    · rename_i hns
      split
      · exact xmlLoop_bounded v bs w1 h1
      · rename_i hx
        have hx' : xml = false := by simpa using hx
        subst hx'
        simp at hns
        refine store_bounded h1 bs ?_
        rcases h2 (Or.inr hns) with h' | h'
        · exact h'
        · omega

theorem runOps_bounded (v : Version) : ∀ ops w, Bounded w → Bounded (runOps v ops w).2 := by
  intro ops
  induction ops with
  | nil => intro w h; exact h
  | cons o ops ih =>
    intro w h
    unfold runOps
    have := clb_bounded v h o.bs o.xml
    simp only
    split
    · exact this
    · exact ih _ this

/-- Once invalid, a sink stays as it is. -/
theorem ncWrite_invalid {k : Sink} (h : k.valid = false) (bs : List Byte) : ncWrite k bs = (false, k) := by
  unfold ncWrite; simp [h]

end Verif.Writer
