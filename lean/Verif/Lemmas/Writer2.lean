import Verif.Lemmas.Writer

/-! Lemmas about the writer on transports whose hard errors all invalidate the session. -/

namespace Verif.Writer

open Verif

/-- Every hard error ahead invalidates the session. -/
def AllInv (sc : List WriteEv) : Prop := WriteEv.fail false ∉ sc

theorem ncWriteLoop_allInv : ∀ sc wire bs, AllInv sc →
    ∃ ok k, ncWriteLoop wire true sc bs = (ok, k) ∧
      (k.valid = false ∨ (ok = true ∧ k.valid = true ∧ k.wire = wire ++ bs ∧ AllInv k.script)) := by
  intro sc
  induction sc with
  | nil => intro wire bs _; exact ⟨_, _, rfl, Or.inr ⟨rfl, rfl, rfl, by simp [AllInv]⟩⟩
  | cons e sc ih =>
    intro wire bs h
    have h' : AllInv sc := fun hi => h (List.mem_cons_of_mem _ hi)
    cases e with
    | fail inv =>
      cases inv with
      | false => exact absurd (List.mem_cons_self) h
      | true => exact ⟨_, _, rfl, Or.inl rfl⟩
    | again => exact ih wire bs h'
    | acc k =>
      simp only [ncWriteLoop]
      split
      · exact ⟨_, _, rfl, Or.inr ⟨rfl, rfl, rfl, h'⟩⟩
      · obtain ⟨ok, k', h1, h2⟩ := ih (wire ++ bs.take (k + 1)) (bs.drop (k + 1)) h'
        refine ⟨ok, k', h1, ?_⟩
        simpa using h2

/-- A valid sink, all of whose future errors invalidate it, holding `wire`. -/
def GoodI (k : Sink) (wire : List Byte) : Prop := k.wire = wire ∧ k.valid = true ∧ AllInv k.script

theorem ncWrite_goodI {k : Sink} {wire : List Byte} (h : GoodI k wire) (bs : List Byte) :
    ∃ ok k', ncWrite k bs = (ok, k') ∧ (k'.valid = false ∨ (ok = true ∧ GoodI k' (wire ++ bs))) := by
  obtain ⟨h1, h2, h3⟩ := h
  obtain ⟨ok, k', h4, h5⟩ := ncWriteLoop_allInv k.script k.wire bs h3
  refine ⟨ok, k', ?_, ?_⟩
  · unfold ncWrite; rw [h2]; simpa using h4
  · rcases h5 with h5 | ⟨a, b, c, d⟩
    · exact Or.inl h5
    · exact Or.inr ⟨a, by rw [c, h1], b, d⟩

theorem startAndMsg_invalid (v : Version) {k : Sink} (h : k.valid = false) (bs : List Byte) : startAndMsg v k bs = (false, k) := by
  cases v <;> simp [startAndMsg, ncWrite_invalid h]

theorem startAndMsg_goodI {v : Version} {k : Sink} {wire : List Byte} (h : GoodI k wire) (bs : List Byte) :
    ∃ ok k', startAndMsg v k bs = (ok, k') ∧ (k'.valid = false ∨ (ok = true ∧ GoodI k' (wire ++ encV v bs))) := by
  cases v with
  | v10 => exact ncWrite_goodI h bs
  | v11 =>
    obtain ⟨ok, k1, h1, h2⟩ := ncWrite_goodI h ([10, 35] ++ dec bs.length ++ [10])
    unfold startAndMsg
    simp only [h1]
    rcases h2 with h2 | ⟨rfl, h2⟩
    · cases ok with
      | false => exact ⟨_, _, rfl, Or.inl h2⟩
      | true => exact ⟨_, _, ncWrite_invalid h2 bs, Or.inl h2⟩
    · obtain ⟨ok, k2, h3, h4⟩ := ncWrite_goodI h2 bs
      refine ⟨ok, k2, h3, ?_⟩
      rcases h4 with h4 | ⟨a, b⟩
      · exact Or.inl h4
      · exact Or.inr ⟨a, by simpa [encV, Spec.chunk] using b⟩

/-- State of the writer after having been asked to print `t` on top of `wire0`. -/
structure WInvI (v : Version) (wire0 t : List Byte) (w : WArg) : Prop where
  ex : ∃ cs : List (List Byte), (∀ c ∈ cs, c ≠ []) ∧ GoodI w.sink (wire0 ++ cs.flatMap (encV v)) ∧ cs.flatten ++ w.buf = t
  len : w.buf.length ≤ bufSize

/-- The outcome of a writer function: the session is invalid, or everything went well. -/
def OkI (v : Version) (wire0 t : List Byte) (r : Bool × WArg) : Prop :=
  r.2.sink.valid = false ∨ (r.1 = true ∧ WInvI v wire0 t r.2)

theorem flush_invalid (v : Version) {w : WArg} (h : w.sink.valid = false) : (flush v w).2.sink.valid = false := by
  unfold flush
  split
  · exact h
  · simp [startAndMsg_invalid v h, h]

theorem flush_I {v : Version} {wire0 t : List Byte} {w : WArg} (h : WInvI v wire0 t w) :
    OkI v wire0 t (flush v w) ∧ (flush v w).2.buf = [] := by
  obtain ⟨⟨cs, h1, h2, h3⟩, h4⟩ := h
  unfold flush
  split
  · rename_i hb
    exact ⟨Or.inr ⟨rfl, ⟨⟨cs, h1, h2, h3⟩, h4⟩⟩, hb⟩
  · rename_i hb
    obtain ⟨ok, k', hk, hg⟩ := startAndMsg_goodI (v := v) h2 w.buf
    rw [hk]
    refine ⟨?_, rfl⟩
    rcases hg with hg | ⟨rfl, hg⟩
    · exact Or.inl hg
    · refine Or.inr ⟨rfl, ⟨⟨cs ++ [w.buf], ?_, ?_, ?_⟩, by simp⟩⟩
      · intro c hc
        rw [List.mem_append] at hc
        rcases hc with hc | hc
        · exact h1 c hc
        · simp at hc; subst hc; exact hb
      · simpa [List.flatMap_append] using hg
      · simpa using h3

theorem store_I {v : Version} {wire0 t : List Byte} {w : WArg} (h : WInvI v wire0 t w) (bs : List Byte)
    (hl : w.buf.length + bs.length ≤ bufSize) : WInvI v wire0 (t ++ bs) (store w bs) := by
  obtain ⟨⟨cs, h1, h2, h3⟩, h4⟩ := h
  exact ⟨⟨cs, h1, h2, by simp [store, ← h3]⟩, by simpa [store] using hl⟩

theorem xmlLoop_invalid (v : Version) : ∀ bs w, w.sink.valid = false → (xmlLoop v bs w).2.sink.valid = false := by
  intro bs
  induction bs with
  | nil => intro w h; exact h
  | cons b bs ih =>
    intro w h
    have hf := flush_invalid v h
    unfold xmlLoop
    split
    · split
      · rename_i w1 he; rw [he] at hf; exact hf
      · rename_i w1 he; rw [he] at hf; exact ih _ hf
    · exact ih _ h

theorem xmlLoop_I {v : Version} {wire0 : List Byte} : ∀ bs t w, WInvI v wire0 t w → OkI v wire0 (t ++ bs.flatMap esc) (xmlLoop v bs w) := by
  intro bs
  induction bs with
  | nil => intro t w h; exact Or.inr ⟨rfl, by simpa [xmlLoop] using h⟩
  | cons b bs ih =>
    intro t w h
    have he := (esc_length b).1
    unfold xmlLoop
    split
    · obtain ⟨h1, h2⟩ := flush_I h
      generalize hr : flush v w = r at h1 h2
      obtain ⟨ok, w1⟩ := r
      rcases h1 with h1 | ⟨h1, hi⟩
      · cases ok with
        | false => exact Or.inl h1
        | true => exact Or.inl (xmlLoop_invalid v bs _ h1)
      · simp only at h1 hi h2
        subst h1
        have := ih _ _ (store_I hi (esc b) (by rw [h2]; simp [bufSize]; omega))
        simpa using this
    · rename_i hlt
      have := ih _ _ (store_I h (esc b) (by unfold bufSize at *; omega))
      simpa using this

theorem clb_invalid (v : Version) {w : WArg} (h : w.sink.valid = false) (bs : List Byte) (xml : Bool) :
    (clb v w bs xml).2.sink.valid = false := by
  have key : ∀ r, r = (if w.buf ≠ [] ∧ (w.buf.length + bs.length) % 2 ^ 32 > bufSize then flush v w else (true, w)) →
      r.2.sink.valid = false := by
    intro r hr
    split at hr
    · subst hr; exact flush_invalid v h
    · subst hr; exact h
  unfold clb
  generalize hrr : (if w.buf ≠ [] ∧ (w.buf.length + bs.length) % 2 ^ 32 > bufSize then flush v w else (true, w)) = r
  have h1 := key r hrr.symm
  obtain ⟨ok, w1⟩ := r
  cases ok with
  | false => exact h1
  | true =>
    simp only
    split
    · simp [startAndMsg_invalid v h1 bs]; exact h1
    · split
      · exact xmlLoop_invalid v bs w1 h1
      · exact h1

theorem clb_I {v : Version} {wire0 t : List Byte} {w : WArg} (h : WInvI v wire0 t w) (bs : List Byte) (xml : Bool)
    (hl : bs.length < 2 ^ 32 - 1024) : OkI v wire0 (t ++ opText bs xml) (clb v w bs xml) := by
  have key : ∀ r, r = (if w.buf ≠ [] ∧ (w.buf.length + bs.length) % 2 ^ 32 > bufSize then flush v w else (true, w)) →
      OkI v wire0 t r ∧ (r.2.buf = [] ∨ r.2.buf.length + bs.length ≤ bufSize) := by
    intro r hr
    split at hr
    · subst hr
      obtain ⟨a, b⟩ := flush_I h
      exact ⟨a, Or.inl b⟩
    · rename_i hn
      subst hr
      refine ⟨Or.inr ⟨rfl, h⟩, ?_⟩
      by_cases hb : w.buf = []
      · exact Or.inl hb
      · right
        have hlen := h.len
        unfold bufSize at *
        have : (w.buf.length + bs.length) % 2 ^ 32 = w.buf.length + bs.length := Nat.mod_eq_of_lt (by omega)
        rw [this] at hn
        have : ¬ (w.buf.length + bs.length > 1024) := fun hc => hn ⟨hb, hc⟩
        show w.buf.length + bs.length ≤ 1024
        omega
  by_cases hval : (clb v w bs xml).2.sink.valid = false
  · exact Or.inl hval
  revert hval
  unfold clb
  generalize hrr : (if w.buf ≠ [] ∧ (w.buf.length + bs.length) % 2 ^ 32 > bufSize then flush v w else (true, w)) = r
  obtain ⟨h1, hlen1⟩ := key r hrr.symm
  obtain ⟨ok, w1⟩ := r
  intro hval
  rcases h1 with h1 | ⟨h1, hi⟩
  · exfalso
    apply hval
    cases ok with
    | false => exact h1
    | true =>
      simp only at h1 ⊢
      split
      · simp [startAndMsg_invalid v h1 bs]; exact h1
      · split
        · exact xmlLoop_invalid v bs w1 h1
        · exact h1
  · simp only at h1 hi hlen1
    subst h1
    simp only
    cases xml with
    | true =>
      simp only [Bool.not_true, Bool.false_and, if_neg Bool.false_ne_true, if_true]
      simpa [opText] using xmlLoop_I bs t w1 hi
    | false =>
      simp only [Bool.not_false, Bool.true_and, decide_eq_true_eq, opText, if_neg Bool.false_ne_true]
      by_cases hb : bs.length > bufSize
      · rw [if_pos hb]
        have hbe : w1.buf = [] := by
          rcases hlen1 with h' | h'
          · exact h'
          · omega
        obtain ⟨⟨cs, c1, c2, c3⟩, c4⟩ := hi
        obtain ⟨ok, k', hk, hg⟩ := startAndMsg_goodI (v := v) c2 bs
        rw [hk]
        rcases hg with hg | ⟨rfl, hg⟩
        · exact Or.inl hg
        · refine Or.inr ⟨rfl, ⟨⟨cs ++ [bs], ?_, ?_, ?_⟩, c4⟩⟩
          · intro c hc
            rw [List.mem_append] at hc
            rcases hc with hc | hc
            · exact c1 c hc
            · simp at hc; subst hc
              intro h0; rw [h0] at hb; simp at hb
          · simpa [List.flatMap_append] using hg
          · simp only [hbe, List.append_nil] at c3 ⊢
            simp [← c3]
      · rw [if_neg hb]
        refine Or.inr ⟨rfl, store_I hi bs ?_⟩
        rcases hlen1 with h' | h'
        · rw [h']; simp; omega
        · exact h'

theorem runOps_invalid (v : Version) : ∀ ops w, w.sink.valid = false → (runOps v ops w).2.sink.valid = false := by
  intro ops
  induction ops with
  | nil => intro w h; exact h
  | cons o ops ih =>
    intro w h
    have h1 := clb_invalid v h o.bs o.xml
    unfold runOps
    simp only
    split
    · exact h1
    · exact ih _ h1

theorem runOps_I {v : Version} {wire0 : List Byte} : ∀ ops t w, (∀ o ∈ ops, o.bs.length < 2 ^ 32 - 1024) →
    WInvI v wire0 t w → OkI v wire0 (t ++ text ops) (runOps v ops w) := by
  intro ops
  induction ops with
  | nil => intro t w _ h; exact Or.inr ⟨rfl, by simpa [text, runOps] using h⟩
  | cons o ops ih =>
    intro t w ho h
    have h1 := clb_I h o.bs o.xml (ho o (by simp))
    unfold runOps
    generalize hr : clb v w o.bs o.xml = r at h1
    obtain ⟨ok, w1⟩ := r
    simp only
    rcases h1 with h1 | ⟨h1, hi⟩
    · split
      · exact Or.inl h1
      · exact Or.inl (runOps_invalid v ops _ h1)
    · simp only at h1 hi
      subst h1
      simp only [Bool.not_true, Bool.and_false, if_neg Bool.false_ne_true]
      have := ih _ w1 (fun o' h' => ho o' (by simp [h'])) hi
      simpa [text, opText] using this

theorem sendMsg_I (v : Version) (k k' : Sink) (ops : List Op) (hv : k.valid = true) (hs : AllInv k.script)
    (ho : ∀ o ∈ ops, o.bs.length < 2 ^ 32 - 1024) (h : sendMsg v k ops = (true, k')) :
    ∃ cs : List (List Byte), (∀ c ∈ cs, c ≠ []) ∧ cs.flatten = text ops ∧ k'.wire = k.wire ++ cs.flatMap (encV v) ++ endTag v := by
  have h0 : WInvI v k.wire [] ⟨k, [], 0⟩ := ⟨⟨[], by simp, by simpa using ⟨rfl, hv, hs⟩, rfl⟩, by simp⟩
  have h1 := runOps_I ops [] _ ho h0
  unfold sendMsg at h
  rw [hv] at h
  simp only [Bool.not_true, if_neg Bool.false_ne_true] at h
  generalize hr : runOps v ops ⟨k, [], 0⟩ = r at h1 h
  obtain ⟨ok, w1⟩ := r
  cases ok with
  | false => simp at h
  | true =>
    simp only at h
    rcases h1 with h1 | ⟨-, hi⟩
    · exfalso
      simp only at h1
      have hf := flush_invalid v h1
      unfold clbEnd at h
      generalize flush v w1 = q at hf h
      obtain ⟨ok, w2⟩ := q
      simp only at hf
      cases ok with
      | false => simp [hf] at h
      | true => simp [ncWrite_invalid hf, hf] at h
    · obtain ⟨f1, f2⟩ := flush_I hi
      unfold clbEnd at h
      generalize flush v w1 = q at f1 f2 h
      obtain ⟨ok, w2⟩ := q
      rcases f1 with f1 | ⟨f1, ⟨⟨cs, c1, c2, c3⟩, _⟩⟩
      · exfalso
        simp only at f1
        cases ok with
        | false => simp [f1] at h
        | true => simp [ncWrite_invalid f1, f1] at h
      · simp only at f1 f2 c2 c3
        subst f1
        obtain ⟨ok, k3, e1, e2⟩ := ncWrite_goodI c2 (endTag v)
        simp only [e1] at h
        rcases e2 with e2 | ⟨-, e2⟩
        · simp [e2] at h
        · have hk : k3 = k' := by simpa using congrArg Prod.snd h
          subst hk
          exact ⟨cs, c1, by simpa [f2] using c3, e2.1⟩

end Verif.Writer
