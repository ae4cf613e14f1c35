import Verif.Lemmas.Reader
import Verif.Lemmas.Bytes
import Verif.Spec.Framing

namespace Verif.Reader

open Verif

/-- Small lengths fit. -/
theorem asInt_small {n : Nat} (h : n < 2147483648) : asInt n = n := by unfold asInt; omega

theorem asInt_two {a b : Byte} : ¬ asInt [a, b].length = -1 := by
  rw [asInt_small (by simp only [List.length_cons, List.length_nil]; omega)]; simp only [List.length_cons, List.length_nil]; omega

attribute [local irreducible] asInt

/-! ## Fuel monotonicity and simulation -/

section Sim
variable {σ τ : Type} (rd : Nat → σ → Option (List Byte × σ)) (rd' : Nat → τ → Option (List Byte × τ))
  (abs : σ → τ) (hsim : ∀ n s b s', rd n s = some (b, s') → rd' n (abs s) = some (b, abs s'))
include hsim

theorem readUntil_sim (tag : List Byte) : ∀ F F' buf m s b s', F ≤ F' →
    readUntil rd tag F buf m s = some (b, s') → readUntil rd' tag F' buf m (abs s) = some (b, abs s') := by
  intro F
  induction F with
  | zero => intro F' buf m s b s' _ h; simp [readUntil] at h
  | succ f ih =>
    intro F' buf m s b s' hF h
    obtain ⟨f', rfl⟩ : ∃ f', F' = f' + 1 := ⟨F' - 1, by omega⟩
    unfold readUntil at h ⊢
    split at h
    · cases h
    · rename_i bs s1 hr
      rw [hsim _ _ _ _ hr]
      simp only at h ⊢
      split at h
      · rename_i hm
        rw [if_pos hm]; simp at h; obtain ⟨rfl, rfl⟩ := h; rfl
      · rename_i hm
        rw [if_neg hm]
        exact ih f' _ _ _ _ _ (by omega) h

theorem readChunk_sim (mo mo' : Nat → Bool) (hmo : ∀ n, mo n = true → mo' n = true) (len : Nat) (s : σ) :
    match readChunk rd mo len s with
    | .fail => True
    | .ub => readChunk rd' mo' len (abs s) = .ub
    | .data bs s' => readChunk rd' mo' len (abs s) = .data bs (abs s') := by
  unfold readChunk
  by_cases h1 : mo ((len + 1) % 2 ^ 64) = true
  · have h1' := hmo _ h1
    simp only [h1, h1', Bool.not_true, if_neg Bool.false_ne_true]
    by_cases h2 : len % 2 ^ 32 = 0
    · simp [h2]
    · simp only [if_neg h2]
      by_cases h3 : (len + 1) % 2 ^ 64 < len % 2 ^ 32 + 1
      · simp only [if_pos h3]
        cases hr : rd 1 s with
        | none => trivial
        | some p => obtain ⟨b, s'⟩ := p; simp only [hsim _ _ _ _ hr]
      · simp only [if_neg h3]
        cases hr : rd (len % 2 ^ 32) s with
        | none => trivial
        | some p =>
          obtain ⟨b, s'⟩ := p
          simp only [hsim _ _ _ _ hr]
          by_cases h4 : len % 2 ^ 32 = 2 ^ 32 - 1
          · simp [h4]
          · simp only [if_neg h4]
            by_cases h5 : len ≠ len % 2 ^ 32
            · simp only [if_pos h5]
            · simp only [if_neg h5]
  · have : (mo ((len + 1) % 2 ^ 64)) = false := by simpa using h1
    simp [this]

/-- Abstraction of a result along `abs`. -/
def Res.map {σ τ : Type} (abs : σ → τ) : Res σ → Res τ
  | .msg m s => .msg m (abs s)
  | .fail => .fail
  | .bad => .bad
  | .ub => .ub

theorem readMsg11_sim (mo mo' : Nat → Bool) (hmo : ∀ n, mo n = true → mo' n = true) (F F' : Nat) (hF : F ≤ F') :
    ∀ f f' data s, f ≤ f' → readMsg11 rd mo F f data s ≠ .fail →
      readMsg11 rd' mo' F' f' data (abs s) = (readMsg11 rd mo F f data s).map abs := by
  intro f
  induction f with
  | zero => intro f' data s _ h; simp [readMsg11] at h
  | succ f ih =>
    intro f' data s hf h
    obtain ⟨g, rfl⟩ : ∃ g, f' = g + 1 := ⟨f' - 1, by omega⟩
    unfold readMsg11 at h ⊢
    cases h1 : readUntil rd chunkStart F [] 0 s with
    | none => simp [h1] at h
    | some p =>
      obtain ⟨b1, s1⟩ := p
      rw [h1] at h
      rw [readUntil_sim rd rd' abs hsim _ F F' _ _ _ _ _ hF h1]
      simp only at h ⊢
      by_cases hi1 : asInt b1.length = -1
      · rw [if_pos hi1] at h; exact absurd rfl h
      simp only [if_neg hi1] at h ⊢
      cases h2 : readUntil rd lf F [] 0 s1 with
      | none => simp [h2] at h
      | some p =>
        obtain ⟨hdr, s2⟩ := p
        rw [h2] at h
        rw [readUntil_sim rd rd' abs hsim _ F F' _ _ _ _ _ hF h2]
        simp only at h ⊢
        by_cases hi2 : asInt hdr.length = -1
        · rw [if_pos hi2] at h; exact absurd rfl h
        simp only [if_neg hi2] at h ⊢
        by_cases h3 : cstr hdr = [35, 10]
        · simp only [if_pos h3]
          cases data <;> rfl
        · simp only [if_neg h3] at h ⊢
          by_cases h4 : strtoul hdr = 0
          · simp [h4, Res.map]
          · simp only [if_neg h4] at h ⊢
            have hc := readChunk_sim rd rd' abs hsim mo mo' hmo (strtoul hdr) s2
            cases h5 : readChunk rd mo (strtoul hdr) s2 with
            | fail => simp [h5] at h
            | ub => rw [h5] at hc; simp only at hc; rw [hc]; rfl
            | data bs s3 =>
              rw [h5] at hc h; simp only at hc h
              rw [hc]; simp only
              exact ih g _ _ (by omega) h

theorem readMsg10_sim (F F' : Nat) (hF : F ≤ F') (s : σ) (h : readMsg10 rd F s ≠ .fail) :
    readMsg10 rd' F' (abs s) = (readMsg10 rd F s).map abs := by
  unfold readMsg10 at h ⊢
  cases h1 : readUntil rd endTag10 F [] 0 s with
  | none => simp [h1] at h
  | some p =>
    obtain ⟨b1, s1⟩ := p
    rw [readUntil_sim rd rd' abs hsim _ F F' _ _ _ _ _ hF h1]
    simp only
    by_cases hi1 : asInt b1.length = -1
    · rw [h1] at h; simp only at h; rw [if_pos hi1] at h; exact absurd rfl h
    by_cases hi2 : asInt b1.length < 6
    · rw [if_neg hi1, if_pos hi2, if_neg hi1, if_pos hi2]; rfl
    · rw [if_neg hi1, if_neg hi2, if_neg hi1, if_neg hi2]; rfl

end Sim

/-! ## The read loop delivers a prefix of the stream -/

theorem ncReadLoop_spec (count : Nat) : ∀ sc bytes buf b c', buf.length < count →
    ncReadLoop count sc bytes buf = some (b, c') →
      count - buf.length ≤ bytes.length ∧ b = buf ++ bytes.take (count - buf.length) ∧
      c'.bytes = bytes.drop (count - buf.length) := by
  intro sc
  induction sc with
  | nil => intro bytes buf b c' _ h; simp [ncReadLoop] at h
  | cons e sc ih =>
    intro bytes buf b c' hb h
    cases e with
    | stop => simp [ncReadLoop] at h
    | again => simp only [ncReadLoop] at h; exact ih bytes buf b c' hb h
    | data k =>
      simp only [ncReadLoop] at h
      split at h
      · rename_i hlt
        split at h
        · cases h
        · obtain ⟨h1, h2, h3⟩ := ih [] (buf ++ bytes) b c' (by simp; omega) h
          simp at h1; omega
      · rename_i hlt
        generalize hr : min (k + 1) (count - buf.length) = r at *
        have hrl : r ≤ bytes.length := by omega
        have hl : (buf ++ bytes.take r).length = buf.length + r := by simp; omega
        split at h
        · rename_i hlt2
          obtain ⟨h1, h2, h3⟩ := ih (bytes.drop r) (buf ++ bytes.take r) b c' hlt2 h
          rw [hl] at h1 h2 h3 hlt2
          simp at h1
          refine ⟨by omega, ?_, ?_⟩
          · rw [h2, List.append_assoc]
            congr 1
            have : count - buf.length = r + (count - (buf.length + r)) := by omega
            rw [this, List.take_add]
          · rw [h3, List.drop_drop]; congr 1; omega
        · rename_i hge
          rw [hl] at hge
          have : r = count - buf.length := by omega
          subst this
          simp at h; obtain ⟨rfl, rfl⟩ := h
          exact ⟨hrl, rfl, rfl⟩

theorem ncRead_sim (n : Nat) (c : Chan) (b : List Byte) (c' : Chan) (h : ncRead n c = some (b, c')) :
    readN n c.bytes = some (b, c'.bytes) := by
  unfold ncRead at h
  split at h
  · rename_i h0; subst h0; simp at h; obtain ⟨rfl, rfl⟩ := h; simp [readN]
  · rename_i h0
    obtain ⟨h1, h2, h3⟩ := ncReadLoop_spec n c.script c.bytes [] b c' (by simp; omega) h
    simp at h1 h2 h3
    simp [readN, h1, h2, h3]

/-! ## Well-framed streams are received -/

/-- One chunk of RFC 6242 framing. -/
theorem noOverlap_single (x : Byte) (h : List Byte) (hx : x ∉ h) : NoOverlap [x] h := by
  intro p hp hpre hsuf
  have hlen := hpre.length_le
  obtain ⟨a, as, rfl⟩ := List.exists_cons_of_ne_nil hp
  have : as = [] := by simpa using hlen
  subst this
  simp at hpre
  subst hpre
  exact hx (hsuf.subset (by simp))

theorem readUntil_lf (h rest : List Byte) (hx : 10 ∉ h) (F : Nat) (hF : h.length + 1 < F) :
    readUntil readN lf F [] 0 (h ++ 10 :: rest) = some (h ++ [10], rest) := by
  have := readUntil_top [10] h rest (by simp) (noOverlap_single 10 h hx)
    (fun hi => hx (hi.subset (by simp))) F (by simpa using hF)
  simpa [lf] using this

theorem readUntil_start (rest : List Byte) (F : Nat) (hF : 2 < F) :
    readUntil readN chunkStart F [] 0 (10 :: 35 :: rest) = some ([10, 35], rest) := by
  have := readUntil_top [10, 35] [] rest (by simp)
    (fun p hp _ hs => hp (List.suffix_nil.mp hs)) (by simp) F (by simpa using hF)
  simpa [chunkStart] using this

theorem dec_length (n : Nat) : (dec n).length ≤ n / 10 + 1 := by
  induction n using Nat.strongRecOn with
  | _ n ih =>
    unfold dec
    split
    · simp
    · have := ih (n / 10) (by omega)
      simp only [List.length_append, List.length_cons, List.length_nil]
      omega

theorem readMsg11_chunks (mo : Nat → Bool) (hmo : ∀ n, mo n = true) (cs : List (List Byte)) (rest : List Byte) :
    ∀ F f data, (∀ c ∈ cs, c ≠ [] ∧ c.length < 2 ^ 32 - 1) → (data ≠ none ∨ cs ≠ []) →
      (Spec.frame11 cs).length < F → cs.length < f →
      readMsg11 readN mo F f data (Spec.frame11 cs ++ rest)
        = .msg (cstr (data.getD [] ++ cs.flatten)) rest := by
  induction cs with
  | nil =>
    intro F f data _ hd hF hf
    obtain ⟨f, rfl⟩ : ∃ g, f = g + 1 := ⟨f - 1, by simp at hf; omega⟩
    simp [Spec.frame11] at hF
    unfold readMsg11
    simp only [Spec.frame11, List.flatMap_nil, List.nil_append, List.cons_append]
    rw [readUntil_start _ F (by omega)]
    simp only
    rw [if_neg asInt_two]
    have := readUntil_lf [35] rest (by simp) F (by simp; omega)
    simp only [List.cons_append, List.nil_append] at this
    rw [this]
    simp only
    rw [if_neg asInt_two, if_pos (by decide)]
    cases data with
    | none => simp at hd
    | some d => simp
  | cons c cs ih =>
    intro F f data hc hd hF hf
    obtain ⟨f, rfl⟩ : ∃ g, f = g + 1 := ⟨f - 1, by simp at hf; omega⟩
    obtain ⟨hcne, hclen⟩ := hc c (by simp)
    have hcpos : 0 < c.length := List.length_pos_iff.mpr hcne
    unfold readMsg11
    simp only [Spec.frame11, Spec.chunk, List.flatMap_cons, List.append_assoc, List.cons_append, List.nil_append] at hF ⊢
    simp only [List.length_cons, List.length_append] at hF
    rw [readUntil_start _ F (by omega)]
    simp only
    rw [if_neg asInt_two]
    have hdig := dec_isDigit c.length
    have hno : ∀ x, isDigit x = false → x ∉ dec c.length := by
      intro x hx hm; rw [hdig x hm] at hx; cases hx
    rw [readUntil_lf (dec c.length) _ (hno 10 (by decide)) F (by omega)]
    simp only
    have hdl := dec_length c.length
    have hint : ¬ asInt (dec c.length ++ [10]).length = -1 := by
      rw [asInt_small (by simp only [List.length_append, List.length_cons, List.length_nil]; omega)]
      omega
    rw [if_neg hint]
    have hstr : strtoul (dec c.length ++ [10]) = c.length := strtoul_dec _ (by omega) 10 (by decide) []
    have hne : cstr (dec c.length ++ [10]) ≠ [35, 10] := by
      intro h
      rw [cstr_of_no_nul] at h
      · have : (35 : Nat) ∈ dec c.length := by
          obtain ⟨d, ds, hd⟩ := List.exists_cons_of_ne_nil (dec_ne_nil c.length)
          rw [hd] at h ⊢
          simp at h
          simp [h.1]
        exact hno 35 (by decide) this
      · simp; exact hno 0 (by decide)
    rw [if_neg hne, hstr, if_neg (by omega)]
    have hchunk : ∀ s, readChunk readN mo c.length (c ++ s) = .data c s := by
      intro s
      unfold readChunk
      have e1 : c.length % 2 ^ 32 = c.length := Nat.mod_eq_of_lt (by omega)
      have e2 : (c.length + 1) % 2 ^ 64 = c.length + 1 := Nat.mod_eq_of_lt (by omega)
      rw [e1, e2, hmo]
      simp only [Bool.not_true, if_neg Bool.false_ne_true]
      rw [if_neg (by omega), if_neg (by omega), readN_app _ _ _ rfl]
      simp only
      rw [if_neg (by omega), if_neg (by simp)]
    rw [hchunk]
    simp only
    have := ih F f (some (data.getD [] ++ c)) (fun c' h' => hc c' (by simp [h'])) (by simp)
      (by simp only [Spec.frame11, List.length_append, List.length_cons]; omega)
      (by simpa using hf)
    simp only [Spec.frame11, List.append_assoc, List.cons_append, List.nil_append] at this
    rw [this]
    simp

/-! ## What any accepted or undefined reading looks like -/

theorem matchLoop_eq_len (tag buf : List Byte) (k : Nat) (hk : k < tag.length)
    (h : matchLoop tag buf (tag.length - k) k = tag.length) : tag.drop k = lastN (tag.length - k) buf := by
  rcases matchLoop_first tag buf k hk with ⟨h1, _⟩ | ⟨h1, h2⟩
  · exact h1
  · rw [h2] at h
    have := (matchLoop_zero_spec tag buf _ _ h).1
    omega

theorem matchLoop_suffix (tag buf : List Byte) (k : Nat) (hk : k < tag.length)
    (h : matchLoop tag buf (tag.length - k) k ≠ tag.length) :
    matchLoop tag buf (tag.length - k) k < tag.length ∧
    tag.take (matchLoop tag buf (tag.length - k) k) <:+ buf := by
  rcases matchLoop_first tag buf k hk with ⟨_, h2⟩ | ⟨h1, h2⟩
  · exact absurd h2 h
  · rw [h2]
    obtain ⟨a, b, _⟩ := matchLoop_zero_spec tag buf (tag.length - k - 1) _ rfl
    refine ⟨by omega, ?_⟩
    rcases b with b | b
    · rw [b]; simp
    · rw [b]; exact lastN_suffix _ _

theorem readUntil_consumes (tag : List Byte) : ∀ F buf k s b s', k < tag.length → tag.take k <:+ buf →
    readUntil readN tag F buf k s = some (b, s') → buf ++ s = b ++ s' ∧ tag <:+ b := by
  intro F
  induction F with
  | zero => intro buf k s b s' _ _ h; simp [readUntil] at h
  | succ f ih =>
    intro buf k s b s' hk hs h
    unfold readUntil at h
    unfold readN at h
    split at h
    · cases h
    · rename_i bs s1 hr
      split at hr
      · rename_i hle
        simp at hr; obtain ⟨rfl, rfl⟩ := hr
        simp only at h
        have hll : (s.take (tag.length - k)).length = tag.length - k := by simp; omega
        split at h
        · rename_i hm
          simp at h; obtain ⟨rfl, rfl⟩ := h
          refine ⟨by simp, ?_⟩
          have hd := matchLoop_eq_len tag _ k hk hm
          rw [lastN_append_le _ _ _ (by omega)] at hd
          have : lastN (tag.length - k) (s.take (tag.length - k)) = s.take (tag.length - k) := by
            unfold lastN; rw [hll]; simp
          rw [this] at hd
          obtain ⟨a, rfl⟩ := hs
          exact ⟨a, by rw [← hd]; simp⟩
        · rename_i hm
          obtain ⟨h1, h2⟩ := matchLoop_suffix tag _ k hk hm
          obtain ⟨h3, h4⟩ := ih _ _ _ _ _ h1 h2 h
          exact ⟨by rw [← h3]; simp, h4⟩
      · cases hr

theorem readUntil_lf_inv : ∀ F buf s b s', 10 ∉ buf → readUntil readN lf F buf 0 s = some (b, s') →
    ∃ h, 10 ∉ h ∧ b = h ++ [10] ∧ buf ++ s = h ++ 10 :: s' := by
  intro F
  induction F with
  | zero => intro buf s b s' _ h; simp [readUntil] at h
  | succ f ih =>
    intro buf s b s' hb h
    unfold readUntil at h
    cases s with
    | nil => simp [readN, lf] at h
    | cons x xs =>
      have : readN (lf.length - 0) (x :: xs) = some ([x], xs) := by simp [readN, lf]
      rw [this] at h
      simp only at h
      by_cases hx : x = 10
      · subst hx
        simp [lf, matchLoop] at h
        obtain ⟨rfl, rfl⟩ := h
        exact ⟨buf, hb, rfl, by simp⟩
      · have hx' : ¬ (10 = x) := fun h => hx h.symm
        simp [lf, matchLoop, hx'] at h
        obtain ⟨g, h1, h2, h3⟩ := ih (buf ++ [x]) xs b s' (by simp [hb, hx']) h
        exact ⟨g, h1, h2, by simpa using h3⟩

/-- Shape of a successful chunk read. -/
theorem readChunk_data (mo : Nat → Bool) (len : Nat) (s bs s' : List Byte) (h : readChunk readN mo len s = .data bs s') :
    s = bs ++ s' ∧ bs.length = len ∧ len < 2 ^ 32 - 1 := by
  unfold readChunk at h
  split at h
  · cases h
  · simp only at h
    split at h
    · cases h
    · split at h
      · split at h <;> cases h
      · split at h
        · cases h
        · rename_i b s1 hr
          split at h
          · cases h
          · split at h
            · cases h
            · rename_i h1 h2
              simp at h; obtain ⟨rfl, rfl⟩ := h
              unfold readN at hr
              split at hr
              · simp at hr; obtain ⟨rfl, rfl⟩ := hr
                refine ⟨by simp, by simp; omega, by omega⟩
              · cases hr

theorem readChunk_ub (mo : Nat → Bool) (len : Nat) (s : List Byte) (h : readChunk readN mo len s = .ub) : 2 ^ 32 ≤ len := by
  unfold readChunk at h
  rcases Nat.lt_or_ge len (2 ^ 32) with hlt | hge
  · exfalso
    have e1 : len % 2 ^ 32 = len := Nat.mod_eq_of_lt hlt
    have e2 : (len + 1) % 2 ^ 64 = len + 1 := Nat.mod_eq_of_lt (by omega)
    rw [e1, e2] at h
    split at h
    · cases h
    · simp only at h
      split at h
      · cases h
      · rw [if_neg (by omega)] at h
        split at h
        · cases h
        · split at h
          · cases h
          · simp at h
  · exact hge

end Verif.Reader
