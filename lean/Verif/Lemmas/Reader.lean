import Verif.Model.Reader

namespace Verif.Reader

open Verif

/-- Last `k` elements of a list. -/
def lastN (k : Nat) (l : List Byte) : List Byte := l.drop (l.length - k)

theorem matchLoop_zero_spec (tag buf : List Byte) :
    ∀ i, ∀ r, matchLoop tag buf i 0 = r →
      r ≤ i ∧ (r = 0 ∨ tag.take r = lastN r buf) ∧ ∀ j, r < j → j ≤ i → tag.take j ≠ lastN j buf := by
  intro i
  induction i with
  | zero =>
    intro r h; simp [matchLoop] at h; subst h
    exact ⟨Nat.le_refl _, Or.inl rfl, by intros; omega⟩
  | succ i ih =>
    intro r h
    simp only [matchLoop, List.drop_zero] at h
    split at h
    · rename_i hm
      simp at h; subst h
      exact ⟨by omega, Or.inr hm, by intros; omega⟩
    · rename_i hm
      obtain ⟨h1, h2, h3⟩ := ih r h
      refine ⟨by omega, h2, ?_⟩
      intro j hj hji
      by_cases hji' : j = i + 1
      · subst hji'; exact hm
      · exact h3 j hj (by omega)

theorem matchLoop_first (tag buf : List Byte) (k : Nat) (hk : k < tag.length) :
    (tag.drop k = lastN (tag.length - k) buf ∧ matchLoop tag buf (tag.length - k) k = tag.length) ∨
    (tag.drop k ≠ lastN (tag.length - k) buf ∧
      matchLoop tag buf (tag.length - k) k = matchLoop tag buf (tag.length - k - 1) 0) := by
  obtain ⟨L, hL⟩ : ∃ L, tag.length - k = L + 1 := ⟨tag.length - k - 1, by omega⟩
  have ht : (tag.drop k).take (L + 1) = tag.drop k := by
    rw [List.take_of_length_le]; simp; omega
  rw [hL]
  simp only [matchLoop, ht, lastN]
  by_cases h : tag.drop k = buf.drop (buf.length - (L + 1))
  · left; rw [if_pos h]; exact ⟨h, by omega⟩
  · right; rw [if_neg h]; exact ⟨h, by simp⟩

theorem lastN_append_le (a b : List Byte) (k : Nat) (h : k ≤ b.length) : lastN k (a ++ b) = lastN k b := by
  unfold lastN
  rw [List.drop_append]
  have : a.drop ((a ++ b).length - k) = [] := by simp; omega
  rw [this]; simp; congr 1; omega

theorem lastN_append_ge (a b : List Byte) (k : Nat) (h : b.length ≤ k) :
    lastN k (a ++ b) = lastN (k - b.length) a ++ b := by
  unfold lastN
  rw [List.drop_append]
  have h1 : (a ++ b).length - k - a.length = 0 := by simp; omega
  rw [h1]; simp; congr 1; omega

theorem lastN_suffix (k : Nat) (l : List Byte) : lastN k l <:+ l := List.drop_suffix _ _

theorem lastN_length (k : Nat) (l : List Byte) (h : k ≤ l.length) : (lastN k l).length = k := by
  simp [lastN]; omega

theorem lastN_eq_of_suffix {p l : List Byte} (h : p <:+ l) : lastN p.length l = p := by
  obtain ⟨a, rfl⟩ := h
  rw [lastN_append_le _ _ _ (Nat.le_refl _)]; simp [lastN]

/-- No nonempty prefix of the tag is a suffix of `m`. -/
def NoOverlap (tag m : List Byte) : Prop := ∀ p, p ≠ [] → p <+: tag → ¬ p <:+ m

theorem readN_app (n : Nat) (a b : List Byte) (h : a.length = n) : readN n (a ++ b) = some (a, b) := by
  subst h; simp [readN]

theorem take_ne_nil {l : List Byte} {n : Nat} (h : 0 < n) (hl : 0 < l.length) : l.take n ≠ [] := by
  intro hc; have := congrArg List.length hc; simp only [List.length_take, List.length_nil] at this; omega

/-- `nc_read_until` finds the tag exactly at the end of `m`. -/
theorem readUntil_spec (tag m rest : List Byte) (hov : NoOverlap tag m) (hin : ¬ tag <:+: m) :
    ∀ fuel n k, k < tag.length →
      tag.take k <:+ (m ++ tag ++ rest).take n →
      (n ≤ m.length ∨ n = m.length + k) →
      m.length + tag.length - n < fuel →
      readUntil readN tag fuel ((m ++ tag ++ rest).take n) k ((m ++ tag ++ rest).drop n) = some (m ++ tag, rest) := by
  intro fuel
  induction fuel with
  | zero => intros; omega
  | succ f ih =>
    intro n k hk hsuf hpos hf
    have hn' : n + (tag.length - k) ≤ m.length + tag.length := by omega
    generalize hfull : m ++ tag ++ rest = full at *
    have hfl : full.length = m.length + tag.length + rest.length := by rw [← hfull]; simp; omega
    unfold readUntil
    have hrd : readN (tag.length - k) (full.drop n) =
        some ((full.drop n).take (tag.length - k), full.drop (n + (tag.length - k))) := by
      unfold readN
      rw [if_pos (by simp; omega), List.drop_drop]
    rw [hrd]
    simp only
    have hbuf : full.take n ++ (full.drop n).take (tag.length - k) = full.take (n + (tag.length - k)) := by
      rw [← List.take_add]
    rw [hbuf]
    generalize hL : tag.length - k = L at *
    -- description of the new buffer
    have hbufIn : ∀ j, n + L = m.length + j → j ≤ tag.length → full.take (n + L) = m ++ tag.take j := by
      intro j hj hjt
      rw [hj, ← hfull, List.append_assoc, List.take_append, List.take_of_length_le (by omega)]
      simp only [Nat.add_sub_cancel_left]
      rw [List.take_append_of_le_length hjt]
    have hbufM : n + L ≤ m.length → full.take (n + L) <+: m := by
      intro h
      rw [← hfull, List.append_assoc, List.take_append_of_le_length h]
      exact List.take_prefix _ _
    have hblen : (full.take (n + L)).length = n + L := by simp; omega
    -- the full tag is a suffix of the buffer when the first comparison succeeds
    have hfullmatch : tag.drop k = lastN L (full.take (n + L)) → tag <:+ full.take (n + L) := by
      intro h
      have hsp : full.take (n + L) = full.take n ++ (full.drop n).take L := hbuf.symm
      have hll : ((full.drop n).take L).length = L := by simp; omega
      rw [hsp, lastN_append_le _ _ _ (by omega)] at h
      have : lastN L ((full.drop n).take L) = (full.drop n).take L := by
        unfold lastN; rw [hll]; simp
      rw [this] at h
      obtain ⟨a, ha⟩ := hsuf
      refine ⟨a, ?_⟩
      rw [hsp, ← ha, ← h]; simp
    rcases matchLoop_first tag (full.take (n + L)) k hk with ⟨hm, hr⟩ | ⟨hm, hr⟩
    · rw [hL] at hr hm
      rw [hr, if_pos rfl]
      have hsf := hfullmatch hm
      rcases Nat.lt_or_ge m.length (n + L) with hgt | hle
      · obtain ⟨j, hj⟩ : ∃ j, n + L = m.length + j := ⟨n + L - m.length, by omega⟩
        have hjt : j ≤ tag.length := by omega
        by_cases hje : j = tag.length
        · rw [hbufIn j hj hjt, hj, hje]
          simp
          rw [← hfull]; simp
        · exfalso
          rw [hbufIn j hj hjt] at hsf
          have h1 := lastN_eq_of_suffix hsf
          rw [lastN_append_ge _ _ _ (by simp; omega)] at h1
          have h2 : tag.take (tag.length - (tag.take j).length) =
              lastN (tag.length - (tag.take j).length) m := by
            have hh := congrArg (List.take (tag.length - (tag.take j).length)) h1
            rw [List.take_append_of_le_length, List.take_of_length_le] at hh
            · exact hh.symm
            · simp [lastN]; omega
            · have hx := congrArg List.length h1
              simp only [List.length_append] at hx
              omega
          have h3 : (tag.take j).length = j := by simp; omega
          refine hov (tag.take (tag.length - (tag.take j).length)) ?_ (List.take_prefix _ _) ?_
          · rw [h3]; exact take_ne_nil (by omega) (by omega)
          · rw [h2]; exact lastN_suffix _ _
      · exfalso
        exact hin (hsf.isInfix.trans (hbufM hle).isInfix)
    · rw [hL] at hr hm
      obtain ⟨hle, hp, hmax⟩ := matchLoop_zero_spec tag (full.take (n + L)) (L - 1) _ hr.symm
      generalize matchLoop tag (full.take (n + L)) L k = r at *
      have hrt : r < tag.length := by omega
      rw [if_neg (by omega)]
      have hsuf' : tag.take r <:+ full.take (n + L) := by
        rcases hp with h0 | h
        · subst h0; simp
        · rw [h]; exact lastN_suffix _ _
      rcases Nat.lt_or_ge m.length (n + L) with hgt | hle2
      · obtain ⟨j, hj⟩ : ∃ j, n + L = m.length + j := ⟨n + L - m.length, by omega⟩
        have hjt : j ≤ tag.length := by omega
        have hB := hbufIn j hj hjt
        rcases hpos with hnm | hnk'
        · -- started inside m
          by_cases hnm' : n = m.length
          · -- then k = 0 and the first comparison would have succeeded
            exfalso
            have hk0 : k = 0 := by
              by_cases hk0 : k = 0
              · exact hk0
              · exfalso
                refine hov (tag.take k) (take_ne_nil (by omega) (by omega)) (List.take_prefix _ _) ?_
                have : full.take n = m := by
                  rw [← hfull, hnm', List.append_assoc, List.take_append_of_le_length (Nat.le_refl _)]; simp
                rwa [this] at hsuf
            have hje : j = tag.length := by omega
            apply hm
            rw [hB, hk0, hje, lastN_append_le _ _ _ (by simp; omega)]
            have : L = tag.length := by omega
            simp [lastN, this]
          · have hjL : j < L := by omega
            have hjr : r = j := by
              have h3 : (tag.take j).length = j := by simp; omega
              rcases Nat.lt_trichotomy r j with h | h | h
              · exfalso
                apply hmax j h (by omega)
                rw [hB, lastN_append_le _ _ _ (by omega)]
                simp [lastN, h3]
              · exact h
              · exfalso
                rcases hp with h0 | hp
                · omega
                rw [hB, lastN_append_ge _ _ _ (by omega), h3] at hp
                have hrl : (tag.take r).length = r := by simp; omega
                have hlm : (lastN (r - j) m).length = r - j := by
                  have := congrArg List.length hp
                  simp only [List.length_append] at this
                  omega
                have h2 : tag.take (r - j) = lastN (r - j) m := by
                  have hh := congrArg (List.take (r - j)) hp
                  rw [List.take_take, List.take_append_of_le_length (by omega), Nat.min_eq_left (by omega)] at hh
                  rw [hh, List.take_of_length_le (by omega)]
                refine hov (tag.take (r - j)) (take_ne_nil (by omega) (by omega)) (List.take_prefix _ _) ?_
                rw [h2]; exact lastN_suffix _ _
            subst hjr
            exact ih (n + L) r hrt hsuf' (Or.inr hj) (by omega)
        · exfalso
          have hje : j = tag.length := by omega
          apply hm
          rw [hB, hje, List.take_length, lastN_append_le _ _ _ (by omega)]
          simp only [lastN]; congr 1; omega
      · exact ih (n + L) r hrt hsuf' (Or.inl hle2) (by omega)

theorem readUntil_top (tag m rest : List Byte) (ht : tag ≠ []) (hov : NoOverlap tag m) (hin : ¬ tag <:+: m)
    (fuel : Nat) (hf : m.length + tag.length < fuel) :
    readUntil readN tag fuel [] 0 (m ++ tag ++ rest) = some (m ++ tag, rest) := by
  have := readUntil_spec tag m rest hov hin fuel 0 0 (List.length_pos_iff.mpr ht) (by simp) (by omega)
    (by omega)
  simpa using this

end Verif.Reader
