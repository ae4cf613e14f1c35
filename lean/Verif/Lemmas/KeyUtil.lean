import Verif.Spec.KeyUtil
/-
Lemmas about the functions reading keys and certificates.
-/
namespace Verif.KeyUtil
open Verif.KeyUtilSpec

/-! ### Numbers -/

theorem value_append (a : List Nat) (b : Nat) : value (a ++ [b]) = value a * 256 + b := by
  simp [value]

theorem value_mpiBytes (n : Nat) : value (mpiBytes n) = n := by
  induction n using Nat.strongRecOn with
  | _ n ih =>
    rw [mpiBytes]
    split
    · simp_all [value]
    · rw [value_append, ih (n / 256) (by omega)]
      omega

theorem mpiBytes_lt (n : Nat) : ∀ b ∈ mpiBytes n, b < 256 := by
  induction n using Nat.strongRecOn with
  | _ n ih =>
    rw [mpiBytes]
    split
    · simp
    · intro b hb
      rcases List.mem_append.1 hb with h | h
      · exact ih (n / 256) (by omega) b h
      · simp only [List.mem_singleton] at h
        omega

theorem mpiBytes_len (n k : Nat) (h : n < 256 ^ k) : (mpiBytes n).length ≤ k := by
  induction k generalizing n with
  | zero =>
    have : n = 0 := by simpa using h
    subst this
    rw [mpiBytes]
    simp
  | succ k ih =>
    rw [mpiBytes]
    split
    · simp
    · have : n / 256 < 256 ^ k := by
        rw [Nat.div_lt_iff_lt_mul (by decide)]
        rwa [Nat.pow_succ] at h
      have := ih _ this
      simp only [List.length_append, List.length_singleton]
      omega

theorem mpiBytes_head (n : Nat) (h : n ≠ 0) :
    ∃ b bs, mpiBytes n = b :: bs ∧ b ≠ 0 ∧ b < 256 := by
  induction n using Nat.strongRecOn with
  | _ n ih =>
    rw [mpiBytes]
    rw [dif_neg h]
    by_cases h0 : n / 256 = 0
    · rw [h0, mpiBytes]
      exact ⟨n % 256, [], by simp, by omega, by omega⟩
    · obtain ⟨b, bs, hb, h1, h2⟩ := ih (n / 256) (by omega) h0
      exact ⟨b, bs ++ [n % 256], by simp [hb], h1, h2⟩

theorem and_128 (b : Nat) (h : b < 256) : (b &&& 0x80 ≠ 0) ↔ 128 ≤ b := by
  have : ∀ b : Fin 256, (b.val &&& 0x80 ≠ 0) ↔ 128 ≤ b.val := by decide +kernel
  exact this ⟨b, h⟩

theorem value_cons_zero (bs : List Nat) : value (0 :: bs) = value bs := by
  simp [value]

/-- The bytes of a parameter are the mpint of its value. -/
theorem paramToBin_ok (n k : Nat) (h : n ≠ 0) (hk : n < 256 ^ k) :
    ∃ bs, paramToBin n = .ok bs ∧ mpint bs = some (n : Int) ∧ bs.length ≤ k + 1 ∧ ∀ b ∈ bs, b < 256 := by
  obtain ⟨b, bs, hb, h1, h2⟩ := mpiBytes_head n h
  have hlen := mpiBytes_len n k hk
  have hv := value_mpiBytes n
  have hlt := mpiBytes_lt n
  rw [hb] at hlen hv hlt
  simp only [paramToBin, hb]
  by_cases hc : 128 ≤ b
  · rw [if_pos ((and_128 b h2).2 hc)]
    refine ⟨_, rfl, ?_, by simpa using hlen, ?_⟩
    · rw [mpint.eq_def]
      simp only
      rw [if_neg (by omega), if_neg (by omega), if_neg (by omega), value_cons_zero, hv]
    · intro x hx
      rcases List.mem_cons.1 hx with rfl | hx
      · decide
      · exact hlt x hx
  · rw [if_neg (fun h => hc ((and_128 b h2).1 h))]
    refine ⟨_, rfl, ?_, by omega, hlt⟩
    cases bs with
    | nil =>
      rw [mpint.eq_def]
      have : b = n := by simpa [value] using hv
      simp only
      rw [if_neg h1, if_neg hc, this]
    | cons c r =>
      rw [mpint.eq_def]
      simp only
      rw [if_neg (by omega), if_neg (by omega), if_neg hc, hv]

/-! ### Fields -/

theorem takeU32_be32 (n : Nat) (h : n < 2 ^ 32) (r : List Nat) : takeU32 (be32 n ++ r) = some (n, r) := by
  simp only [be32, List.cons_append, List.nil_append, takeU32, Option.some.injEq, Prod.mk.injEq, and_true]
  simp only [value, List.foldl]
  omega

theorem takeStr_field (bs r : List Nat) (h : bs.length < 2 ^ 32) :
    takeStr (field bs ++ r) = some (bs, r) := by
  simp only [takeStr, field, List.append_assoc]
  rw [takeU32_be32 _ h]
  simp

theorem takeStr_field' (bs : List Nat) (h : bs.length < 2 ^ 32) :
    takeStr (field bs) = some (bs, []) := by
  have := takeStr_field bs [] h
  simpa using this

theorem field_lt (bs : List Nat) (h : ∀ b ∈ bs, b < 256) : ∀ b ∈ field bs, b < 256 := by
  intro b hb
  rcases List.mem_append.1 hb with hb | hb
  · simp only [be32, List.mem_cons, List.not_mem_nil, or_false] at hb
    omega
  · exact h b hb

/-! ### Lines and prefixes -/

theorem starts_iff (s p : Text) : starts s p = true ↔ ∃ r, s = p ++ r := by
  simp only [starts, List.isPrefixOf_iff_prefix]
  constructor
  · rintro ⟨r, h⟩
    exact ⟨r, h.symm⟩
  · rintro ⟨r, h⟩
    exact ⟨r, h.symm⟩

theorem lines_line (l r : Text) (h : '\n' ∉ l) : lines (l ++ '\n' :: r) = (l ++ ['\n']) :: lines r := by
  induction l with
  | nil => simp [lines]
  | cons c cs ih =>
    simp only [List.mem_cons, not_or] at h
    rw [List.cons_append, lines, if_neg (Ne.symm h.1), ih h.2]
    rfl

theorem lines_join (f : Text) : (lines f).flatten = f := by
  induction f with
  | nil => rfl
  | cons c cs ih =>
    rw [lines]
    split
    · simp_all
    · split
      · rename_i h
        rw [h] at ih
        simp at ih
        simp [← ih]
      · rename_i l ls h
        rw [h] at ih
        simp only [List.flatten_cons] at ih ⊢
        rw [← ih]
        rfl

/-- The first line starts with a line exactly if the text does. -/
theorem starts_head (f h : Text) (t : List Text) (hl : lines f = h :: t) (q : Text) (hq : '\n' ∉ q) :
    starts h (q ++ ['\n']) = starts f (q ++ ['\n']) := by
  rw [Bool.eq_iff_iff, starts_iff, starts_iff]
  constructor
  · rintro ⟨r, hr⟩
    have := lines_join f
    rw [hl] at this
    refine ⟨r ++ t.flatten, ?_⟩
    rw [← this, List.flatten_cons, hr, List.append_assoc]
  · rintro ⟨r, hr⟩
    have := lines_line q r hq
    rw [hr, show q ++ ['\n'] ++ r = q ++ '\n' :: r by simp, this] at hl
    injection hl with h1 h2
    exact ⟨[], by simp [← h1]⟩

/-! ### PEM -/

theorem cut_pem (h b f : Text) : cut (h ++ b ++ f) h f = .ok b := by
  unfold cut
  rw [if_neg (by simp only [List.length_append]; omega)]
  dsimp only
  rw [if_neg (by simp only [List.length_append]; omega)]
  have : (h ++ b ++ f).length - h.length - f.length = b.length := by
    simp only [List.length_append]
    omega
  rw [this, List.append_assoc, List.drop_left, List.take_left]

/-- Headers and footers of the formats as the code defines them;
/repo/src/server_config_util.h:26-47. -/
def headerOf : Fmt → Text
  | .rsa => rsaHeader
  | .ec => ecHeader
  | .x509 => pkcs8Header
  | .openssh => opensshHeader
  | .unknown => []

/-- See `headerOf`; /repo/src/server_config_util.h:26-47. -/
def footerOf : Fmt → Text
  | .rsa => rsaFooter
  | .ec => ecFooter
  | .x509 => pkcs8Footer
  | .openssh => opensshFooter
  | .unknown => []

theorem header_label (f : Fmt) (h : known f) :
    headerOf f = c!"-----BEGIN " ++ label f ++ c!"-----\n" := by
  cases f <;> first | exact absurd rfl h | decide +kernel

theorem footer_label (f : Fmt) (h : known f) :
    footerOf f = c!"\n-----END " ++ label f ++ c!"-----" ++ ['\n'] := by
  cases f <;> first | exact absurd rfl h | decide +kernel

theorem pem_split (f : Fmt) (h : known f) (body : Text) :
    pem (label f) body ++ ['\n'] = headerOf f ++ body ++ footerOf f := by
  rw [header_label f h, footer_label f h, pem]
  simp only [List.append_assoc]

theorem starts_append (p q r : Text) (h : q.length ≤ p.length) : starts (p ++ r) q = starts p q := by
  rw [Bool.eq_iff_iff, starts_iff, starts_iff]
  constructor
  · rintro ⟨s, hs⟩
    rcases List.append_eq_append_iff.1 hs with ⟨a, ha, hb⟩ | ⟨a, ha, hb⟩
    · have : a = [] := by
        have := congrArg List.length ha
        simp only [List.length_append] at this
        exact List.length_eq_zero_iff.1 (by omega)
      exact ⟨[], by simp [ha, this]⟩
    · exact ⟨a, ha⟩
  · rintro ⟨s, hs⟩
    exact ⟨s ++ r, by simp [hs]⟩

theorem starts_cons (a b : Char) (s p : Text) : starts (a :: s) (b :: p) = (b == a && starts s p) := by
  simp [starts, List.isPrefixOf]

theorem starts_nil (s : Text) : starts s [] = true := by
  simp [starts, List.isPrefixOf]

theorem privkeyFormat_pem (f : Fmt) (h : known f) (r : Text) :
    privkeyFormat (headerOf f ++ r) = some f := by
  cases f
  all_goals first | exact absurd rfl h | simp [privkeyFormat, headerOf, rsaHeader, ecHeader,
    pkcs8Header, opensshHeader, starts_cons, starts_nil]

theorem stripHeaderFooter_pem (f : Fmt) (h : known f) (b : Text) :
    stripHeaderFooter (headerOf f ++ b ++ footerOf f) = .ok b := by
  have hf : ∀ r : Text, (starts (headerOf f ++ r) pkcs8Header = decide (f = .x509)) ∧
      (starts (headerOf f ++ r) opensshHeader = decide (f = .openssh)) ∧
      (starts (headerOf f ++ r) rsaHeader = decide (f = .rsa)) ∧
      (starts (headerOf f ++ r) ecHeader = decide (f = .ec)) := by
    intro r
    cases f
    all_goals first | exact absurd rfl h | simp [headerOf, rsaHeader, ecHeader,
      pkcs8Header, opensshHeader, starts_cons, starts_nil]
  have := hf (b ++ footerOf f)
  rw [← List.append_assoc] at this
  unfold stripHeaderFooter
  rw [this.1, this.2.1, this.2.2.1, this.2.2.2]
  cases f
  · exact cut_pem rsaHeader b rsaFooter
  · exact cut_pem ecHeader b ecFooter
  · exact cut_pem pkcs8Header b pkcs8Footer
  · exact cut_pem opensshHeader b opensshFooter
  · exact absurd rfl h

theorem type_of_identity (f : Fmt) (h : known f) :
    ∃ id, formatToIdentity f = some id ∧ privateKeyType (identName id) = f := by
  cases f <;> first | exact absurd rfl h | exact ⟨_, rfl, by decide +kernel⟩

theorem str_label (f : Fmt) (h : known f) :
    ∃ s, formatToStr f = some s ∧ c!"-----BEGIN" ++ s ++ c!"PRIVATE KEY-----\n" =
      c!"-----BEGIN " ++ label f ++ c!"-----\n" ∧
      c!"\n-----END" ++ s ++ c!"PRIVATE KEY-----" =
      c!"\n-----END " ++ label f ++ c!"-----" := by
  cases f <;> first | exact absurd rfl h | exact ⟨_, rfl, by decide +kernel, by decide +kernel⟩

theorem privkeyPem_label (f : Fmt) (h : known f) (data : Text) :
    privkeyPem data (formatToStr f) = .ok (pem (label f) data) := by
  obtain ⟨s, hs, h1, h2⟩ := str_label f h
  rw [hs, privkeyPem]
  rw [h1]
  have h2' := h2
  simp only [List.append_assoc] at h2' ⊢
  rw [h2', pem]
  simp only [List.append_assoc]

theorem tmpKeyFile_label (f : Fmt) (h : known f) (data : Text) (disk : Nat) :
    tmpKeyFile data (formatToStr f) disk =
      if (pem (label f) data).length ≤ disk then some (pem (label f) data) else none := by
  obtain ⟨s, hs, h1, h2⟩ := str_label f h
  have hp : c!"-----BEGIN" ++ s ++ c!"PRIVATE KEY-----\n" ++ data ++
      c!"\n-----END" ++ s ++ c!"PRIVATE KEY-----" = pem (label f) data := by
    rw [h1]
    have h2' := h2
    simp only [List.append_assoc] at h2' ⊢
    rw [h2', pem]
    simp only [List.append_assoc]
  have hlen : (pem (label f) data).length = 10 + s.length + 17 + data.length + 9 + s.length + 16 := by
    rw [← hp]
    simp only [List.length_append]
    have e1 : c!"-----BEGIN".length = 10 := by decide +kernel
    have e2 : c!"PRIVATE KEY-----\n".length = 17 := by decide +kernel
    have e3 : c!"\n-----END".length = 9 := by decide +kernel
    have e4 : c!"PRIVATE KEY-----".length = 16 := by decide +kernel
    omega
  rw [hs, tmpKeyFile]
  rw [hp, ← hlen, List.length_take]
  by_cases hd : (pem (label f) data).length ≤ disk
  · rw [if_neg (by omega), if_pos hd, List.take_of_length_le hd]
  · rw [if_pos (by omega), if_neg hd]

/-! ### SSH2 public key files -/

theorem ssh2_skip (acc l : Text) (h : starts l c!"----" = true ∨ starts l c!"Comment:" = true) :
    ssh2Line acc l = acc := by
  unfold ssh2Line
  by_cases h1 : starts l c!"----" = true
  · rw [if_pos h1]
  · rw [if_neg h1]
    rcases h with h | h
    · exact absurd h h1
    · rw [if_pos h]

theorem ssh2_body (acc l : Text) (h : ∀ c ∈ l, b64Char c = true) :
    ssh2Line acc (l ++ ['\n']) = acc ++ l := by
  have hd : b64Char '-' = false := by decide +kernel
  have hc : b64Char ':' = false := by decide +kernel
  have hn : b64Char '\n' = false := by decide +kernel
  have key : ∀ (q : Text) (d : Char), d ≠ '\n' → b64Char d = false → starts (l ++ ['\n']) (q ++ [d]) = false := by
    intro q d hdn hb
    rw [Bool.eq_false_iff]
    intro hs
    obtain ⟨r, hr⟩ := (starts_iff _ _).1 hs
    have hm : d ∈ l ++ ['\n'] := by
      rw [hr]
      simp
    rcases List.mem_append.1 hm with hm | hm
    · rw [h d hm] at hb
      exact absurd hb (by decide)
    · exact hdn (by simpa using hm)
  unfold ssh2Line
  have k1 := key c!"---" '-' (by decide) hd
  have k2 := key c!"Comment" ':' (by decide) hc
  rw [show (c!"---" ++ ['-'] : Text) = c!"----" by decide +kernel] at k1
  rw [show (c!"Comment" ++ [':'] : Text) = c!"Comment:" by decide +kernel] at k2
  rw [k1, k2]
  simp

theorem ssh2_bodies (ls : List Text) (acc r : Text)
    (h : ∀ l ∈ ls, l ≠ [] ∧ ∀ c ∈ l, b64Char c = true) :
    (lines ((ls.map (· ++ ['\n'])).flatten ++ r)).foldl ssh2Line acc =
      (lines r).foldl ssh2Line (acc ++ ls.flatten) := by
  induction ls generalizing acc with
  | nil => simp
  | cons l ls ih =>
    have hl := h l (by simp)
    have hn : '\n' ∉ l := by
      intro hm
      have := hl.2 _ hm
      revert this
      decide +kernel
    simp only [List.map_cons, List.flatten_cons, List.append_assoc, List.cons_append, List.nil_append]
    rw [lines_line _ _ hn, List.foldl_cons, ssh2_body _ _ hl.2, ih _ (fun x hx => h x (by simp [hx]))]
    simp only [List.append_assoc]

theorem ssh2_hdrs (hs : List Hdr) (acc r : Text)
    (h : ∀ x ∈ hs, x.tag = c!"Comment" ∧ '\n' ∉ x.first ∧ x.more = []) :
    (lines ((hs.map Hdr.text).flatten ++ r)).foldl ssh2Line acc = (lines r).foldl ssh2Line acc := by
  induction hs with
  | nil => simp
  | cons x hs ih =>
    obtain ⟨h1, h2, h3⟩ := h x (by simp)
    have e : Hdr.text x = (c!"Comment: " ++ x.first) ++ ['\n'] := by
      rw [Hdr.text, h1, h3]
      have : c!"Comment" ++ c!": " = c!"Comment: " := by decide +kernel
      simp only [List.map_nil, List.flatten_nil, List.append_nil]
      rw [this]
    have hn : '\n' ∉ c!"Comment: " ++ x.first := by
      intro hm
      rcases List.mem_append.1 hm with hm | hm
      · revert hm
        decide +kernel
      · exact h2 hm
    simp only [List.map_cons, List.flatten_cons, List.append_assoc]
    rw [e, show ((c!"Comment: " ++ x.first) ++ ['\n']) ++ ((hs.map Hdr.text).flatten ++ r) =
      (c!"Comment: " ++ x.first) ++ '\n' :: ((hs.map Hdr.text).flatten ++ r) by simp only [List.append_assoc, List.cons_append, List.nil_append]]
    rw [lines_line _ _ hn, List.foldl_cons, ssh2_skip, ih (fun y hy => h y (by simp [hy]))]
    right
    rw [starts_iff]
    refine ⟨' ' :: (x.first ++ ['\n']), ?_⟩
    have : c!"Comment: " = c!"Comment:" ++ [' '] := by decide +kernel
    rw [this]
    simp only [List.cons_append, List.nil_append]

end Verif.KeyUtil
