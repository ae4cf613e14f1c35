import Verif.Lemmas.AlgList

namespace Verif.Props

open Verif.AlgList

/-! ## C29, C57, C58: algorithm lists -/

/-- The list as a C string, NULL before anything was configured. -/
def asString (d : Char) : List Text → Option Text
  | [] => none
  | l => some ([d].intercalate l)

/-- An algorithm name: not empty and without the delimiter. -/
def IsName (d : Char) (x : Text) : Prop := x ≠ [] ∧ d ∉ x

/-- The libssh name of an algorithm identity: names of OpenSSH and libssh carry the domain behind, the others are used as they are. -/
inductive LibsshName : Text → Text → Prop where
  | openssh (n : Text) : LibsshName ("openssh-".toList ++ n) (n ++ "@openssh.com".toList)
  | libssh (n : Text) : LibsshName ("libssh-".toList ++ n) (n ++ "@libssh.org".toList)
  | plain (n : Text) : ¬ "openssh-".toList <+: n → ¬ "libssh-".toList <+: n → LibsshName n n

theorem algName_spec {a n : Text} (h : LibsshName a n) : algName a = n := by
  cases h with
  | openssh n =>
    unfold algName
    rw [if_pos (List.isPrefixOf_iff_prefix.mpr (List.prefix_append _ _))]
    simp
  | libssh n =>
    unfold algName
    rw [if_neg, if_pos (List.isPrefixOf_iff_prefix.mpr (List.prefix_append _ _))]
    · simp
    · rw [List.isPrefixOf_iff_prefix]
      rintro ⟨t, ht⟩
      simp at ht
  | plain n h1 h2 =>
    unfold algName
    rw [if_neg (by rwa [List.isPrefixOf_iff_prefix]), if_neg (by rwa [List.isPrefixOf_iff_prefix])]

/-- Every identity has a name. -/
theorem libsshName_total (a : Text) : ∃ n, LibsshName a n := by
  by_cases h1 : "openssh-".toList <+: a
  · obtain ⟨t, rfl⟩ := h1; exact ⟨_, .openssh t⟩
  · by_cases h2 : "libssh-".toList <+: a
    · obtain ⟨t, rfl⟩ := h2; exact ⟨_, .libssh t⟩
    · exact ⟨a, .plain a h1 h2⟩

/-- C29, additions: adding algorithms one after the other gives the list of their libssh names in that order. -/
theorem algorithms_added_partial (names : List Text) (a n : Text) (hn : LibsshName a n) :
    transportParams (asString ',' names) a true = .ok ([','].intercalate (names ++ [n])) := by
  rw [← algName_spec hn]
  cases names with
  | nil => simp [transportParams, asString, append, List.intercalate]
  | cons b l =>
    have h1 : asString ',' (b :: l) = some ([','].intercalate (b :: l)) := rfl
    simp only [transportParams, h1, if_true, append]
    rw [intercalate_snoc]
    obtain ⟨m, z, h2⟩ := exists_snoc (l := b :: l) (by simp)
    rw [h2, intercalate_snoc]
    simp

example : transportParams (asString ',' [algName "aes128-ctr".toList]) "openssh-aes256-gcm".toList true = .ok "aes128-ctr,aes256-gcm@openssh.com".toList := by decide +kernel

/-- C29, deletions, the part that holds: deleting the last one of at least two algorithms, if its name is not a prefix of the first one, occurs once
and is not one repeated character, leaves exactly the others. Missing: any other deletion, see `algorithm_delete_false`, `algorithm_delete_only_false`
and `algorithm_delete_prefix_false`. Full statement: `∀ m l x, (∀ e ∈ m ++ x :: l, IsName d e) → x ∉ m ++ l → deleteSubstring (asString d (m ++ x :: l)) x d =
.ok ((asString d (m ++ l)).getD [])`. -/
theorem algorithm_delete_partial (d : Char) (m : List Text) (x : Text) (hm : m ≠ []) (hn : ∀ e ∈ m, IsName d e) (hx : IsName d x) (hv : Varied x) (hx' : x ∉ m)
    (hp : ∀ e ∈ m.head?, ¬ x <+: e) :
    deleteSubstring (asString d (m ++ [x])) x d = .ok ([d].intercalate m) := by
  have h1 : asString d (m ++ [x]) = some ([d].intercalate (m ++ [x])) := by cases m <;> rfl
  rw [h1, intercalate_snoc, deleteSubstring, scan_many hx.2 hx.1 hv x m [] true
    (fun e he => ⟨(hn e he).1, (hn e he).2, fun h => hx' (h ▸ he)⟩) (fun _ => hp), if_neg hm]
  obtain ⟨m', z, h2⟩ := exists_snoc hm
  have h3 : (m.flatMap (· ++ [d])).reverse ++ [] = d :: ([d].intercalate m).reverse := by
    rw [h2, intercalate_snoc]; simp
  rw [h3]
  obtain ⟨c, y, rfl⟩ : ∃ c y, x = c :: y := by cases x with | nil => exact absurd rfl hx.1 | cons c y => exact ⟨c, y, rfl⟩
  rw [scan]
  simp

example : deleteSubstring (asString ',' ["aes128-ctr".toList, "aes256-ctr".toList, "aes192-ctr".toList]) "aes192-ctr".toList ',' = .ok "aes128-ctr,aes256-ctr".toList := by
  decide +kernel

/-- Deleting an algorithm that was not configured is refused (unless it is a prefix of the first one). -/
theorem algorithm_delete_missing (d : Char) (l : List Text) (x : Text) (hl : l ≠ []) (hn : ∀ e ∈ l, IsName d e) (hx : IsName d x) (hv : Varied x) (hx' : x ∉ l)
    (hp : ∀ e ∈ l.head?, ¬ x <+: e) : deleteSubstring (asString d l) x d = .err := by
  have h1 : asString d l = some ([d].intercalate l) := by cases l with | nil => exact absurd rfl hl | cons _ _ => rfl
  obtain ⟨m, z, rfl⟩ := exists_snoc hl
  rw [h1, intercalate_snoc, deleteSubstring, scan_many hx.2 hx.1 hv _ m [] true]
  · apply scan_elem_end hv _ _ (hn z (by simp)).2 (fun h => hx' (by simp [h]))
    intro h
    have hd : m = [] := by
      cases m with
      | nil => rfl
      | cons e r => simp at h
    subst hd
    exact hp z (by simp)
  · intro e he
    have hel : e ∈ m ++ [z] := List.mem_append_left _ he
    exact ⟨(hn e hel).1, (hn e hel).2, fun h => hx' (h ▸ hel)⟩
  · intro _ e he
    apply hp
    rw [List.head?_append]
    simp [Option.mem_def.mp he]

example : deleteSubstring (asString ',' ["aes128-ctr".toList, "aes256-ctr".toList]) "aes192-ctr".toList ',' = .err := by decide +kernel

/-- C29 is false for every deletion of an algorithm that is not the last one: after the remaining list the string still ends in the last `|x| + 1` characters of the
old one (the terminator is not moved), so the result is never the list of the others. -/
theorem algorithm_delete_false (d : Char) (m : List Text) (x y : Text) (l : List Text) (hn : ∀ e ∈ m, IsName d e) (hx : IsName d x) (hv : Varied x) (hx' : x ∉ m)
    (hp : ∀ e ∈ m.head?, ¬ x <+: e) :
    ∃ garbage, garbage.length = x.length + 1 ∧ garbage <:+ [d].intercalate (m ++ x :: y :: l) ∧
      deleteSubstring (asString d (m ++ x :: y :: l)) x d = .ok ([d].intercalate (m ++ y :: l) ++ garbage) := by
  have h1 : asString d (m ++ x :: y :: l) = some ([d].intercalate (m ++ x :: y :: l)) := by cases m <;> rfl
  rw [h1, intercalate_mid, intercalate_append, deleteSubstring, scan_many hx.2 hx.1 hv _ m [] true
    (fun e he => ⟨(hn e he).1, (hn e he).2, fun h => hx' (h ▸ he)⟩) (fun _ => hp)]
  generalize [d].intercalate (y :: l) = rest
  refine ⟨(x ++ d :: rest).drop rest.length, ?_, ?_, ?_⟩
  · simp; omega
  · exact (List.drop_suffix _ _).trans (List.suffix_append _ _)
  · obtain ⟨c, x', rfl⟩ : ∃ c y, x = c :: y := by cases x with | nil => exact absurd rfl hx.1 | cons c y => exact ⟨c, y, rfl⟩
    rw [List.cons_append, scan, if_pos (by rw [List.isPrefixOf_iff_prefix]; exact ⟨d :: rest, rfl⟩)]
    have h3 : (c :: (x' ++ d :: rest))[(c :: x').length]? = some d := by simp
    have h4 : (if m = [] then true else false) = true ∨ ((m.flatMap (· ++ [d])).reverse ++ []).head? = some d := by
      by_cases hm : m = []
      · simp [hm]
      · right
        obtain ⟨m', z, h2⟩ := exists_snoc hm
        rw [h2]; simp
    simp only [h3]
    rw [if_pos ⟨trivial, h4⟩]
    have h5 : (c :: (x' ++ d :: rest)).drop ((c :: x').length + 1) = rest := by
      have : (c :: (x' ++ d :: rest)) = (c :: x') ++ d :: rest := rfl
      rw [this, List.drop_length_add_append]
      simp
    rw [h5]
    simp

/-- Deleting `aes256-ctr` before `3des-cbc` leaves an algorithm nobody configured. -/
example : deleteSubstring (asString ',' ["aes256-ctr".toList, "3des-cbc".toList]) "aes256-ctr".toList ',' = .ok "3des-cbctr,3des-cbc".toList := by decide +kernel

/-- C29 is false in particular because an algorithm can survive its deletion: deleting the first of two where the second name is a prefix of the first
leaves the list unchanged and reports success. -/
theorem algorithm_delete_no_effect_false (d : Char) (x y : Text) (hx : IsName d x) (hy : y <+: x) (hv : Varied x) :
    deleteSubstring (asString d [x, y]) x d = .ok ([d].intercalate [x, y]) := by
  obtain ⟨g, hg1, ⟨pre, hg2⟩, h⟩ := algorithm_delete_false d [] x y [] (by simp) hx hv (by simp) (by simp)
  rw [List.nil_append] at h hg2
  rw [h]
  obtain ⟨t, rfl⟩ := hy
  simp only [List.nil_append, List.intercalate, List.intersperse, List.flatten_cons, List.flatten_nil, List.append_nil] at hg2 ⊢
  have hlen := congrArg List.length hg2
  simp at hlen hg1
  have hpl : pre.length = y.length := by omega
  have : pre = y := by
    have := congrArg (List.take y.length) hg2
    rw [List.take_left' hpl] at this
    simpa [List.append_assoc] using this
  rw [← hg2, this]

/-- The MAC with encrypt-then-MAC stays enabled after it was deleted from the configuration. -/
example : transportParams (asString ',' ["hmac-sha2-256-etm@openssh.com".toList, "hmac-sha2-256".toList]) "openssh-hmac-sha2-256-etm".toList false =
    .ok "hmac-sha2-256-etm@openssh.com,hmac-sha2-256".toList := by decide +kernel

/-- C29 is false: deleting the only algorithm reads before the start of the string. -/
theorem algorithm_delete_only_false (d : Char) (x : Text) (hx : IsName d x) : deleteSubstring (asString d [x]) x d = .ub := by
  obtain ⟨c, y, rfl⟩ : ∃ c y, x = c :: y := by cases x with | nil => exact absurd rfl hx.1 | cons c y => exact ⟨c, y, rfl⟩
  simp [deleteSubstring, asString, List.intercalate, scan]

example : deleteSubstring (asString ',' ["aes128-ctr".toList]) "aes128-ctr".toList ',' = .ub := by decide +kernel

/-- C29 is false: so does deleting an algorithm whose name is a proper prefix of the first one. -/
theorem algorithm_delete_prefix_false (d : Char) (x e : Text) (l : List Text) (hx : IsName d x) (he : IsName d e) (hp : x <+: e) (hne : e ≠ x) :
    deleteSubstring (asString d (e :: l)) x d = .ub := by
  obtain ⟨c, y, rfl⟩ : ∃ c y, x = c :: y := by cases x with | nil => exact absurd rfl hx.1 | cons c y => exact ⟨c, y, rfl⟩
  obtain ⟨t, rfl⟩ := hp
  obtain ⟨b, t, rfl⟩ : ∃ b t', t = b :: t' := by cases t with | nil => simp at hne | cons b t => exact ⟨b, t, rfl⟩
  have hb : b ≠ d := by
    intro h; exact he.2 (by simp [h])
  obtain ⟨r, hr⟩ : ∃ r, [d].intercalate ((c :: y ++ b :: t) :: l) = c :: (y ++ b :: r) := by
    cases l with
    | nil => exact ⟨t, by simp [List.intercalate]⟩
    | cons z l => exact ⟨t ++ d :: [d].intercalate (z :: l), by simp [List.intercalate]⟩
  have h1 : asString d ((c :: y ++ b :: t) :: l) = some (c :: (y ++ b :: r)) := by rw [← hr]; rfl
  rw [h1, deleteSubstring, scan, if_pos (by rw [List.isPrefixOf_iff_prefix]; exact ⟨b :: r, rfl⟩)]
  have h3 : (c :: (y ++ b :: r))[(c :: y).length]? = some b := by simp
  simp only [h3, if_true]
  rw [if_neg (by simp [hb])]

example : deleteSubstring (asString ',' ["hmac-sha2-256-etm@openssh.com".toList, "hmac-sha2-256".toList]) "hmac-sha2-256".toList ',' = .ub := by decide +kernel

theorem upper_ne_dash (c : Char) : (if c = '-' then '_' else upper c) ≠ '-' := by
  split
  · decide
  · rename_i h
    unfold upper
    split
    · rename_i hc
      intro he
      obtain ⟨h1, h2⟩ := hc
      have e1 : 97 ≤ c.toNat := h1
      have e2 : c.toNat ≤ 122 := h2
      have hall : ∀ n < 123, 97 ≤ n → Char.ofNat (n - 32) ≠ '-' := by decide
      exact hall c.toNat (by omega) e1 he
    · exact h

theorem scan_not_found {x : Text} {d : Char} : ∀ (h pre : Text) (first : Bool), (∀ k, ¬ x <+: h.drop k) → scan x d pre h first = .err := by
  intro h
  induction h with
  | nil => intro pre first _; rw [scan]
  | cons c h ih =>
    intro pre first hk
    rw [scan, if_neg]
    · exact ih _ _ (fun k => hk (k + 1))
    · rw [List.isPrefixOf_iff_prefix]; exact hk 0

/-- C29 is false for TLS: no configured cipher suite whose name contains `-` (all of them do) can ever be deleted, because the stored names have `_` instead. -/
theorem cipher_delete_false (ciphers : List Text) (a : Text) (hc : ciphers ≠ []) (ha : '-' ∈ a) :
    cipherSuite (asString ':' (ciphers.map opensslName)) a false = .err := by
  have h1 : asString ':' (ciphers.map opensslName) = some ([':'].intercalate (ciphers.map opensslName)) := by
    cases ciphers with | nil => exact absurd rfl hc | cons _ _ => rfl
  have h2 : ∀ l : List Text, '-' ∉ [':'].intercalate (l.map opensslName) := by
    intro l
    induction l with
    | nil => simp [List.intercalate]
    | cons b l ih =>
      have hb : '-' ∉ opensslName b := by
        unfold opensslName
        intro hm
        obtain ⟨c, _, hc⟩ := List.mem_map.mp hm
        exact upper_ne_dash c hc
      cases l with
      | nil => simpa [List.intercalate] using hb
      | cons e l =>
        simp only [List.intercalate, List.map_cons, List.intersperse, List.flatten_cons, List.mem_append] at ih ⊢
        rintro (h | h | h)
        · exact hb h
        · simp at h
        · exact ih h
  rw [cipherSuite, h1]
  simp only [Bool.false_eq_true, if_false, deleteSubstring]
  apply scan_not_found
  intro k hk
  exact h2 ciphers (List.drop_subset _ _ (hk.subset ha))

example : cipherSuite (asString ':' ["TLS_AES_128_GCM_SHA256".toList, "TLS_AES_256_GCM_SHA384".toList]) "tls-aes-256-gcm-sha384".toList false = .err := by decide +kernel

/-- Corresponding characters of a cipher suite identity and of the name in OpenSSL. -/
def OpensslChar (c d : Char) : Prop :=
  (c = '-' ∧ d = '_') ∨ (∃ k < 26, c = Char.ofNat (97 + k) ∧ d = Char.ofNat (65 + k)) ∨ (c ≠ '-' ∧ (c < 'a' ∨ 'z' < c) ∧ d = c)

theorem openssl_char (c d : Char) (h : OpensslChar c d) : (if c = '-' then '_' else upper c) = d := by
  rcases h with ⟨rfl, rfl⟩ | ⟨k, hk, rfl, rfl⟩ | ⟨h1, h2, rfl⟩
  · rfl
  · revert hk
    revert k
    decide
  · rw [if_neg h1]
    unfold upper
    rw [if_neg]
    rintro ⟨h3, h4⟩
    rcases h2 with h2 | h2
    · exact absurd h3 (Char.not_le.mpr h2)
    · exact absurd h4 (Char.not_le.mpr h2)

theorem openssl_name : ∀ a n : Text, a.length = n.length → (∀ p ∈ a.zip n, OpensslChar p.1 p.2) → opensslName a = n := by
  intro a
  induction a with
  | nil => intro n h _; cases n with | nil => rfl | cons _ _ => simp at h
  | cons c a ih =>
    intro n hl h
    cases n with
    | nil => simp at hl
    | cons d n =>
      have h1 := openssl_char c d (h (c, d) (by simp))
      have h2 := ih n (by simpa using hl) (fun p hp => h p (by simp [hp]))
      unfold opensslName at h2 ⊢
      rw [List.map_cons, h1, h2]

/-- C57: with OpenSSL the configured suites are given to the library in order, under names with upper case letters and `_` for `-`. -/
theorem cipher_added (names : List Text) (a n : Text) (hl : a.length = n.length) (hn : ∀ p ∈ a.zip n, OpensslChar p.1 p.2) :
    cipherSuite (asString ':' names) a true = .ok ([':'].intercalate (names ++ [n])) := by
  rw [← openssl_name a n hl hn]
  cases names with
  | nil => simp [cipherSuite, asString, append, List.intercalate]
  | cons b l =>
    have h1 : asString ':' (b :: l) = some ([':'].intercalate (b :: l)) := rfl
    simp only [cipherSuite, h1, if_true, append]
    rw [intercalate_snoc]
    obtain ⟨m, z, h2⟩ := exists_snoc (l := b :: l) (by simp)
    rw [h2, intercalate_snoc]
    simp

example : cipherSuite (asString ':' ["TLS_AES_128_GCM_SHA256".toList]) "tls-chacha20-poly1305-sha256".toList true =
    .ok "TLS_AES_128_GCM_SHA256:TLS_CHACHA20_POLY1305_SHA256".toList := by decide +kernel

/-- Corresponding characters of a cipher suite identity and of the name in mbedTLS. -/
def MbedtlsChar (c d : Char) : Prop := (∃ k < 26, c = Char.ofNat (97 + k) ∧ d = Char.ofNat (65 + k)) ∨ ((c < 'a' ∨ 'z' < c) ∧ d = c)

theorem mbedtls_char (c d : Char) (h : MbedtlsChar c d) : upper c = d := by
  rcases h with ⟨k, hk, rfl, rfl⟩ | ⟨h2, rfl⟩
  · revert hk
    revert k
    decide
  · unfold upper
    rw [if_neg]
    rintro ⟨h3, h4⟩
    rcases h2 with h2 | h2
    · exact absurd h3 (Char.not_le.mpr h2)
    · exact absurd h4 (Char.not_le.mpr h2)

theorem mbedtls_chars : ∀ a n : Text, a.length = n.length → (∀ p ∈ a.zip n, MbedtlsChar p.1 p.2) → a.map upper = n := by
  intro a
  induction a with
  | nil => intro n h _; cases n with | nil => rfl | cons _ _ => simp at h
  | cons c a ih =>
    intro n hl h
    cases n with
    | nil => simp at hl
    | cons d n => rw [List.map_cons, mbedtls_char c d (h (c, d) (by simp)), ih n (by simpa using hl) (fun p hp => h p (by simp [hp]))]

/-- C57 with mbedTLS: the name of a suite before TLS 1.3 is the identity in upper case, which is the library's name. Missing: suites of TLS 1.3
(`cipher_name_mbedtls_false`). -/
theorem cipher_name_mbedtls_partial (a n : Text) (h13 : a ∉ tls13) (hl : a.length = n.length) (hn : ∀ p ∈ a.zip n, MbedtlsChar p.1 p.2) : mbedtlsName a = n := by
  unfold mbedtlsName
  rw [if_neg h13, mbedtls_chars a n hl hn]

/-- C57 is false with mbedTLS: the suites of TLS 1.3 get these names, without the prefix `TLS1-3-` that the library's names of such suites have. -/
theorem cipher_name_mbedtls_false : (∀ a ∈ tls13, ¬ "TLS1-3-".toList <+: mbedtlsName a) ∧
    ["tls-aes-256-gcm-sha384", "tls-aes-128-gcm-sha256", "tls-chacha20-poly1305-sha256", "tls-aes-128-ccm-sha256", "tls-aes-128-ccm-8-sha256"].map
      (fun a => mbedtlsName a.toList) =
    ["AES-256-GCM-SHA384".toList, "AES-128-GCM-SHA256".toList, "CHACHA20-POLY1305-SHA256".toList, "AES-128-CCM-SHA256".toList, "AES-128-CCM-8-SHA256".toList] := by
  decide +kernel

example : mbedtlsName "tls-ecdhe-rsa-with-aes-128-gcm-sha256".toList = "TLS-ECDHE-RSA-WITH-AES-128-GCM-SHA256".toList ∧ mbedtlsName "tls-aes-128-gcm-sha256".toList = "AES-128-GCM-SHA256".toList := by
  decide +kernel

/-- C58 is false: with mbedTLS every addition of a cipher suite, the first one as any later one, writes outside the allocated array. -/
theorem cipher_array_mbedtls_false (a : Option MbedArr) (id : Nat) : mbedAppend a id = none := by
  cases a with
  | none => simp [mbedAppend]
  | some a =>
    simp only [mbedAppend]
    rw [if_neg (by omega)]

example : mbedAppend none 0x1301 = none := by decide

end Verif.Props
