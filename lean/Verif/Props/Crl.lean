/-
Properties C125 - C128: certificate revocation lists.
-/
import Verif.Lemmas.Crl

namespace Verif.Props
open Verif.Crl

/-! ## C125: URIs of distribution points with OpenSSL -/

/-- C125. Full statement: the URIs found are those of the full names of all distribution points of all certificates, in order. It is false for points without such
names (`openssl_no_name_false`, `openssl_relative_false`). Proved for certificates whose points all have full names, with URIs of more than six bytes and without zero bytes. -/
theorem openssl_uris_partial (certs : List (Option (List Dp)))
    (h : ∀ ds, some ds ∈ certs → ∀ d ∈ ds, ∃ l, d.name = some (.full l) ∧ ∀ n ∈ l, n.tag < 256 ∧ n.tag ≠ 0xA6 ∧ (n.tag = 0x86 → 6 < n.data.length ∧ 0 ∉ n.data)) :
    osslUris certs [] = .ok (osslWanted certs) := by
  have hnames : ∀ (l : List Name) (uris : List (List Nat)),
      (∀ n ∈ l, n.tag < 256 ∧ n.tag ≠ 0xA6 ∧ (n.tag = 0x86 → 6 < n.data.length ∧ 0 ∉ n.data)) → osslNames l uris = uris ++ uriNames l := by
    intro l
    induction l with
    | nil => intro uris _; simp [osslNames, uriNames]
    | cons n l ih =>
      intro uris hl
      obtain ⟨h1, h2, h3⟩ := hl n (by simp)
      have step : osslNames (n :: l) uris = osslNames l (if isUri n.tag = false ∨ n.data.length ≤ 6 then uris else uris ++ [cstr n.data]) := rfl
      rw [step, ih _ (fun x hx => hl x (by simp [hx]))]
      by_cases ht : n.tag = 0x86
      · obtain ⟨h4, h5⟩ := h3 ht
        rw [if_neg (by rw [ht]; rintro (hh | hh); · exact absurd hh (by decide)
                       · omega), cstr_of_no_nul h5]
        simp [uriNames, ht]
      · have hu : isUri n.tag = false := by
          cases hu : isUri n.tag with
          | false => rfl
          | true =>
            simp only [isUri, Bool.and_eq_true, beq_iff_eq] at hu
            omega
        rw [if_pos (Or.inl hu)]
        simp [uriNames, ht]
  have hpoints : ∀ (ds : List Dp) (uris : List (List Nat)),
      (∀ d ∈ ds, ∃ l, d.name = some (.full l) ∧ ∀ n ∈ l, n.tag < 256 ∧ n.tag ≠ 0xA6 ∧ (n.tag = 0x86 → 6 < n.data.length ∧ 0 ∉ n.data)) →
      osslPoints ds uris = .ok (uris ++ ds.flatMap dpUris) := by
    intro ds
    induction ds with
    | nil => intro uris _; simp [osslPoints]
    | cons d ds ih =>
      intro uris hd
      obtain ⟨l, h1, h2⟩ := hd d (by simp)
      unfold osslPoints
      rw [h1]
      dsimp only
      rw [ih _ (fun x hx => hd x (by simp [hx])), hnames l uris h2]
      simp [dpUris, h1]
  have hall : ∀ uris, osslUris certs uris = .ok (uris ++ osslWanted certs) := by
    induction certs with
    | nil => intro uris; simp [osslUris, osslWanted]
    | cons c certs ih =>
      intro uris
      cases c with
      | none =>
        unfold osslUris
        rw [ih (fun ds hds => h ds (by simp [hds]))]
        simp [osslWanted]
      | some ds =>
        unfold osslUris
        rw [hpoints ds uris (h ds (by simp))]
        dsimp only
        rw [ih (fun ds hds => h ds (by simp [hds]))]
        simp [osslWanted]
  simpa using hall []

/-- C125 is false for a distribution point without a name, which RFC 5280 (4.2.1.13) allows if it has a cRLIssuer: a NULL pointer is used. -/
theorem openssl_no_name_false : osslUris [some [⟨none⟩]] [] = .error .null := rfl

/-- C125 is false for a distribution point with a name relative to the issuer: its name entries are used as general names. -/
theorem openssl_relative_false : osslUris [some [⟨some .relative⟩]] [] = .error .type := rfl

example : osslUris [some [⟨some (.full [⟨0x82, [97]⟩, ⟨0x86, [104, 116, 116, 112, 58, 47, 47, 97]⟩])⟩], none, some [⟨some (.full [⟨0x86, [108, 100, 97, 112, 58, 47, 47, 98]⟩])⟩]] [] =
    .ok [[104, 116, 116, 112, 58, 47, 47, 97], [108, 100, 97, 112, 58, 47, 47, 98]] := by decide

/-! ## C126: memory when certificates are read with Mbed TLS -/

/-- C126. Full statement: whatever the bytes of the extensions are, looking for URIs ends and only reads those bytes and memory that was not freed. It is false
(`mbed_oid_compare_false`, `mbed_double_free_false`). Proved: it ends, never reads outside of the extensions, and nothing but those two faults can happen. -/
theorem mbed_reads_partial (lib : Name → Other) (certs : List (List Nat)) (f : Fault) (h : mbedUris lib certs = .error f) : f = .const ∨ f = .freed := by
  unfold mbedUris at h
  rcases mbedCerts_cases lib certs [] with hh | hh | ⟨x, hh⟩ <;> rw [hh] at h <;> cases h
  · exact Or.inl rfl
  · exact Or.inr rfl

/-- C126. If the library knows all types of names in certificates, the comparison of the identifier is the only fault. -/
theorem mbed_faults_only (lib : Name → Other) (certs : List (List Nat)) (hl : ∀ n, lib n ≠ .unavailable) (f : Fault) (h : mbedUris lib certs = .error f) : f = .const := by
  rcases mbed_reads_partial lib certs f h with hf | hf
  · exact hf
  · subst hf
    exact absurd h (mbed_no_free lib hl certs [])

/-- C126 is false: a certificate with the common extension authorityInfoAccess (1.3.6.1.5.5.7.1.1, eight bytes) makes `memcmp` read eight bytes of a constant of four. -/
theorem mbed_oid_compare_false (lib : Name → Other) : mbedUris lib [encCert [.other [0x2B, 6, 1, 5, 5, 7, 1, 1] false [0x30, 0]]] = .error .const := by rfl

/-- A library that knows directory names of more parts but not registered identifiers. -/
def crlLib (n : Name) : Other := if n.tag = 0xA4 then .dir true else if n.tag = 0x88 then .unavailable else .other

/-- C126 is false: a distribution point with a directory name and a registered identifier after it makes the list of the directory name be freed twice. -/
theorem mbed_double_free_false : mbedUris crlLib [encCert [.points false [⟨some [⟨0xA4, [1, 2]⟩, ⟨0x88, [42]⟩], none, none⟩]]] = .error .freed := by decide +kernel

example : mbedUris crlLib [[0x30, 0x84, 255, 255, 255, 255]] = .ok (some .outOfData, []) := by decide +kernel
example : mbedUris crlLib [[0x30, 2, 0x30, 5]] = .ok (some .outOfData, []) := by decide +kernel

/-! ## C127: URIs of distribution points with Mbed TLS -/

/-- C127. Full statement: the URIs found are those of all distribution points of all certificates. It is false (see below). Proved for certificates with distribution points that have
only full names of known types, and one point, or two with one name in the first; other extensions have short identifiers. -/
theorem mbed_uris_partial (lib : Name → Other) (certs : List (List Extn)) (hg : ∀ l ∈ certs, (∀ x ∈ l, GoodExt lib x) ∧ (encCert l).length < 2 ^ 32) :
    ∃ uris, mbedUris lib (certs.map encCert) = .ok (none, uris) ∧ ∀ u, u ∈ uris ↔ u ∈ wantedUris certs := by
  obtain ⟨us, h1, h2⟩ := mbedCerts_good lib certs hg []
  exact ⟨us, by simpa [mbedUris] using h1, h2⟩

/-- A point with one URI. -/
def crlPoint (u : List Nat) : Point := ⟨some [⟨0x86, u⟩], none, none⟩

/-- C127 is false: a certificate with three distribution points is refused. -/
theorem mbed_three_points_false : mbedUris crlLib [encCert [.points false [crlPoint [97], crlPoint [98], crlPoint [99]]]] = .ok (some .other, [[97], [97], [98]]) := by decide +kernel

/-- C127 is false: a distribution point with reasons is refused. -/
theorem mbed_reasons_false : mbedUris crlLib [encCert [.points false [⟨some [⟨0x86, [97]⟩], some [0, 2], none⟩]]] = .ok (some .unexpectedTag, [[97]]) := by decide +kernel

/-- C127 is false: if the type of the last name is not known to the library, the certificate is refused, though names of such types are skipped elsewhere; a URI before it is
found twice. -/
theorem mbed_unknown_last_false : mbedUris crlLib [encCert [.points false [⟨some [⟨0x86, [97]⟩, ⟨0x88, [42]⟩], none, none⟩]]] = .ok (some .unavailable, [[97], [97]]) ∧
    mbedUris crlLib [encCert [.points false [⟨some [⟨0x88, [42]⟩, ⟨0x86, [97]⟩], none, none⟩]]] = .ok (none, [[97]]) := by decide +kernel

/-- C127 is false: an extension with more bytes than its distribution points take ends the search with success, without looking at the certificates after it. -/
theorem mbed_rest_not_searched_false : mbedUris crlLib [der 0x30 (encParts [0x55, 0x1D, 0x1F] false (der 0x30 (encPoint (crlPoint [97])) ++ [5, 0])), encCert [.points false [crlPoint [98]]]] = .ok (none, []) := by
  decide +kernel

/-- C127 is false: an extension with the identifier 2.5.29 is taken for distribution points. -/
theorem mbed_prefix_false : mbedUris crlLib [encCert [.other [0x55, 0x1D] false (der 0x30 (encPoint (crlPoint [97])))]] = .ok (none, [[97]]) ∧
    wantedUris [[.other [0x55, 0x1D] false (der 0x30 (encPoint (crlPoint [97])))]] = [] := ⟨by decide +kernel, rfl⟩

example : mbedUris crlLib [encCert [.other [0x55, 0x1D, 0x13] true [0x30, 0], .points true [crlPoint [97], crlPoint [98]]], [], encCert [.points false [crlPoint [99]]]] =
    .ok (none, [[97], [97], [98], [99]]) := by decide +kernel
example : GoodExt crlLib (.points true [crlPoint [97], crlPoint [98]]) := by
  refine ⟨?_, Or.inr ⟨rfl, ?_⟩⟩
  · intro d hd
    simp at hd
    rcases hd with rfl | rfl
    · exact ⟨rfl, rfl, _, rfl, by simp, by intro n hn; simp at hn; subst hn; exact Or.inl ⟨rfl, by decide⟩⟩
    · exact ⟨rfl, rfl, _, rfl, by simp, by intro n hn; simp at hn; subst hn; exact Or.inl ⟨rfl, by decide⟩⟩
  · intro d hd ns hns
    simp at hd
    subst hd
    cases hns
    rfl

/-! ## C128: downloading revocation lists -/

/-- C128. Full statement: if a list cannot be downloaded, the others are used. It is false (`crl_last_fails_false`, `crl_mixed_data_false`). Proved: if the lists are read by the library, downloads that fail
give no data, and the last one does not fail, then the lists of all other downloads are in the store, in order, and success is returned. -/
theorem crls_loaded_partial {C : Type} (add : List Nat → Except Fault (Option C)) (read : List Nat → C) (ds : List Download) (d : Download) (hd : d.ok = true)
    (hadd : ∀ x ∈ ds ++ [d], x.ok = true → add x.chunks.flatten = .ok (some (read x.chunks.flatten))) (hfail : ∀ x ∈ ds, x.ok = false → x.chunks.flatten = []) :
    fetch add true true true (ds ++ [d]) = .ok (0, some (((ds ++ [d]).filter (·.ok)).map (fun x => read x.chunks.flatten))) := by
  have hdata : ∀ (cs : List (List Nat)) (buf : List Nat), curlData buf cs = buf ++ cs.flatten := by
    intro cs
    induction cs with
    | nil => intro buf; simp [curlData]
    | cons c cs ih =>
      intro buf
      have : curlData buf (c :: cs) = curlData (buf ++ c) cs := rfl
      rw [this, ih]; simp
  have loop : ∀ (ds : List Download) (store : List C) (ret : Nat), (∀ x ∈ ds ++ [d], x.ok = true → add x.chunks.flatten = .ok (some (read x.chunks.flatten))) →
      (∀ x ∈ ds, x.ok = false → x.chunks.flatten = []) →
      fetchLoop add (ds ++ [d]) [] store ret = .ok (0, false, store ++ ((ds ++ [d]).filter (·.ok)).map (fun x => read x.chunks.flatten)) := by
    intro ds
    induction ds with
    | nil =>
      intro store ret h1 _
      rw [List.nil_append, fetchLoop]
      rw [if_neg (by simp [hd]), hdata, List.nil_append, h1 d (by simp) hd]
      simp [fetchLoop, hd]
    | cons x ds ih =>
      intro store ret h1 h2
      rw [List.cons_append, fetchLoop]
      rw [hdata, List.nil_append]
      cases hx : x.ok with
      | false =>
        rw [if_pos rfl, h2 x (by simp) hx, ih store 1 (fun y hy => h1 y (by simp at hy ⊢; exact Or.inr hy)) (fun y hy => h2 y (by simp [hy]))]
        simp [hx]
      | true =>
        rw [if_neg (by simp), h1 x (by simp) hx]
        dsimp only
        rw [ih _ 0 (fun y hy => h1 y (by simp at hy ⊢; exact Or.inr hy)) (fun y hy => h2 y (by simp [hy]))]
        simp [hx]
  unfold fetch
  rw [if_neg (by simp), if_neg (by simp), if_neg (by simp), if_neg (by simp), loop ds [] 0 hadd hfail]
  simp

/-- C128. Success is returned only if no store could be made (`crl_no_store_false`), or if CURL was initialized, the URIs were found and the last download succeeded; there is a store
then unless there are no URIs. A store is only given if it has the lists of all downloads that succeeded. -/
theorem crl_success {C : Type} (add : List Nat → Except Fault (Option C)) (new init urisOk : Bool) (ds : List Download) (r : Nat) (st : Option (List C))
    (h : fetch add new init urisOk ds = .ok (r, st)) :
    (r = 0 → new = false ∨ (init = true ∧ urisOk = true ∧ (∀ d, ds.getLast? = some d → d.ok = true) ∧ (ds ≠ [] → st.isSome = true))) ∧
    (∀ l, st = some l → l.length = (ds.filter (·.ok)).length) := by
  have loop : ∀ (ds : List Download) (buf : List Nat) (store : List C) (ret : Nat) (r : Nat) (b : Bool) (st : List C),
      fetchLoop add ds buf store ret = .ok (r, b, st) →
      (b = true → r = 1) ∧ (b = false → st.length = store.length + (ds.filter (·.ok)).length ∧ (r = 0 → (∀ d, ds.getLast? = some d → d.ok = true))) := by
    intro ds
    induction ds with
    | nil =>
      intro buf store ret r b st h
      simp only [fetchLoop, Except.ok.injEq, Prod.mk.injEq] at h
      obtain ⟨rfl, rfl, rfl⟩ := h
      simp
    | cons d ds ih =>
      intro buf store ret r b st h
      rw [fetchLoop] at h
      cases hd : d.ok with
      | false =>
        rw [if_pos hd] at h
        obtain ⟨h1, h2⟩ := ih _ _ _ _ _ _ h
        refine ⟨h1, fun hb => ?_⟩
        obtain ⟨h3, h4⟩ := h2 hb
        refine ⟨by simpa [hd] using h3, fun hr => ?_⟩
        intro x hx
        cases ds with
        | nil =>
          simp only [fetchLoop, Except.ok.injEq, Prod.mk.injEq] at h
          omega
        | cons y ds => exact h4 hr x (by simpa [List.getLast?_cons_cons] using hx)
      | true =>
        rw [if_neg (by simp [hd])] at h
        split at h
        · cases h
        · simp only [Except.ok.injEq, Prod.mk.injEq] at h
          obtain ⟨rfl, rfl, rfl⟩ := h
          simp
        · obtain ⟨h1, h2⟩ := ih _ _ _ _ _ _ h
          refine ⟨h1, fun hb => ?_⟩
          obtain ⟨h3, h4⟩ := h2 hb
          refine ⟨by simp [hd] at h3 ⊢; omega, fun hr => ?_⟩
          intro x hx
          cases ds with
          | nil => simp at hx; subst hx; exact hd
          | cons y ds => exact h4 hr x (by simpa [List.getLast?_cons_cons] using hx)
  unfold fetch at h
  cases new with
  | false =>
    simp only [if_true, Except.ok.injEq, Prod.mk.injEq] at h
    obtain ⟨rfl, rfl⟩ := h
    simp
  | true =>
    cases init with
    | false =>
      simp only [Bool.true_eq_false, if_false, if_true, Except.ok.injEq, Prod.mk.injEq] at h
      obtain ⟨rfl, rfl⟩ := h
      simp
    | true =>
      cases urisOk with
      | false =>
        simp only [Bool.true_eq_false, if_false, if_true, Except.ok.injEq, Prod.mk.injEq] at h
        obtain ⟨rfl, rfl⟩ := h
        simp
      | true =>
        simp only [Bool.true_eq_false, if_false] at h
        by_cases hds : ds = []
        · subst hds
          simp only [if_true, Except.ok.injEq, Prod.mk.injEq] at h
          obtain ⟨rfl, rfl⟩ := h
          simp
        · rw [if_neg hds] at h
          split at h
          · cases h
          · rename_i ret x hl
            simp only [Except.ok.injEq, Prod.mk.injEq] at h
            obtain ⟨rfl, rfl⟩ := h
            have := (loop _ _ _ _ _ _ _ hl).1 rfl
            simp [this]
          · rename_i ret store hl
            simp only [Except.ok.injEq, Prod.mk.injEq] at h
            obtain ⟨rfl, rfl⟩ := h
            obtain ⟨h1, h2⟩ := (loop _ _ _ _ _ _ _ hl).2 rfl
            refine ⟨fun hr => Or.inr ⟨rfl, rfl, h2 hr, fun _ => rfl⟩, ?_⟩
            intro l hl2
            cases hl2
            simpa using h1

/-- C128 is false: two lists of which the second cannot be downloaded; the first is in the store, but failure is returned and there is no session. -/
theorem crl_last_fails_false : fetch (addOssl (fun b => some b) (fun _ => none) (fun _ => 0)) true true true [⟨true, [[1, 2]]⟩, ⟨false, []⟩] = .ok (1, some [[1, 2]]) := by rfl

/-- C128 is false: a download fails after some data; they are put in front of the next list, which the library then cannot read. -/
theorem crl_mixed_data_false : fetch (addOssl (fun b => if b = [1, 2] ∨ b = [3, 4] then some b else none) (fun _ => none) (fun b => b.length)) true true true [⟨false, [[1]]⟩, ⟨true, [[3, 4]]⟩] = .ok (1, none) := by decide

/-- C128 is false for a list as PEM text (here anything beginning with five dashes), for which the code has a second attempt: the first attempt has read 47 bytes (a dash is a tag, the
second dash the length 45), so that the second one does not find the beginning. -/
theorem crl_pem_openssl_false : ∃ b : List Nat, (if b.take 5 = [45, 45, 45, 45, 45] then some b else none) = some b ∧
    fetch (addOssl (fun _ => none) (fun b => if b.take 5 = [45, 45, 45, 45, 45] then some b else none) (fun b => if b.take 2 = [45, 45] then 47 else b.length)) true true true [⟨true, [b]⟩] = .ok (1, none) :=
  ⟨[45, 45, 45, 45, 45, 66], by decide, by decide⟩

/-- C128. With Mbed TLS, data that are no list in DER, be it PEM text or not, make the byte behind the data be read. -/
theorem crl_pem_mbed_false {C : Type} (der : List Nat → Option C) (b : List Nat) (hd : der b = none) (hne : b ≠ []) : fetch (addMbed der) true true true [⟨true, [b]⟩] = .error .buf := by
  have hc : curlData [] [b] = b := by simp [curlData]
  unfold fetch
  rw [if_neg (by simp), if_neg (by simp), if_neg (by simp), if_neg (by simp)]
  unfold fetchLoop
  dsimp only
  rw [if_neg (by simp), hc]
  unfold addMbed
  rw [if_neg hne, hd]

/-- C128 is false: if no store can be made, success is returned and revocation is not checked at all. -/
theorem crl_no_store_false {C : Type} (add : List Nat → Except Fault (Option C)) (ds : List Download) : fetch add false true true ds = .ok (0, none) := rfl

example : fetch (addMbed (fun b => some b)) true true true [⟨true, [[1], [2]]⟩, ⟨false, []⟩, ⟨true, [[3]]⟩] = .ok (0, some [[1, 2], [3]]) := by rfl

end Verif.Props
