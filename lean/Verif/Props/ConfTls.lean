import Verif.Lemmas.ConfTls

/-!
# Properties: TLS parameters of an endpoint follow the configuration
-/

namespace Verif.Props
open Verif.ConfTree (Op Meta)
open Verif.ConfStore
open Verif.ConfTls

/-- All public keys are in the SubjectPublicKeyInfo format, for the examples. -/
def allSpki (_ : Nat) : Bool := true

/-! ## Identity, trusted certificates, versions -/

/-- **C133.** Full statement (false, see `tls_follows_diffs_false`): whatever data were set up and whatever diffs that fit them were applied
afterwards, the server presents the key and certificate, checks clients against the certificates, and has the TLS versions of the patched
configuration. -/
def TlsFollowsDiffs (spki : Nat → Bool) : Prop :=
  ∀ (d : TlsData) (ds : List TlsDiff) (c c' : TlsConf), d.conf spki = some c → patchTlsAll spki c ds = some c' →
    ∃ s, run spki d.tree (ds.map tlsTree) = .ok s ∧ TlsAs s c'

/-- **C133.** Proved for all diffs without the changes in `IdConf.lost` and `CertsEdit.lost`. -/
theorem tls_follows_diffs_partial (spki : Nat → Bool) (d : TlsData) (ds : List TlsDiff) (c c' : TlsConf) (h : d.conf spki = some c)
    (h' : patchSafeAll spki c ds = some c') : ∃ s, run spki d.tree (ds.map tlsTree) = .ok s ∧ TlsAs s c' :=
  tls_run spki d ds c c' h h'

/-- The diffs covered do what diffs should do. -/
theorem tls_safe_diffs (spki : Nat → Bool) (ds : List TlsDiff) : ∀ (c c' : TlsConf), patchSafeAll spki c ds = some c' → patchTlsAll spki c ds = some c' := by
  induction ds with
  | nil => intro c c' h; exact h
  | cons d ds ih =>
    intro c c' h
    simp only [patchSafeAll, patchTlsAll, patchSafe] at h ⊢
    split at h
    · cases h
    · cases hp : patchTls spki c d with
      | none => rw [hp] at h; cases h
      | some c1 => rw [hp] at h; exact ih c1 c' h

/-- **C133.** After whole data the endpoint works as configured by them. -/
theorem tls_setup (spki : Nat → Bool) (d : TlsData) (c : TlsConf) (h : d.conf spki = some c) : ∃ s, run spki d.tree [] = .ok s ∧ TlsAs s c :=
  tls_follows_diffs_partial spki d [] c c h rfl

/-- An endpoint with its own key and certificate, two CA certificates, end-entity certificates of the truststore and TLS 1.2 and 1.3. -/
def tlsSample : TlsData := ⟨.inline none (some 4) 0 5 (some 6), some ⟨some (.inline [(1, 20), (2, 21)]), some (.bag 7)⟩, [2, 3]⟩

example : (tlsSample.conf allSpki).isSome = true := by decide

example : run allSpki tlsSample.tree [] =
    .ok ⟨⟨.local, .num 0, some 4, 0, some 5, some 6⟩, ⟨.local, .certs [⟨1, some 20⟩, ⟨2, some 21⟩], 2⟩, ⟨.truststore, .str 7, 0⟩, 12#32⟩ := by
  decide +kernel

/-- Another certificate and key, one CA certificate removed and one added, another bag, no TLS 1.3; then a key of the keystore, and no end-entity
certificates. -/
def tlsSampleDiffs : List TlsDiff :=
  [⟨.leaves .keep (.replace 8) none (some 9) (.replace 10), .change (.edit [.delete 1 [], .create 3 22, .change 2 23]) (.reref 11), [.remove 3, .move 2]⟩,
   ⟨.toRef [] 30 31, .change .keep (.delete []), [.add 0]⟩]

example : ((tlsSample.conf allSpki).bind (fun c => patchSafeAll allSpki c tlsSampleDiffs)).isSome = true := by decide

example : run allSpki tlsSample.tree (tlsSampleDiffs.map tlsTree) =
    .ok ⟨⟨.keystore, .str 30, some 31, 0, some 9, some 10⟩, ⟨.local, .certs [⟨2, some 23⟩, ⟨3, some 22⟩], 2⟩, newGrp, 5#32⟩ := by decide +kernel

/-! ## Changes that are not followed -/

/-- An endpoint with this identity and nothing else. -/
def oneId (i : IdConf) : TlsData := ⟨i, none, []⟩

/-- A diff of the identity. -/
def idDiff (e : IdChange) : TlsDiff := ⟨e, .keep, []⟩

/-- A diff of the trusted CA certificates. -/
def caDiff (e : CertsEdit) : TlsDiff := ⟨.keep, .change e .keep, []⟩

/-- A diff of the trusted end-entity certificates. -/
def eeDiff (e : CertsEdit) : TlsDiff := ⟨.keep, .change .keep e, []⟩

/-- **C133, false in general.** A key of the keystore instead of a key with certificate, where the format of the public key was given: the
number of the format shares its memory with the name of the key and is freed as if it were one (src/server_config.c:2950-2957). -/
theorem tls_follows_diffs_false : ¬ TlsFollowsDiffs allSpki := by
  intro h
  obtain ⟨s, h1, h2⟩ := h (oneId (.inline (some 1) (some 4) 0 5 (some 6))) [idDiff (.toRef [] 30 31)]
    ⟨.inline (some 1) (some 4) 0 5 (some 6), none, fun _ => false⟩ ⟨.ref 30 31, none, fun _ => false⟩ rfl rfl
  have hs : run allSpki (oneId (.inline (some 1) (some 4) 0 5 (some 6))).tree ([idDiff (.toRef [] 30 31)].map tlsTree) = .ub := by decide +kernel
  rw [hs] at h1
  cases h1

/-- A private key with certificate, without public key, instead of a key of the keystore: the server still presents the key and the
certificate of the keystore. -/
theorem identity_stays : ∃ c c', (oneId (.ref 30 31)).conf allSpki = some c ∧
    patchTlsAll allSpki c [idDiff (.toInline [] none none 0 5 (some 6))] = some c' ∧ c'.id = .inline none none 0 5 (some 6) ∧
    run allSpki (oneId (.ref 30 31)).tree [tlsTree (idDiff (.toInline [] none none 0 5 (some 6)))] =
      .ok ⟨⟨.keystore, .str 30, some 31, 0, some 5, some 6⟩, newGrp, newGrp, 0⟩ ∧
    Ident.shown ⟨.keystore, .str 30, some 31, 0, some 5, some 6⟩ = some (.ref 30 31) :=
  ⟨_, _, rfl, rfl, rfl, by decide +kernel, by decide⟩

/-- The same with the format of the public key: its number is written over a part of the pointer to the name, which is followed when a client
connects. -/
theorem identity_pointer_ub : ∃ c c' i, (oneId (.ref 30 31)).conf allSpki = some c ∧
    patchTlsAll allSpki c [idDiff (.toInline [] (some 1) none 0 5 (some 6))] = some c' ∧ c'.id = .inline (some 1) none 0 5 (some 6) ∧
    run allSpki (oneId (.ref 30 31)).tree [tlsTree (idDiff (.toInline [] (some 1) none 0 5 (some 6)))] = .ok ⟨i, newGrp, newGrp, 0⟩ ∧
    i.shown = none :=
  ⟨_, _, ⟨.keystore, .mixed, some 31, 0, some 5, some 6⟩, rfl, rfl, rfl, by decide +kernel, by decide⟩

/-- A certificate removed from the configuration is still presented. -/
theorem certificate_stays : ∃ c c' i, (oneId (.inline none (some 4) 0 5 (some 6))).conf allSpki = some c ∧
    patchTlsAll allSpki c [idDiff (.leaves .keep .keep none none (.delete 6))] = some c' ∧ c'.id = .inline none (some 4) 0 5 none ∧
    run allSpki (oneId (.inline none (some 4) 0 5 (some 6))).tree [tlsTree (idDiff (.leaves .keep .keep none none (.delete 6)))] =
      .ok ⟨i, newGrp, newGrp, 0⟩ ∧
    i.shown = some (.own 0 (some 5) (some 6)) :=
  ⟨_, _, ⟨.local, .num 0, some 4, 0, some 5, some 6⟩, rfl, rfl, rfl, by decide +kernel, by decide⟩

/-- Whatever was configured before: once the trusted CA certificates are given in the configuration instead of being a bag of the truststore,
the server uses a NULL pointer as the name of the bag when a client connects. -/
theorem bag_to_ca_certs_ub (spki : Nat → Bool) (d : TlsData) (ds : List TlsDiff) (c c' : TlsConf) (h : d.conf spki = some c)
    (h' : patchSafeAll spki c ds = some c') (n : Nat) (hn : c'.auth.bind AuthConf.ca = some (.bag n)) (l : List (Nat × Nat))
    (hl : (certMap l).isSome = true) :
    (patchTls spki c' (caDiff (.toInline n l))).isSome = true ∧
    ∃ s, run spki d.tree (ds.map tlsTree ++ [tlsTree (caDiff (.toInline n l))]) = .ok s ∧ s.ca.trust = none := by
  obtain ⟨m, hm⟩ := Option.isSome_iff_exists.mp hl
  obtain ⟨s, h1, h2, h3, h4⟩ := tls_reach spki d ds c c' h h'
  obtain ⟨a, ha, hca⟩ := Option.bind_eq_some_iff.mp hn
  refine ⟨by simp [patchTls, caDiff, IdConf.change, ha, AuthEdit.apply, CertsEdit.apply, hca, hm, patchVersions], ?_⟩
  obtain ⟨s', g1, g2⟩ := ca_to_inline spki s n l m hm (by have := h3.1; rw [hn] at this; exact this)
  exact ⟨s', run_snoc spki d.tree _ _ s s' h1 g1, g2⟩

/-- The same for end-entity certificates. -/
theorem bag_to_ee_certs_ub (spki : Nat → Bool) (d : TlsData) (ds : List TlsDiff) (c c' : TlsConf) (h : d.conf spki = some c)
    (h' : patchSafeAll spki c ds = some c') (n : Nat) (hn : c'.auth.bind AuthConf.ee = some (.bag n)) (l : List (Nat × Nat))
    (hl : (certMap l).isSome = true) :
    (patchTls spki c' (eeDiff (.toInline n l))).isSome = true ∧
    ∃ s, run spki d.tree (ds.map tlsTree ++ [tlsTree (eeDiff (.toInline n l))]) = .ok s ∧ s.ee.trust = none := by
  obtain ⟨m, hm⟩ := Option.isSome_iff_exists.mp hl
  obtain ⟨s, h1, h2, h3, h4⟩ := tls_reach spki d ds c c' h h'
  obtain ⟨a, ha, hca⟩ := Option.bind_eq_some_iff.mp hn
  refine ⟨by simp [patchTls, eeDiff, IdConf.change, ha, AuthEdit.apply, CertsEdit.apply, hca, hm, patchVersions], ?_⟩
  obtain ⟨s', g1, g2⟩ := ee_to_inline spki s n l m hm (by have := h3.2; rw [hn] at this; exact this)
  exact ⟨s', run_snoc spki d.tree _ _ s s' h1 g1, g2⟩

example : ∃ c, (TlsData.mk (.ref 30 31) (some ⟨some (.bag 7), some (.bag 8)⟩) []).conf allSpki = some c ∧
    c.auth.bind AuthConf.ca = some (.bag 7) ∧ c.auth.bind AuthConf.ee = some (.bag 8) ∧ (certMap [(1, 20)]).isSome = true :=
  ⟨_, rfl, rfl, rfl, rfl⟩

/-- **C133.** Trusted certificates given in the configuration replaced by a bag of the truststore: the bag counts from then on. -/
theorem bag_counts_at_once (spki : Nat → Bool) (d : TlsData) (ds : List TlsDiff) (c c' : TlsConf) (h : d.conf spki = some c)
    (h' : patchSafeAll spki c ds = some c') (r : List Tree) (n : Nat) :
    (∃ s, run spki d.tree (ds.map tlsTree ++ [tlsTree (caDiff (.toBag r n))]) = .ok s ∧ s.ca.trust = some (.bag n) ∧
      ShownAs s.id.shown c'.id ∧ TrustAs s.ee.trust (c'.auth.bind AuthConf.ee)) ∧
    (∃ s, run spki d.tree (ds.map tlsTree ++ [tlsTree (eeDiff (.toBag r n))]) = .ok s ∧ s.ee.trust = some (.bag n) ∧
      ShownAs s.id.shown c'.id ∧ TrustAs s.ca.trust (c'.auth.bind AuthConf.ca)) := by
  obtain ⟨s, h1, h2⟩ := tls_reach spki d ds c c' h h'
  obtain ⟨a1, a2, a3, -⟩ := tls_of_rep spki s c' h2
  exact ⟨⟨_, run_snoc spki d.tree _ _ s _ h1 (ca_to_bag spki s r n), rfl, a1, a3⟩,
    ⟨_, run_snoc spki d.tree _ _ s _ h1 (ee_to_bag spki s r n), rfl, a1, a2⟩⟩

/-- The diffs of the next theorem: a bag instead of a certificate, then no CA certificates at all. -/
def bagThenNone : List TlsDiff := [caDiff (.toBag [] 7), caDiff (.delete [])]

/-- If they are removed altogether afterwards, the server has the number of the old certificates without the array, and follows NULL when a
client connects. -/
theorem removed_certs_ub : ∃ c c' g, (TlsData.mk (.ref 30 31) (some ⟨some (.inline [(1, 20)]), none⟩) []).conf allSpki = some c ∧
    patchTlsAll allSpki c bagThenNone = some c' ∧ c'.auth.bind AuthConf.ca = none ∧
    run allSpki (TlsData.mk (.ref 30 31) (some ⟨some (.inline [(1, 20)]), none⟩) []).tree (bagThenNone.map tlsTree) =
      .ok ⟨⟨.keystore, .str 30, some 31, 0, none, none⟩, g, newGrp, 0⟩ ∧ g.trust = none :=
  ⟨_, _, ⟨.local, .null, 1⟩, rfl, rfl, rfl, by decide +kernel, by decide⟩

/-! ## Accepted TLS versions -/

/-- **C134.** Full statement (false, see `openssl_versions_false` and `mbedtls_versions_false`): an endpoint with configured TLS versions accepts
exactly those of them that the library supports. -/
def VersionsFollow (range : BitVec 32 → Option Nat × Option Nat) (lib : Nat → Bool) : Prop :=
  ∀ (spki : Nat → Bool) (d : TlsData) (ds : List TlsDiff) (c c' : TlsConf), d.conf spki = some c → patchSafeAll spki c ds = some c' →
    ∀ v, (∃ w, c'.versions w = true) →
    ∃ s, run spki d.tree (ds.map tlsTree) = .ok s ∧ (accepts range lib s.versions v = true ↔ lib v = true ∧ c'.versions v = true)

/-- **C134.** With OpenSSL: the versions between the lowest and the highest configured one are accepted, no others; all versions that the
library supports if none is configured. -/
theorem openssl_versions_partial (spki : Nat → Bool) (lib : Nat → Bool) (d : TlsData) (ds : List TlsDiff) (c c' : TlsConf) (h : d.conf spki = some c)
    (h' : patchSafeAll spki c ds = some c') :
    ∃ s, run spki d.tree (ds.map tlsTree) = .ok s ∧ ∀ v, (accepts opensslRange lib s.versions v = true ↔
      lib v = true ∧ ((∀ w, c'.versions w = false) ∨ ∃ a b, c'.versions a = true ∧ c'.versions b = true ∧ a ≤ v ∧ v ≤ b)) := by
  obtain ⟨s, h1, -, -, h4⟩ := tls_reach spki d ds c c' h h'
  refine ⟨s, h1, fun v => ?_⟩
  unfold accepts
  split
  · rename_i h0
    have := (zero_iff _ _ h4).mp h0
    simp [this]
  · rename_i h0
    have hne : ∃ w, c'.versions w = true := by
      apply Classical.byContradiction
      intro hn
      apply h0
      rw [zero_iff _ _ h4]
      intro w
      cases hw : c'.versions w with
      | false => rfl
      | true => exact absurd ⟨w, hw⟩ hn
    have hall : ¬ ∀ w, c'.versions w = false := fun hn => by obtain ⟨w, hw⟩ := hne; rw [hn w] at hw; cases hw
    rw [Bool.and_eq_true, openssl_within _ _ h4 hne v]
    simp [hall]

/-- **C134.** So with OpenSSL exactly the configured versions are accepted if there is no gap between them. -/
theorem openssl_versions_no_gap (spki : Nat → Bool) (lib : Nat → Bool) (d : TlsData) (ds : List TlsDiff) (c c' : TlsConf) (h : d.conf spki = some c)
    (h' : patchSafeAll spki c ds = some c') (hne : ∃ w, c'.versions w = true)
    (hg : ∀ a v b, c'.versions a = true → c'.versions b = true → a ≤ v → v ≤ b → c'.versions v = true) :
    ∃ s, run spki d.tree (ds.map tlsTree) = .ok s ∧ ∀ v, (accepts opensslRange lib s.versions v = true ↔ lib v = true ∧ c'.versions v = true) := by
  obtain ⟨s, h1, h2⟩ := openssl_versions_partial spki lib d ds c c' h h'
  refine ⟨s, h1, fun v => (h2 v).trans ?_⟩
  obtain ⟨w, hw⟩ := hne
  constructor
  · rintro ⟨a, b | ⟨x, y, b1, b2, b3, b4⟩⟩
    · rw [b w] at hw; cases hw
    · exact ⟨a, hg x v y b1 b2 b3 b4⟩
  · rintro ⟨a, b⟩; exact ⟨a, Or.inr ⟨v, v, b, b, Nat.le_refl _, Nat.le_refl _⟩⟩

/-- **C134.** With Mbed TLS, which supports TLS 1.2 and 1.3: the limits set allow exactly the configured ones of them if there is one, otherwise all. They do not last
until the handshake, see `tls_parameters_false` (C173). -/
theorem mbedtls_versions_partial (spki : Nat → Bool) (lib : Nat → Bool) (hlib : ∀ v, lib v = true → v = 2 ∨ v = 3) (d : TlsData) (ds : List TlsDiff)
    (c c' : TlsConf) (h : d.conf spki = some c) (h' : patchSafeAll spki c ds = some c') :
    ∃ s, run spki d.tree (ds.map tlsTree) = .ok s ∧ ∀ v, (accepts mbedRange lib s.versions v = true ↔
      lib v = true ∧ (c'.versions v = true ∨ (c'.versions 2 = false ∧ c'.versions 3 = false))) := by
  obtain ⟨s, h1, -, -, h4⟩ := tls_reach spki d ds c c' h h'
  refine ⟨s, h1, fun v => ?_⟩
  unfold accepts
  split
  · rename_i h0
    have := (zero_iff _ _ h4).mp h0
    simp [this]
  · rw [Bool.and_eq_true]
    constructor
    · rintro ⟨a, b⟩; exact ⟨a, (mbed_within _ _ h4 v (hlib v a)).mp b⟩
    · rintro ⟨a, b⟩; exact ⟨a, (mbed_within _ _ h4 v (hlib v a)).mpr b⟩

/-- **C134, false in general.** With TLS 1.0 and 1.3 configured OpenSSL accepts also TLS 1.1 and 1.2, if it supports them. -/
theorem openssl_versions_false (lib : Nat → Bool) (h2 : lib 2 = true) : ¬ VersionsFollow opensslRange lib := by
  intro h
  obtain ⟨s, a, b⟩ := h allSpki ⟨.ref 30 31, none, [0, 3]⟩ [] ⟨.ref 30 31, none, fun x => x == 3 || (x == 0 || false)⟩
    ⟨.ref 30 31, none, fun x => x == 3 || (x == 0 || false)⟩ rfl rfl 2 ⟨3, rfl⟩
  have hs : run allSpki (TlsData.mk (.ref 30 31) none [0, 3]).tree [] = .ok ⟨⟨.keystore, .str 30, some 31, 0, none, none⟩, newGrp, newGrp, 9#32⟩ := by
    decide +kernel
  rw [show ([] : List TlsDiff).map tlsTree = [] from rfl, hs] at a
  cases a
  have : accepts opensslRange lib 9#32 2 = true := by
    simp [accepts, h2, within, opensslRange, has]
  have := (b.mp this).2
  revert this; decide

/-- **C134, false in general.** With only TLS 1.1 configured Mbed TLS accepts every version it supports: a warning is all. -/
theorem mbedtls_versions_false (lib : Nat → Bool) (h3 : lib 3 = true) : ¬ VersionsFollow mbedRange lib := by
  intro h
  obtain ⟨s, a, b⟩ := h allSpki ⟨.ref 30 31, none, [1]⟩ [] ⟨.ref 30 31, none, fun x => x == 1 || false⟩
    ⟨.ref 30 31, none, fun x => x == 1 || false⟩ rfl rfl 3 ⟨1, rfl⟩
  have hs : run allSpki (TlsData.mk (.ref 30 31) none [1]).tree [] = .ok ⟨⟨.keystore, .str 30, some 31, 0, none, none⟩, newGrp, newGrp, 2#32⟩ := by
    decide +kernel
  rw [show ([] : List TlsDiff).map tlsTree = [] from rfl, hs] at a
  cases a
  have : accepts mbedRange lib 2#32 3 = true := by
    simp [accepts, h3, within, mbedRange, has]
  have := (b.mp this).2
  revert this; decide

example : accepts opensslRange (fun v => decide (v < 4)) 12#32 1 = false ∧ accepts opensslRange (fun v => decide (v < 4)) 12#32 2 = true := by decide

/-! ## cert-to-name -/

/-- **C135.** Full statement (false, see `ctn_follows_diffs_false`): starting without entries and after any diffs that fit, the server maps
certificates by the entries of the patched configuration. -/
def CtnFollowsDiffs : Prop :=
  ∀ (es : List CtnEdit) (m : Map CtnConf), patchCtns (fun _ => none) es = some m → ∃ l, ctnNodes (es.map ctnEdit) [] = some l ∧ CtnsAs l m

/-- **C135.** Proved for diffs that do not change map types and names of entries that stay: entries are there, in the order of their ids, with
the map type, name and fingerprint configured. -/
theorem ctn_follows_diffs_partial (es : List CtnEdit) (m : Map CtnConf) (ho : onlyFingerprints es) (h : patchCtns (fun _ => none) es = some m) :
    ∃ l, ctnNodes (es.map ctnEdit) [] = some l ∧ CtnsAs l m :=
  ctn_edits es [] (fun _ => none) m ⟨List.Pairwise.nil, fun _ => trivial⟩ ho h

/-- Two entries, the second created first; the fingerprint of one is changed, the other is removed and created anew. -/
def ctnSample : List CtnEdit :=
  [.create 9 ⟨2, none, some 50⟩, .create 4 ⟨0, some 60, some 51⟩, .change 4 ⟨none, .keep, .replace 52⟩, .delete 9 [], .create 9 ⟨0, some 61, none⟩]

example : onlyFingerprints ctnSample := by
  intro k e h
  simp only [ctnSample, List.mem_cons, List.not_mem_nil, or_false, reduceCtorEq, false_or, Edit.change.injEq] at h
  rw [h.2]; exact ⟨rfl, rfl⟩

example : (patchCtns (fun _ => none) ctnSample).isSome = true ∧ ctnNodes (ctnSample.map ctnEdit) [] = some [⟨4, some 52, 0, some 60⟩, ⟨9, none, 0, some 61⟩] := by
  decide +kernel

/-- **C135, false in general.** The name of an entry changed by a diff: certificates are still mapped to the old user name. -/
theorem ctn_follows_diffs_false : ¬ CtnFollowsDiffs := by
  intro h
  obtain ⟨l, h1, h2⟩ := h [.create 1 ⟨0, some 60, some 50⟩, .change 1 ⟨none, .replace 61, .keep⟩]
    (upd (upd (fun _ => none) 1 (some ⟨0, some 60, some 50⟩)) 1 (some ⟨0, some 61, some 50⟩)) rfl
  have hs : ctnNodes ([.create 1 ⟨0, some 60, some 50⟩, .change 1 ⟨none, .replace 61, .keep⟩].map ctnEdit) [] = some [⟨1, some 50, 0, some 60⟩] := by decide
  rw [hs] at h1
  cases h1
  have := (h2.2 1).2.1
  exact absurd this (by decide)

/-- The same with the map type: certificates are still mapped to the fixed name after the map type is `common-name` and the name is gone. -/
theorem ctn_map_type_stays : ∃ m, patchCtns (fun _ => none) [.create 1 ⟨0, some 60, some 50⟩, .change 1 ⟨some 5, .delete 60, .keep⟩] = some m ∧
    (m 1).map (fun c => (c.mapType, c.name)) = some (5, none) ∧
    ctnNodes ([.create 1 ⟨0, some 60, some 50⟩, .change 1 ⟨some 5, .delete 60, .keep⟩].map ctnEdit) [] = some [⟨1, some 50, 0, some 60⟩] :=
  ⟨_, rfl, rfl, by decide⟩

end Verif.Props
