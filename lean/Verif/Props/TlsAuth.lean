import Std.Data.String.ToNat
import Verif.Lemmas.TlsRun

namespace Verif.Props

open Verif.TlsAuth

/-! ## C37: the first matching entry -/

theorem firstYield_append_left {l m : List Ctn} {chain : List Cert} {u : Text} (h : FirstYield l chain u) : FirstYield (l ++ m) chain u := by
  obtain ⟨pre, e, post, rfl, h⟩ := h
  exact ⟨pre, e, post ++ m, by simp, h⟩

theorem firstYield_append_right {l m : List Ctn} {chain : List Cert} {u : Text} (hl : ∀ e ∈ l, ∀ c ∈ chain, ∀ v, ¬ Yields e c v)
    (h : FirstYield m chain u) : FirstYield (l ++ m) chain u := by
  obtain ⟨pre, e, post, rfl, h1, h2⟩ := h
  refine ⟨l ++ pre, e, post, by simp, ?_, h2⟩
  intro e' he'
  rcases List.mem_append.mp he' with h | h
  · exact hl e' h
  · exact h1 e' h

/-- C37: the user name is that of the first entry, of the endpoint and then of the referenced one, that fits a certificate of the chain and gives a name;
without such an entry there is none. -/
theorem cert_to_name_first (o : Endpt) (chain : List Cert) (hr : ∀ c ∈ chain, Readable c) (hu : ∀ e ∈ allEntries o, FpUsable e) (href : o.ref ≠ some none) :
    (endptName o chain = .no ∧ ∀ e ∈ allEntries o, ∀ c ∈ chain, ∀ v, ¬ Yields e c v) ∨
    ∃ u, endptName o chain = .name u ∧ FirstYield (allEntries o) chain u ∧ ∀ v, FirstYield (allEntries o) chain v → v = u := by
  have fin : ∀ u, endptName o chain = .name u → FirstYield (allEntries o) chain u →
      ∃ u, endptName o chain = .name u ∧ FirstYield (allEntries o) chain u ∧ ∀ v, FirstYield (allEntries o) chain v → v = u :=
    fun u h1 h2 => ⟨u, h1, h2, fun v hv => firstYield_unique hr hv h2⟩
  rcases entriesLoop_spec chain hr o.own.ctn (fun e he => hu e (by simp [allEntries, he])) with ⟨h1, h2⟩ | ⟨u, h1, h2⟩
  · cases hf : o.ref with
    | none =>
      refine .inl ⟨by simp only [endptName, h1, hf], ?_⟩
      intro e he
      exact h2 e (by simpa [allEntries, hf] using he)
    | some x =>
      cases x with
      | none => exact absurd hf href
      | some r =>
        have ha : allEntries o = o.own.ctn ++ r.ctn := by simp [allEntries, hf]
        have hn : endptName o chain = entriesLoop chain r.ctn := by simp only [endptName, h1, hf]
        rcases entriesLoop_spec chain hr r.ctn (fun e he => hu e (by simp [ha, he])) with ⟨h3, h4⟩ | ⟨u, h3, h4⟩
        · refine .inl ⟨by rw [hn, h3], ?_⟩
          intro e he
          rw [ha] at he
          rcases List.mem_append.mp he with h | h
          · exact h2 e h
          · exact h4 e h
        · exact .inr (fin u (by rw [hn, h3]) (ha ▸ firstYield_append_right h2 h4))
  · exact .inr (fin u (by simp only [endptName, h1]) (firstYield_append_left h2))

/-- C37: a fingerprint is compared as octets, whatever the case of its digits. -/
theorem fingerprint_octets (t : Text) (k x : Nat) (d : List Nat) (c : Cert) (hc : Readable c) (h : FpOctets t (k :: x :: d)) :
    fpMatch (some t) c = .flag true ↔ k ∈ [1, 2, 3, 4, 5, 6] ∧ c.digest k = some (x :: d) := by
  rw [fpMatch_usable c hc h]
  split
  · simp [*]
  · simp [*]

/-- Certificates for the examples: the digests are the number of the certificate and that of the algorithm. -/
def exCert (id : Nat) (subject : String) (sans : List San) : Cert := ⟨id, fun k => some [id, k], some subject.toList, some sans⟩

/-- An entry for the examples. -/
def exEntry (fp : Option String) (mt : MapType) (name : Option String) : Ctn := ⟨fp.map (·.toList), mt, name.map (·.toList)⟩

theorem exCert_readable (id : Nat) (h : id < 256) (s : String) (sans : List San) (hs : ∀ o, San.ip o ∈ sans → ∀ b ∈ o, b < 256) : Readable (exCert id s sans) :=
  ⟨fun k hk => ⟨id, [k], rfl, by simp at hk; simp [h]; omega⟩, ⟨_, rfl⟩, fun l hl => by cases hl; exact hs⟩

example : fpMatch (some "04:0A:04".toList) (exCert 10 "/CN=a" []) = .flag true := by decide +kernel
example : fpMatch (some "04:0a:05".toList) (exCert 10 "/CN=a" []) = .flag false := by decide +kernel
example : endptName ⟨⟨some [], [exEntry (some "04:0B:04") .specified (some "ca-user"), exEntry (some "04:0A:04") .any none]⟩, none⟩
    [exCert 10 "/CN=a" [.dns "h".toList], exCert 11 "/CN=ca" []] = .name "ca-user".toList := by decide +kernel
example : endptName ⟨⟨some [], [exEntry (some "04:0B:04") .any none]⟩, some (some ⟨some [], [exEntry (some "01:0A:01") .ip none]⟩)⟩
    [exCert 10 "/CN=a" [.dns "h".toList, .ip [10, 0, 0, 1]], exCert 11 "/CN=ca" []] = .name "10.0.0.1".toList := by decide +kernel

/-! ## C38: the common name -/

theorem strstr_slash {x rest : Text} (hx : ¬ Occurs ['C', 'N', '='] x) (hr : rest = [] ∨ ∃ r, rest = '/' :: r) :
    strstr ['C', 'N', '='] (x ++ rest) = strstr ['C', 'N', '='] rest := by
  induction x with
  | nil => rfl
  | cons c t ih =>
    have ht : ¬ Occurs ['C', 'N', '='] t := fun ⟨a, b, h⟩ => hx ⟨c :: a, b, by simp [h]⟩
    have hp : ¬ (['C', 'N', '='].isPrefixOf (c :: (t ++ rest))) = true := by
      rw [List.isPrefixOf_iff_prefix]
      rintro ⟨v, hv⟩
      rcases hr with rfl | ⟨r, rfl⟩
      · rw [List.append_nil] at hv
        exact hx ⟨[], v, by simpa using hv.symm⟩
      · match t with
        | [] => simp at hv
        | [d] => simp at hv
        | d :: e :: w =>
          simp at hv
          exact hx ⟨[], w, by simp [← hv.1, ← hv.2.1, ← hv.2.2.1]⟩
    rw [List.cons_append, strstr, if_neg hp, ih ht]

theorem strstr_equals {k z : Text} (hk : ¬ Occurs ['C', 'N', '='] (k ++ ['='])) :
    strstr ['C', 'N', '='] (k ++ '=' :: z) = strstr ['C', 'N', '='] z := by
  induction k with
  | nil =>
    rw [List.nil_append, strstr, if_neg (by simp [List.isPrefixOf])]
  | cons c t ih =>
    have ht : ¬ Occurs ['C', 'N', '='] (t ++ ['=']) := fun ⟨a, b, h⟩ => hk ⟨c :: a, b, by simp [h]⟩
    have hp : ¬ (['C', 'N', '='].isPrefixOf (c :: (t ++ '=' :: z))) = true := by
      rw [List.isPrefixOf_iff_prefix]
      rintro ⟨v, hv⟩
      match t with
      | [] => simp at hv
      | [d] =>
        simp at hv
        exact hk ⟨[], [], by simp [← hv.1, ← hv.2.1]⟩
      | d :: e :: w =>
        simp at hv
        exact hk ⟨[], w ++ ['='], by simp [← hv.1, ← hv.2.1, ← hv.2.2.1]⟩
    rw [List.cons_append, strstr, if_neg hp, ih ht]

theorem oneline_start (l : List (Text × Text)) : oneline l = [] ∨ ∃ r, oneline l = '/' :: r := by
  cases l with
  | nil => exact .inl rfl
  | cons p t => exact .inr ⟨_, rfl⟩

/-- C38, OpenSSL, partial: the common name is found when `CN=` does not occur before it and it has no slash in it. -/
theorem common_name_partial (pre post : List (Text × Text)) (v : Text)
    (hpre : ∀ p ∈ pre, ¬ Occurs ['C', 'N', '='] (p.1 ++ ['=']) ∧ ¬ Occurs ['C', 'N', '='] p.2) (hv : '/' ∉ v) :
    commonName (oneline (pre ++ (['C', 'N'], v) :: post)) = some v := by
  have hs : strstr ['C', 'N', '='] (oneline (pre ++ (['C', 'N'], v) :: post)) = some ('C' :: 'N' :: '=' :: (v ++ oneline post)) := by
    induction pre with
    | nil =>
      simp only [List.nil_append, oneline, List.cons_append]
      rw [strstr, if_neg (by simp [List.isPrefixOf]), strstr, if_pos (by simp [List.isPrefixOf])]
    | cons p t ih =>
      obtain ⟨k, w⟩ := p
      obtain ⟨h1, h2⟩ := hpre (k, w) (by simp)
      have : oneline ((k, w) :: t ++ (['C', 'N'], v) :: post) = '/' :: (k ++ '=' :: (w ++ oneline (t ++ (['C', 'N'], v) :: post))) := by
        simp [oneline]
      rw [this, strstr, if_neg (by simp [List.isPrefixOf]), strstr_equals h1, strstr_slash h2 (oneline_start _)]
      exact ih (fun q hq => hpre q (by simp [hq]))
  unfold commonName rdnSep
  rw [hs]
  simp only [Option.map_some, List.drop_succ_cons, List.drop_zero, Option.some.injEq]
  exact takeWhile_split '/' v _ hv (oneline_start post)

example : commonName (oneline [("C".toList, "CZ".toList), ("CN".toList, "bob".toList), ("O".toList, "x".toList)]) = some "bob".toList := by decide +kernel

/-- C38 is false with OpenSSL: a client certified as organization `CN=admin`, common name `bob`, is user `admin`; a slash cuts the common name. -/
theorem common_name_false :
    ¬ ∀ (pre post : List (Text × Text)) (v : Text), (∀ p ∈ pre, p.1 ≠ ['C', 'N']) → commonName (oneline (pre ++ (['C', 'N'], v) :: post)) = some v := by
  intro h
  exact absurd (h [("O".toList, "CN=admin".toList)] [] "bob".toList (by decide)) (by decide +kernel)

example : commonName (oneline [("O".toList, "CN=admin".toList), ("CN".toList, "bob".toList)]) = some "admin".toList := by decide +kernel
example : commonName (oneline [("CN".toList, "host/a".toList)]) = some "host".toList := by decide +kernel

/-- C38, mbedTLS, partial: the common name as the only attribute. -/
theorem common_name_mbedtls_partial (v : Text) (hv : '/' ∉ v) : commonName (dnGets [(['C', 'N'], v)]) = some v := by
  rw [commonName_iff]
  exact ⟨[], [], by simp [dnGets], hv, .inl rfl, by simp⟩

/-- C38 is false with mbedTLS: whatever attributes follow the common name become part of the user name. -/
theorem common_name_mbedtls_false (v : Text) (rest : List (Text × Text)) (hr : rest ≠ []) (hv : '/' ∉ v) (hs : '/' ∉ dnGets rest) :
    commonName (dnGets ((['C', 'N'], v) :: rest)) = some (v ++ ',' :: ' ' :: dnGets rest) := by
  rw [commonName_iff]
  cases rest with
  | nil => exact absurd rfl hr
  | cons p t =>
    refine ⟨[], [], by simp [dnGets], ?_, .inl rfl, by simp⟩
    simp [hv, hs]

example : commonName (dnGets [("CN".toList, "bob".toList), ("O".toList, "x".toList)]) = some "bob, O=x".toList := by decide +kernel

/-! ## C36: only trusted certificates -/

/-- OpenSSL's reports on one chain: those at depth 0 are about the client's certificate and there is one besides "self-signed certificate in chain"
(which is reported for the top of a longer chain). -/
structure Reports (evs : List Ev) (peer : Cert) : Prop where
  onPeer : ∀ ev ∈ evs, ev.depth = 0 → ev.cert = peer
  reported : ∃ ev ∈ evs, ev.depth = 0 ∧ ¬ (ev.preverify = false ∧ ev.err = .selfSignedInChain)

/-- C36, C77, C78: an accepted client has the user name its certificates map to, the application agreed to it, and the client's certificate is remembered. -/
theorem tls_accept_user (o : Endpt) (userOk : Text → Bool) (chain : List Cert) (peer : Cert) (evs : List Ev) (hev : Reports evs peer) (s : Sess)
    (h : run o userOk chain peer ⟨none, none⟩ evs = some s) :
    ∃ u, s.username = some u ∧ endptName o chain = .name u ∧ userOk u = true ∧ s.clientCert = some peer := by
  have hI := runInv_of_run hev.onPeer h
  obtain ⟨ev, he, h0, hn⟩ := hev.reported
  cases hu : s.username with
  | none => exact absurd (hI.noName hu ev he h0) hn
  | some u =>
    obtain ⟨h1, h2, -⟩ := hI.name u hu
    exact ⟨u, rfl, h1, h2, hI.cert ev he h0⟩

/-- C36, OpenSSL, partial: without errors above the client's certificate, an accepted client's chain verified completely or its certificate is configured.
Missing: errors above the client's certificate, see `tls_accept_false`. `hord`: after the call for the verified client certificate OpenSSL does not report
missing issuers. -/
theorem tls_accept_partial (o : Endpt) (userOk : Text → Bool) (chain : List Cert) (peer : Cert) (evs : List Ev) (hev : Reports evs peer) (s : Sess)
    (h : run o userOk chain peer ⟨none, none⟩ evs = some s) (habove : ∀ ev ∈ evs, ev.depth > 0 → ev.preverify = true)
    (hord : ∀ a e b, evs = a ++ e :: b → e.depth = 0 → e.preverify = true → ∀ f ∈ b, f.preverify = false → f.err = .other) :
    (∀ ev ∈ evs, ev.preverify = true) ∨ Configured o peer := by
  have hI := runInv_of_run hev.onPeer h
  obtain ⟨u, hu, -⟩ := tls_accept_user o userOk chain peer evs hev s h
  obtain ⟨-, -, hc | ⟨pre, e, post, he, h0, hp, hpre⟩⟩ := hI.name u hu
  · exact .inr hc
  · refine .inl ?_
    intro ev hmem
    cases hpv : ev.preverify with
    | true => rfl
    | false =>
      have hd : ev.depth = 0 := by
        apply Classical.byContradiction
        intro hd
        have := habove ev hmem (by omega)
        rw [hpv] at this
        cases this
      have hno := hI.noOther ev hmem hd hpv
      rw [he] at hmem
      rcases List.mem_append.mp hmem with h1 | h1
      · exact absurd hd (hpre ev h1)
      · rcases List.mem_cons.mp h1 with rfl | h1
        · rw [hpv] at hp; cases hp
        · exact absurd (hord pre e post he h0 hp ev h1 hpv) hno

/-- C36, OpenSSL, partial: whatever else is reported, a client whose certificate is not configured is refused when its own certificate has an error that is not about the issuer,
such as being expired or revoked, or when there is a self-signed certificate in its chain that is not trusted, or its first report is an error. -/
theorem tls_refuse_partial (o : Endpt) (userOk : Text → Bool) (chain : List Cert) (peer : Cert) (evs : List Ev) (hpeer : ∀ ev ∈ evs, ev.depth = 0 → ev.cert = peer) (ev : Ev)
    (hmem : ev ∈ evs) (h0 : ev.depth = 0) (hf : ev.preverify = false)
    (hbad : ev.err = .other ∨ (¬ Configured o peer ∧ (ev.err = .selfSignedInChain ∨ ∃ pre post, evs = pre ++ ev :: post ∧ ∀ e ∈ pre, e.depth ≠ 0))) :
    run o userOk chain peer ⟨none, none⟩ evs = none := by
  cases hr : run o userOk chain peer ⟨none, none⟩ evs with
  | none => rfl
  | some s =>
    exfalso
    have hI := runInv_of_run hpeer hr
    rcases hbad with hb | ⟨hc, hb | ⟨pre, post, he, hpre⟩⟩
    · exact hI.noOther ev hmem h0 hf hb
    · exact hc (hI.configured ev hmem h0 hf hb)
    · cases hu : s.username with
      | none => exact hc (hI.configured ev hmem h0 hf (hI.noName hu ev hmem h0).2)
      | some u =>
        obtain ⟨-, -, h1 | ⟨pre', e, post', he', h0', hp', hpre'⟩⟩ := hI.name u hu
        · exact hc h1
        · have := first_unique (fun e : Ev => e.depth = 0) he he' hpre hpre' h0 h0'
          rw [this, hp'] at hf
          cases hf

/-- C36: a client whose chain verifies completely, that maps to a user name and is not turned down by the application, is accepted. -/
theorem tls_accepts_trusted (o : Endpt) (userOk : Text → Bool) (chain : List Cert) (peer : Cert) (evs : List Ev) (hev : Reports evs peer) (u : Text)
    (hok : ∀ ev ∈ evs, ev.preverify = true ∧ ev.names = true) (hu : endptName o chain = .name u) (hk : userOk u = true) :
    ∃ s, run o userOk chain peer ⟨none, none⟩ evs = some s ∧ s.username = some u := by
  have key : ∀ (evs : List Ev) (s : Sess), (∀ ev ∈ evs, ev.preverify = true ∧ ev.names = true) → (s.username = none ∨ s.username = some u) →
      ∃ s', run o userOk chain peer s evs = some s' := by
    intro evs
    induction evs with
    | nil => exact fun s _ _ => ⟨s, rfl⟩
    | cons ev t ih =>
      intro s hok hs
      obtain ⟨h1, h2⟩ := hok ev (by simp)
      have hv : cbVerify o userOk chain peer s ev = (if ev.depth = 0 then { s with username := some u } else s, .ok) := by
        unfold cbVerify
        rw [if_pos h1, h2]
        exact verifyCert_accepts hs hu hk (.inl rfl)
      have hc : ∃ s1, callback o userOk chain peer s ev = .ret s1 true ∧ (s1.username = none ∨ s1.username = some u) := by
        unfold callback
        rw [hv]
        refine ⟨_, rfl, ?_⟩
        split <;> split <;> first | exact .inr rfl | exact hs
      obtain ⟨s1, hc1, hc2⟩ := hc
      obtain ⟨s', hs'⟩ := ih s1 (fun e he => hok e (by simp [he])) hc2
      exact ⟨s', by simp only [run, hc1, hs']⟩
  obtain ⟨s, hs⟩ := key evs ⟨none, none⟩ hok (.inl rfl)
  obtain ⟨v, h1, h2, -⟩ := tls_accept_user o userOk chain peer evs hev s hs
  rw [hu] at h2
  cases h2
  exact ⟨s, hs, h1⟩

/-- The endpoint of the counterexamples: users are named by the common name of their certificate. -/
def exEndpt : Endpt := ⟨⟨some [], [exEntry none .commonName none]⟩, none⟩

/-- C36 is false with OpenSSL: a client that makes up an issuer's certificate and with it one for `admin` is accepted, since the missing trust in the issuer is
reported for the issuer's certificate and ignored there; so is a client whose certificate was issued by an expired authority. -/
theorem tls_accept_false :
    ∃ (o : Endpt) (chain : List Cert) (peer : Cert), ¬ Configured o peer ∧ (∀ c ∈ chain, ¬ Configured o c) ∧
      ∀ err, err = .unableToGetIssuerLocally ∨ err = .unableToGetIssuer ∨ err = .other →
      ∃ s evs, Reports evs peer ∧ evs = [⟨false, 1, err, exCert 11 "/CN=made up" [], true⟩, ⟨true, 0, .other, peer, true⟩] ∧
        run o (fun _ => true) chain peer ⟨none, none⟩ evs = some s ∧ s.username = some "admin".toList := by
  have hnc : ∀ c, ¬ Configured exEndpt c := by
    rintro c ⟨l, c', h1, -, h2 | ⟨r, h2, -⟩⟩
    · cases h2; simp at h1
    · cases h2
  refine ⟨exEndpt, [exCert 10 "/CN=admin" [], exCert 11 "/CN=made up" []], exCert 10 "/CN=admin" [], hnc _, fun c _ => hnc c, ?_⟩
  intro err herr
  refine ⟨⟨some "admin".toList, some (exCert 10 "/CN=admin" [])⟩, _, ⟨?_, ?_⟩, rfl, ?_, rfl⟩
  · intro ev hev h0
    simp only [List.mem_cons, List.not_mem_nil, or_false] at hev
    rcases hev with rfl | rfl
    · cases h0
    · rfl
  · exact ⟨_, List.mem_cons_of_mem _ (List.mem_cons_self ..), rfl, by simp⟩
  · rcases herr with rfl | rfl | rfl <;> rfl

example : run exEndpt (fun u => u != "admin".toList) [exCert 10 "/CN=admin" []] (exCert 10 "/CN=admin" []) ⟨none, none⟩ [⟨true, 0, .other, exCert 10 "/CN=admin" [], true⟩] = none := by
  rfl
example : (run exEndpt (fun u => u != "admin".toList) [exCert 10 "/CN=bob" []] (exCert 10 "/CN=bob" []) ⟨none, none⟩
    [⟨true, 1, .other, exCert 11 "/CN=ca" [], true⟩, ⟨true, 0, .other, exCert 10 "/CN=bob" [], true⟩]).map (·.username) = some (some "bob".toList) := by rfl

/-- The reports of mbedTLS: from the top of the chain down to the client's certificate; a certificate that is there is not missing. -/
structure MReports (pre : List MEv) (last : MEv) : Prop where
  above : ∀ ev ∈ pre, ev.depth > 0
  isLast : last.depth = 0
  present : ∀ ev ∈ pre ++ [last], ev.flags.missing = false

theorem verifyCert_above {lib : Lib} {o : Endpt} {userOk : Text → Bool} {chain : List Cert} {s : Sess} {cert : Cert} {depth : Nat} {names trusted : Bool} (h : depth > 0) :
    (verifyCert lib o userOk chain s cert depth names trusted).2 ≠ .fail := by
  unfold verifyCert
  split
  · simp
  · split
    · simp
    · rw [if_neg (by omega)]; simp

/-- C36, C77, C78, mbedTLS: an accepted client's chain verified completely, or everything above its certificate verified and the certificate is a configured one;
it has the user name the certificates map to, and the application agreed to it. -/
theorem tls_accept_mbedtls (o : Endpt) (userOk : Text → Bool) (pre : List MEv) (last : MEv) (hev : MReports pre last) (s : Sess)
    (h : mRun o userOk [] ⟨none, none⟩ (pre ++ [last]) = some s) :
    (∀ ev ∈ pre, ev.flags = noFlags) ∧ (last.flags = noFlags ∨ (last.flags = ⟨true, false, false⟩ ∧ Configured o last.cert)) ∧
    ∃ u, s.username = some u ∧ endptName o ((pre ++ [last]).map (·.cert)) = .name u ∧ userOk u = true ∧ s.clientCert = some last.cert := by
  have key : ∀ (pre : List MEv) (chain : List Cert), (∀ ev ∈ pre, ev.depth > 0) → (∀ ev ∈ pre ++ [last], ev.flags.missing = false) →
      mRun o userOk chain ⟨none, none⟩ (pre ++ [last]) = some s →
      (∀ ev ∈ pre, ev.flags = noFlags) ∧ (last.flags = noFlags ∨ (last.flags = ⟨true, false, false⟩ ∧ Configured o last.cert)) ∧
      ∃ u, s.username = some u ∧ endptName o (chain ++ (pre ++ [last]).map (·.cert)) = .name u ∧ userOk u = true ∧ s.clientCert = some last.cert := by
    intro pre
    induction pre with
    | nil =>
      intro chain _ hm hrun
      refine ⟨by simp, ?_⟩
      simp only [List.nil_append, mRun] at hrun
      split at hrun
      · rename_i s' f hc
        split at hrun
        · rename_i hf
          subst hf
          cases hrun
          rcases mCallback_noFlags hc with ⟨trusted, s1, hv, ht, hs'⟩ | ⟨hd, -⟩
          · rcases verifyCert_ok hv with ⟨-, h1 | h1⟩ | ⟨-, -, h3, u, h4, h5, rfl⟩
            · cases h1
            · have := hev.isLast; omega
            · refine ⟨?_, u, ?_, ?_, h5, ?_⟩
              · rcases ht with ⟨-, ht⟩ | ⟨rfl, ⟨-, ht⟩ | ht⟩
                · exact .inl ht
                · refine .inr ⟨ht, ?_⟩
                  rcases h3 with h3 | h3
                  · cases h3
                  · exact h3
                · have := hm last (by simp)
                  rw [ht] at this
                  cases this
              · rw [hs']; split <;> rfl
              · simpa using h4
              · rw [hs', if_pos ⟨hev.isLast, rfl⟩]
          · have := hev.isLast; omega
        · cases hrun
      · cases hrun
    | cons ev t ih =>
      intro chain hd hm hrun
      have hdev := hd ev (by simp)
      simp only [List.cons_append, mRun] at hrun
      split at hrun
      · rename_i s' f hc
        split at hrun
        · rename_i hf
          subst hf
          have hs : s' = ⟨none, none⟩ ∧ ev.flags = noFlags := by
            rcases mCallback_noFlags hc with ⟨trusted, s1, hv, ht, hs'⟩ | ⟨-, -, hv⟩
            · rcases verifyCert_ok hv with ⟨rfl, -⟩ | ⟨-, h0, -⟩
              · refine ⟨?_, ?_⟩
                · rw [hs', if_neg (by omega)]
                · rcases ht with ⟨-, ht⟩ | ⟨rfl, ⟨h0, -⟩ | ht⟩
                  · exact ht
                  · omega
                  · have := hm ev (by simp)
                    rw [ht] at this
                    cases this
              · omega
            · exact absurd (by rw [hv]) (verifyCert_above hdev)
          rw [hs.1] at hrun
          obtain ⟨h1, h2, u, h3, h4, h5⟩ := ih (chain ++ [ev.cert]) (fun e he => hd e (by simp [he])) (fun e he => hm e (List.mem_cons_of_mem _ he)) hrun
          refine ⟨?_, h2, u, h3, ?_, h5⟩
          · intro e he
            rcases List.mem_cons.mp he with rfl | he
            · exact hs.2
            · exact h1 e he
          · simpa using h4
        · cases hrun
      · cases hrun
  simpa using key pre [] hev.above hev.present h

example : (mRun exEndpt (fun _ => true) [] ⟨none, none⟩ [⟨0, noFlags, exCert 10 "/CN=bob" [], true⟩]).map (·.username) = some (some "bob".toList) := by rfl
example : mRun exEndpt (fun _ => true) [] ⟨none, none⟩ [⟨1, ⟨true, false, false⟩, exCert 11 "/CN=made up" [], true⟩, ⟨0, noFlags, exCert 10 "/CN=admin" [], true⟩] = none := by rfl

/-! ## C73: the name is taken from the client's own certificate -/

/-- C73, partial: the user name is one written in the configuration or taken from the client's own certificate, if the entries that take the name from a certificate
have fingerprints that fit none of the other certificates in the chain. -/
theorem own_name_partial (o : Endpt) (chain : List Cert) (peer : Cert) (hr : ∀ c ∈ chain, Readable c) (hu : ∀ e ∈ allEntries o, FpUsable e) (href : o.ref ≠ some none)
    (hown : ∀ e ∈ allEntries o, e.mapType ≠ .specified → ∀ c ∈ chain, FpFits e c → c = peer) (u : Text) (h : endptName o chain = .name u) :
    (∃ e ∈ allEntries o, e.mapType = .specified ∧ e.name = some u) ∨ ∃ e ∈ allEntries o, NameOf e peer u := by
  rcases cert_to_name_first o chain hr hu href with ⟨h1, -⟩ | ⟨v, h1, ⟨pre, e, post, h2, -, cpre, c, cpost, h3, -, h4, h5⟩, -⟩
  · rw [h] at h1; cases h1
  · rw [h] at h1
    cases h1
    have he : e ∈ allEntries o := by rw [h2]; simp
    by_cases hm : e.mapType = .specified
    · refine .inl ⟨e, he, hm, ?_⟩
      simpa only [NameOf, hm] using h5
    · have := hown e he hm c (by rw [h3]; simp) h4
      exact .inr ⟨e, he, this ▸ h5⟩

/-- C73 is false: with the fingerprint of the authority (or with mbedTLS, where the chain starts at the authority, without one) the name is taken from the authority's certificate. -/
theorem own_name_false :
    endptName ⟨⟨some [], [exEntry (some "04:0b:04") .commonName none]⟩, none⟩ [exCert 10 "/CN=bob" [], exCert 11 "/CN=Authority" []] = .name "Authority".toList ∧
    (mRun exEndpt (fun _ => true) [] ⟨none, none⟩ [⟨1, noFlags, exCert 11 "CN=Authority" [], true⟩, ⟨0, noFlags, exCert 10 "CN=bob" [], true⟩]).map (·.username) =
      some (some "Authority".toList) :=
  ⟨by decide +kernel, by rfl⟩

/-! ## C74: reading the fingerprint -/

/-- C74, partial: a fingerprint of three characters or more is never read behind its end. -/
theorem fingerprint_memory_partial (t : Text) (c : Cert) (h : 3 ≤ t.length) : fpMatch (some t) c ≠ .overread := by
  have hc : ∀ k, fpCompare t c k ≠ .overread := by
    intro k
    unfold fpCompare
    split
    · decide
    · rw [if_neg (by omega)]; simp
  unfold fpMatch
  dsimp only
  repeat' split
  all_goals first | exact hc _ | decide

example : (fpMatch (some "01:".toList) (exCert 10 "" [])) = .flag false := by decide +kernel

/-- C74 is false: a fingerprint that is only the number of an algorithm is valid for the YANG module and read behind its end. -/
theorem fingerprint_memory_false : ∃ t, FpOctets t [1] ∧ ∀ c : Cert, Readable c → fpMatch (some t) c = .overread := by
  refine ⟨['0', '1'], .one (x := 0) (y := 1) (HexVal.digit 0 (by omega)) (HexVal.digit 1 (by omega)), ?_⟩
  intro c hc
  obtain ⟨x, d, hd, -⟩ := hc.digest 1 (by simp)
  simp [fpMatch, fpCompare, hd]

/-! ## C75: names from alternative names -/

/-- C75, partial: for certificates whose alternative names have no NUL character and no upper case letters in the case-insensitive parts, the name is what the YANG module wants. -/
theorem san_name_partial (c : Cert) (e : Ctn) (l : List San) (hc : Readable c) (hl : c.sans = some l) (hm : e.mapType = .rfc822 ∨ e.mapType = .dns ∨ e.mapType = .ip ∨ e.mapType = .any)
    (hn : ∀ s ∈ l, NormalSan s) (u : Text) (h : getUsername c e = .name u) :
    ∃ pre s post, l = pre ++ s :: post ∧ RfcName s u ∧ (∀ s' ∈ pre, e.mapType = .any → s' = .other ∨ ∃ o, s' = .ip o ∧ o.length ≠ 4 ∧ o.length ≠ 16) ∧
      (e.mapType = .rfc822 → ∃ v, s = .email v ∧ ∀ w, .email w ∉ pre) ∧ (e.mapType = .dns → ∃ v, s = .dns v ∧ ∀ w, .dns w ∉ pre) := by
  have hno : NameOf e c u := (getUsername_iff c e hc (by rcases hm with h | h | h | h <;> rw [h] <;> decide) u).mp h
  have hx : ∃ pre s post ty, l = pre ++ s :: post ∧ SanText s ty u ∧ (e.mapType = .any ∨ e.mapType = ty) ∧
      ∀ s' ∈ pre, ∀ ty' u', SanText s' ty' u' → e.mapType ≠ .any ∧ e.mapType ≠ ty' := by
    unfold NameOf at hno
    rcases hm with hm | hm | hm | hm <;>
      (rw [hm] at hno; obtain ⟨l', pre, s, post, ty, h0, h⟩ := hno; rw [hl] at h0; cases h0; rw [hm]; exact ⟨pre, s, post, ty, h⟩)
  obtain ⟨pre, s, post, ty, h1, h2, h3, h4⟩ := hx
  have hs := hn s (by rw [h1]; simp)
  have sval : ∀ s' ∈ pre, ∀ ty' u', sanValue s' = some (ty', u') → e.mapType ≠ .any ∧ e.mapType ≠ ty' := by
    intro s' hs' ty' u' hv
    exact h4 s' hs' ty' u' ((sanValue_iff s' (fun o ho => hc.octets l hl o (by rw [h1, ← ho]; simp [hs'])) ty' u').mp hv)
  refine ⟨pre, s, post, h1, ?_, ?_, ?_, ?_⟩
  · cases h2 with
    | email a b r =>
      obtain ⟨hz, loc, host, rfl, hat, hlow⟩ := hs
      have : u = loc ++ '@' :: host := by
        rcases r with rfl | ⟨r', rfl⟩
        · rw [List.append_nil] at a; exact a.symm
        · rw [a] at hz; simp at hz
      rw [this]
      have := RfcName.email (loc := loc) hat
      rwa [hlow] at this
    | dns a b r =>
      obtain ⟨hz, hlow⟩ := hs
      rcases r with rfl | ⟨r', rfl⟩
      · rw [List.append_nil] at a
        have := RfcName.dns (v := u)
        rw [a] at hlow ⊢
        rwa [hlow] at this
      · rw [a] at hz; simp at hz
    | ip4 => exact .ip4
    | ip6 a b d => exact .ip6 a b d
  · intro s' hs' ha
    cases s' with
    | email v => exact absurd ha (sval _ hs' _ _ rfl).1
    | dns v => exact absurd ha (sval _ hs' _ _ rfl).1
    | other => exact .inl rfl
    | ip o =>
      refine .inr ⟨o, rfl, ?_, ?_⟩
      · intro ho
        exact absurd ha (sval _ hs' .ip (dotted o) (by simp [sanValue, ho])).1
      · intro ho
        exact absurd ha (sval _ hs' .ip (o.flatMap hex2) (by simp [sanValue, ho])).1
  · intro hr
    rcases h3 with h3 | h3
    · rw [hr] at h3; cases h3
    · rw [hr] at h3
      subst h3
      cases h2
      exact ⟨_, rfl, fun w hw => absurd hr (sval _ hw _ _ rfl).2⟩
  · intro hr
    rcases h3 with h3 | h3
    · rw [hr] at h3; cases h3
    · rw [hr] at h3
      subst h3
      cases h2
      exact ⟨_, rfl, fun w hw => absurd hr (sval _ hw _ _ rfl).2⟩

example : getUsername (exCert 1 "" [.other, .ip [1], .ip [192, 0, 2, 1], .dns "a".toList]) (exEntry none .any none) = .name "192.0.2.1".toList := by decide +kernel
example : getUsername (exCert 1 "" [.ip [32, 1, 13, 184, 0, 0, 0, 0, 0, 0, 0, 0, 0, 0, 0, 255]]) (exEntry none .ip none) = .name "20010db80000000000000000000000ff".toList := by decide +kernel

/-- C75 is false: DNS names and host parts keep their upper case letters, so that one host has several user names; and a name ends at a NUL character, so that
different alternative names give one user name. -/
theorem san_name_false :
    (∃ c e u, getUsername c e = .name u ∧ c.sans = some [.dns "Bob".toList] ∧ ¬ RfcName (.dns "Bob".toList) u) ∧
    (∃ c e u, getUsername c e = .name u ∧ c.sans = some [.email "a@B.org".toList] ∧ ¬ RfcName (.email "a@B.org".toList) u) ∧
    ∃ e v, getUsername (exCert 1 "" [.dns v]) e = .name "admin".toList ∧ v = "admin\x00.mallory.org".toList ∧ ¬ RfcName (.dns v) "admin".toList := by
  refine ⟨⟨exCert 1 "" [.dns "Bob".toList], exEntry none .dns none, "Bob".toList, by decide +kernel, rfl, ?_⟩,
    ⟨exCert 1 "" [.email "a@B.org".toList], exEntry none .rfc822 none, "a@B.org".toList, by decide +kernel, rfl, ?_⟩,
    exEntry none .dns none, _, by decide +kernel, rfl, ?_⟩
  · intro h
    have : ∀ u, RfcName (.dns "Bob".toList) u → u = "Bob".toList.map Char.toLower := by intro u hu; cases hu; rfl
    exact absurd (this _ h) (by decide +kernel)
  · intro h
    have : ∀ v u, RfcName (.email v) u → v = "a@B.org".toList → u.getLast? = some 'g' ∧ ('B' ∉ u) := by
      intro v u hu hv
      cases hu with
      | @email loc host hat =>
        have hloc : loc = ['a'] ∧ host = "B.org".toList := by
          match loc, hv with
          | [], hv => simp at hv
          | [x], hv => simp at hv; exact ⟨by simp [hv.1], by simp [hv.2]⟩
          | x :: y :: t, hv =>
            have h2 : t ++ '@' :: host = "B.org".toList := by
              have := congrArg (List.drop 2) hv
              simpa using this
            have : '@' ∈ "B.org".toList := by rw [← h2]; simp
            exact absurd this (by decide +kernel)
        rw [hloc.1, hloc.2]
        decide +kernel
    exact absurd (this _ _ h rfl).2 (by decide +kernel)
  · intro h
    have : ∀ v u, RfcName (.dns v) u → u.length = v.length := by intro v u hu; cases hu; simp
    exact absurd (this _ _ h) (by decide +kernel)

theorem digits_no_dot (n : Nat) : '.' ∉ (toString n).toList := by
  intro h
  have h' : '.' ∈ Nat.toDigits 10 n := by
    rw [← Nat.toList_repr]; exact h
  have := Nat.isDigit_of_mem_toDigits (by omega) (by omega) h'
  exact absurd this (by decide)

theorem split_at {z : Char} {a b c d : Text} (ha : z ∉ a) (hc : z ∉ c) (h : a ++ z :: b = c ++ z :: d) : a = c ∧ b = d := by
  have h1 := takeWhile_split z a (z :: b) ha (.inr ⟨b, rfl⟩)
  have h2 := takeWhile_split z c (z :: d) hc (.inr ⟨d, rfl⟩)
  rw [h, h2] at h1
  subst h1
  exact ⟨rfl, by simpa using h⟩

/-- C75: different addresses have different names. -/
theorem ip_name_injective (o o' : List Nat) (ho : ∀ b ∈ o, b < 256) (ho' : ∀ b ∈ o', b < 256) (u : Text) (h : sanValue (.ip o) = some (.ip, u)) (h' : sanValue (.ip o') = some (.ip, u)) :
    o = o' := by
  have hex_nodot : ∀ (o : List Nat), (∀ b ∈ o, b < 256) → '.' ∉ o.flatMap hex2 := by
    intro o ho hd
    obtain ⟨b, hb, hd⟩ := List.mem_flatMap.mp hd
    have := ho b hb
    simp only [hex2, List.mem_cons, List.not_mem_nil, or_false] at hd
    have nd : ∀ n < 16, '.' ≠ hexChar n := by decide
    rcases hd with hd | hd
    · exact nd _ (by omega) hd
    · exact nd _ (by omega) hd
  have four : ∀ a b c d, dotted [a, b, c, d] = (toString a).toList ++ '.' :: ((toString b).toList ++ '.' :: ((toString c).toList ++ '.' :: (toString d).toList)) := by
    intro a b c d
    simp [dotted, List.intercalate, List.intersperse]
  have flat : ∀ (o o' : List Nat), (∀ b ∈ o, b < 256) → (∀ b ∈ o', b < 256) → o.length = o'.length → o.flatMap hex2 = o'.flatMap hex2 → o = o' := by
    intro o
    induction o with
    | nil => intro o' _ _ hl _; exact (List.length_eq_zero_iff.mp hl.symm).symm
    | cons b t ih =>
      intro o' ho ho' hl h
      cases o' with
      | nil => cases hl
      | cons b' t' =>
        rw [List.flatMap_cons, List.flatMap_cons] at h
        obtain ⟨h1, h2⟩ := List.append_inj h rfl
        rw [hex2_inj (ho b (by simp)) (ho' b' (by simp)) h1,
          ih t' (fun x hx => ho x (by simp [hx])) (fun x hx => ho' x (by simp [hx])) (by simpa using hl) h2]
  simp only [sanValue] at h h'
  have dot_in : ∀ (o : List Nat), o.length = 4 → '.' ∈ dotted o := by
    intro o h4
    match o, h4 with
    | [a, b, c, d], _ => rw [four]; simp
  split at h
  · rename_i h4
    split at h'
    · rename_i h4'
      match o, o', h4, h4' with
      | [a, b, c, d], [a', b', c', d'], _, _ =>
        simp only [Option.some.injEq, Prod.mk.injEq, true_and] at h h'
        rw [← h', four, four] at h
        obtain ⟨e1, h⟩ := split_at (digits_no_dot _) (digits_no_dot _) h
        obtain ⟨e2, h⟩ := split_at (digits_no_dot _) (digits_no_dot _) h
        obtain ⟨e3, e4⟩ := split_at (digits_no_dot _) (digits_no_dot _) h
        have inj : ∀ m n : Nat, (toString m).toList = (toString n).toList → m = n := by
          intro m n hmn
          have : toString m = toString n := String.toList_inj.mp hmn
          exact Nat.repr_injective this
        rw [inj _ _ e1, inj _ _ e2, inj _ _ e3, inj _ _ e4]
    · split at h'
      · simp only [Option.some.injEq, Prod.mk.injEq, true_and] at h h'
        have := dot_in o h4
        rw [h, ← h'] at this
        exact absurd this (hex_nodot o' ho')
      · cases h'
  · split at h
    · rename_i h16
      split at h'
      · rename_i h4'
        simp only [Option.some.injEq, Prod.mk.injEq, true_and] at h h'
        have := dot_in o' h4'
        rw [h', ← h] at this
        exact absurd this (hex_nodot o ho)
      · split at h'
        · rename_i h16'
          simp only [Option.some.injEq, Prod.mk.injEq, true_and] at h h'
          exact flat o o' ho ho' (by omega) (by rw [h, h'])
        · cases h'
    · cases h

/-! ## C76: configured certificates that are none -/

/-- C76, partial: with mbedTLS, or if all configured data are certificates, no NULL pointer is used. -/
theorem ee_no_null_partial (lib : Lib) (peer : Cert) (o : Endpt)
    (h : lib = .mbedtls ∨ ∀ l, (o.own.ee = some l ∨ ∃ r, o.ref = some (some r) ∧ r.ee = some l) → none ∉ l) : verifyPeer lib peer o ≠ .null := by
  have loop : ∀ l, (lib = .mbedtls ∨ none ∉ l) → eeLoop lib peer l ≠ .null := by
    intro l
    induction l with
    | nil => intro _; simp [eeLoop]
    | cons x t ih =>
      intro hl
      cases x with
      | none =>
        rcases hl with rfl | hl
        · exact ih (.inl rfl)
        · simp at hl
      | some c =>
        simp only [eeLoop]
        split
        · decide
        · exact ih (hl.imp id (fun h => by simp at h; exact h))
  have inn : ∀ op : Opts, (∀ l, op.ee = some l → lib = .mbedtls ∨ none ∉ l) → peerIn lib peer op ≠ .null := by
    intro op hop
    unfold peerIn
    split
    · decide
    · rename_i l hl
      exact loop l (hop l hl)
  unfold verifyPeer
  split
  · decide
  · rename_i hn
    exact absurd hn (inn _ (fun l hl => h.imp id (fun h => h l (.inl hl))))
  · split
    · decide
    · decide
    · rename_i r hr
      split
      · decide
      · rename_i hn
        exact absurd hn (inn _ (fun l hl => h.imp id (fun h => h l (.inr ⟨r, hr, hl⟩))))
      · decide

/-- C76 is false with OpenSSL: an end-entity certificate in the configuration that is not one makes the server use a NULL pointer when a client with a self-signed certificate connects. -/
theorem ee_no_null_false :
    callback ⟨⟨some [none], [exEntry none .commonName none]⟩, none⟩ (fun _ => true) [exCert 10 "/CN=bob" []] (exCert 10 "/CN=bob" []) ⟨none, none⟩
      ⟨false, 0, .depthZeroSelfSigned, exCert 10 "/CN=bob" [], true⟩ = .bad := rfl

example : verifyPeer .openssl (exCert 10 "" []) ⟨⟨none, []⟩, some (some ⟨some [some (exCert 9 "" []), some (exCert 10 "" [])], []⟩)⟩ = .ok := rfl

/-! ## C37: no name without a matching fingerprint, and C36: configured certificates are found -/

/-- A certificate with any digests missing: those that exist are not empty and made of octets. -/
def DigestOctets (c : Cert) : Prop := ∀ k d, c.digest k = some d → d ≠ [] ∧ ∀ b ∈ d, b < 256

theorem fpMatch_fits (e : Ctn) (c : Cert) (hd : DigestOctets c) (hu : FpUsable e) (h : fpMatch e.fingerprint c = .flag true) : FpFits e c := by
  cases hf : e.fingerprint with
  | none => exact .inl hf
  | some t =>
    obtain ⟨k, x, d, ho⟩ := hu t hf
    rw [hf] at h
    obtain ⟨a, b, t', p, q, rfl, ha, hb, hk, ht⟩ := fpOctets_cons ho
    have cmp : ∀ n ∈ [1, 2, 3, 4, 5, 6], n = k → fpCompare (a :: b :: ':' :: t') c n = .flag true → FpFits e c := by
      rintro n hn rfl hc
      unfold fpCompare at hc
      split at hc
      · cases hc
      · rename_i d' hd'
        obtain ⟨h1, h2⟩ := hd n d' hd'
        simp only [List.length_cons, List.drop_succ_cons, List.drop_zero] at hc
        rw [if_neg (by omega), fpOctets_eqNoCase ht h1 h2] at hc
        simp only [FpRes.flag.injEq, decide_eq_true_eq] at hc
        exact .inr ⟨_, n, x :: d, hf, ho, hn, by rw [hd', hc]⟩
    have key : ∀ n, n < 10 → (a :: b :: ':' :: t').take 2 = ['0', Char.ofNat (48 + n)] → n = k := by
      intro n hn h
      rw [take2_iff ha hb _ n hn] at h
      omega
    unfold fpMatch at h
    dsimp only at h
    split at h
    · rename_i g; exact cmp 1 (by simp) (key 1 (by omega) g) h
    split at h
    · rename_i g; exact cmp 2 (by simp) (key 2 (by omega) g) h
    split at h
    · rename_i g; exact cmp 3 (by simp) (key 3 (by omega) g) h
    split at h
    · rename_i g; exact cmp 4 (by simp) (key 4 (by omega) g) h
    split at h
    · rename_i g; exact cmp 5 (by simp) (key 5 (by omega) g) h
    split at h
    · rename_i g; exact cmp 6 (by simp) (key 6 (by omega) g) h
    · cases h

/-- **C37.** Whatever the TLS library fails to read, a user name comes from an entry whose fingerprint is that of a certificate of the chain: a digest that cannot be computed
is never taken for a match. -/
theorem cert_to_name_fits (o : Endpt) (chain : List Cert) (hd : ∀ c ∈ chain, DigestOctets c) (hu : ∀ e ∈ allEntries o, FpUsable e) (u : Text)
    (h : endptName o chain = .name u) : ∃ e ∈ allEntries o, ∃ c ∈ chain, FpFits e c := by
  have loop : ∀ e, FpUsable e → ∀ l : List Cert, (∀ c ∈ l, DigestOctets c) → chainLoop e l = .name u → ∃ c ∈ l, FpFits e c := by
    intro e he l
    induction l with
    | nil => intro _ h; cases h
    | cons c t ih =>
      intro hl h
      have next : chainLoop e t = .name u → ∃ c' ∈ c :: t, FpFits e c' := by
        intro h
        obtain ⟨c', h1, h2⟩ := ih (fun c' h => hl c' (by simp [h])) h
        exact ⟨c', by simp [h1], h2⟩
      simp only [chainLoop] at h
      split at h
      · cases h
      · cases h
      · exact next h
      · exact next h
      · rename_i hm
        exact ⟨c, by simp, fpMatch_fits e c (hl c (by simp)) he hm⟩
  have entries : ∀ l : List Ctn, (∀ e ∈ l, FpUsable e) → entriesLoop chain l = .name u → ∃ e ∈ l, ∃ c ∈ chain, FpFits e c := by
    intro l
    induction l with
    | nil => intro _ h; cases h
    | cons e t ih =>
      intro hl h
      simp only [entriesLoop] at h
      split at h
      · obtain ⟨e', h1, h2⟩ := ih (fun e' h => hl e' (by simp [h])) h
        exact ⟨e', by simp [h1], h2⟩
      · refine ⟨e, by simp, loop e (hl e (by simp)) chain hd ?_⟩
        unfold certToName at h
        split at h
        · cases h
        · exact h
  unfold endptName at h
  split at h
  · split at h
    · cases h
    · cases h
    · rename_i r hr
      obtain ⟨e, h1, h2⟩ := entries r.ctn (fun e he => hu e (by simp [allEntries, hr, he])) h
      exact ⟨e, by simp [allEntries, hr, h1], h2⟩
  · obtain ⟨e, h1, h2⟩ := entries o.own.ctn (fun e he => hu e (by simp [allEntries, he])) h
    exact ⟨e, by simp [allEntries, h1], h2⟩

/-- The digest of the second certificate cannot be computed: no name. -/
example : endptName ⟨⟨some [], [exEntry (some "04:0B:04") .specified (some "ca-user")]⟩, none⟩ [⟨11, fun _ => none, none, none⟩] = .fatal := by decide +kernel

/-- **C36.** A client certificate that is one of the configured end-entity certificates, of the endpoint or of the one it refers to, is found, if all of them are certificates. -/
theorem ee_peer_found (lib : Lib) (peer : Cert) (o : Endpt) (hc : Configured o peer)
    (h : ∀ l, (o.own.ee = some l ∨ ∃ r, o.ref = some (some r) ∧ r.ee = some l) → none ∉ l) : verifyPeer lib peer o = .ok := by
  have loop : ∀ l : List (Option Cert), none ∉ l → (∃ c, some c ∈ l ∧ c.id = peer.id) → eeLoop lib peer l = .ok := by
    intro l
    induction l with
    | nil => rintro _ ⟨c, hc, _⟩; cases hc
    | cons x t ih =>
      rintro hl ⟨c, hc, hi⟩
      cases x with
      | none => simp at hl
      | some y =>
        simp only [eeLoop]
        split
        · rfl
        · rename_i hne
          refine ih (by simpa using hl) ⟨c, ?_, hi⟩
          rcases List.mem_cons.mp hc with e | e
          · cases e; exact absurd hi.symm hne
          · exact e
  have safe : ∀ l : List (Option Cert), none ∉ l → eeLoop lib peer l = .ok ∨ eeLoop lib peer l = .fail := by
    intro l
    induction l with
    | nil => intro _; exact .inr rfl
    | cons x t ih =>
      intro hl
      cases x with
      | none => simp at hl
      | some y =>
        simp only [eeLoop]
        split
        · exact .inl rfl
        · exact ih (by simpa using hl)
  obtain ⟨l, c, h1, h2, h3⟩ := hc
  rcases h3 with h3 | ⟨r, h3, h4⟩
  · have := loop l (h l (.inl h3)) ⟨c, h1, h2⟩
    simp only [verifyPeer, peerIn, h3, this]
  · have hl := loop l (h l (.inr ⟨r, h3, h4⟩)) ⟨c, h1, h2⟩
    have hr : peerIn lib peer r = .ok := by simp only [peerIn, h4, hl]
    have own : peerIn lib peer o.own = .ok ∨ peerIn lib peer o.own = .fail ∨ peerIn lib peer o.own = .fatal := by
      cases he : o.own.ee with
      | none => exact .inr (.inr (by simp only [peerIn, he]))
      | some m =>
        rcases safe m (h m (.inl he)) with g | g
        · exact .inl (by simp only [peerIn, he, g])
        · exact .inr (.inl (by simp only [peerIn, he, g]))
    rcases own with g | g | g <;> simp only [verifyPeer, g, h3, hr]

example : verifyPeer .mbedtls (exCert 10 "" []) ⟨⟨some [some (exCert 7 "" [])], []⟩, some (some ⟨some [some (exCert 9 "" []), some (exCert 10 "" [])], []⟩)⟩ = .ok := rfl

end Verif.Props
