import Verif.Lemmas.TlsLogin

/-!
# Properties: who logs in over TLS, by the configuration (C220, C221)

The callbacks of the configuration, loading the certificates and the verification together.
-/

namespace Verif.Props
open Verif.TlsLogin
open Verif.Login (TsSetUp setUp_ts)
open Verif.ConfStore (Ts TsConf Map)
open Verif.ConfTls (AuthConf CertsConf CtnConf TlsConf TlsData)
open Verif.TlsAuth (Cert Text Readable Endpt Sess Ev MEv noFlags)

/-! ## C220: nobody else gets in -/

/-- What OpenSSL does, given any trusted certificates: its reports are about one chain (`Reports`), after a verified certificate of the client it reports no missing
issuer, and the chain leads to a trusted certificate (`Chains`) if nothing was reported. -/
structure OpensslOk (Chains : (Cert → Prop) → List Cert → Prop) (hs : List Cert → Handshake) : Prop where
  reports : ∀ S, Reports (hs S).evs (hs S).peer
  order : ∀ S a e b, (hs S).evs = a ++ e :: b → e.depth = 0 → e.preverify = true → ∀ f ∈ b, f.preverify = false → f.err = .other
  verified : ∀ S, (∀ ev ∈ (hs S).evs, ev.preverify = true) → Chains (· ∈ S) (hs S).chain
  readable : ∀ S, ∀ c ∈ (hs S).chain, Readable c

/-- What must be true of an accepted client: the session has the user name that the configuration gives for the chain, the application agreed to it, the chain leads to
a configured authority or the certificate is a configured one, and it is the one remembered. -/
def TlsLoggedIn (v : Vals) (tc : TsConf) (cs : List EndConf) (userOk : Text → Bool) (Chains : (Cert → Prop) → List Cert → Prop) (chain : List Cert) (peer : Cert)
    (s : Sess) : Prop :=
  ∃ u, s.username = some u ∧ userOk u = true ∧ NameByConf v cs chain u ∧ s.clientCert = some peer ∧
    (Chains (CaConfigured v tc cs) chain ∨ EeConfigured v tc cs peer)

/-- **C220.** Full statement for OpenSSL (false, see `tls_login_configured_false`): after any data and diffs, an accepted client is one that the configuration accepts. -/
def TlsLoginConfigured (v : Vals) (spki : Nat → Bool) : Prop :=
  ∀ (Chains : (Cert → Prop) → List Cert → Prop) (ts : Ts) (tc : TsConf) (own : End) (oc : EndConf) (ref : Option (Option End)) (rc : Option EndConf) (up : Bool)
    (userOk : Text → Bool) (hs : List Cert → Handshake), TsSetUp ts tc → EndSetUp spki own oc → RefAs (EndSetUp spki) ref rc → OpensslOk Chains hs →
    FpsUsable v (oc :: rc.toList) → ∀ s, acceptOpenssl v ts own ref up userOk hs = .session s →
    ∃ S, (∀ x, x ∈ S ↔ CaConfigured v tc (oc :: rc.toList) x) ∧ TlsLoggedIn v tc (oc :: rc.toList) userOk Chains (hs S).chain (hs S).peer s

theorem chains_conf {Chains : (Cert → Prop) → List Cert → Prop} {v : Vals} {tc : TsConf} {cs : List EndConf} {S : List Cert} {chain : List Cert}
    (h : ∀ x, x ∈ S ↔ CaConfigured v tc cs x) (hc : Chains (· ∈ S) chain) : Chains (CaConfigured v tc cs) chain := by
  have : (fun x => x ∈ S) = CaConfigured v tc cs := funext fun x => propext (h x)
  rwa [this] at hc

/-- The user name of the verification is that of the configuration. -/
theorem name_by_conf {v : Vals} {tc : TsConf} {cs : List EndConf} {S : List Cert} {o : Endpt} (hp : PrepAs v tc cs S o) (hf : FpsUsable v cs) (chain : List Cert)
    (hr : ∀ c ∈ chain, Readable c) (u : Text) : TlsAuth.endptName o chain = .name u ↔ NameByConf v cs chain u := by
  rcases cert_to_name_first o chain hr (hp.fps hf) hp.ref with ⟨h1, h2⟩ | ⟨w, h1, h2, h3⟩
  · constructor
    · intro h; rw [h1] at h; cases h
    · intro h
      obtain ⟨pre, e, post, g1, -, cpre, c, cpost, g2, -, g3⟩ := (hp.name chain u).mpr h
      exact absurd g3 (h2 e (by rw [g1]; simp) c (by rw [g2]; simp) u)
  · constructor
    · intro h
      rw [h1] at h
      cases h
      exact (hp.name chain u).mp h2
    · intro h
      rw [h1, h3 u ((hp.name chain u).mpr h)]

/-- **C220, OpenSSL.** Proved for diffs without the changes that are not followed, and clients in whose chain nothing above the client's certificate fails (the callback
ignores such failures, `tls_accept_false`): an accepted client has a chain that leads to a configured authority or a configured certificate, and the user name that the
configured cert-to-name entries give. The endpoint, the one it refers to and the truststore were set up by whatever data and diffs. -/
theorem tls_login_configured_partial (v : Vals) (hv : ∀ a b, v.text a = v.text b → a = b) (spki : Nat → Bool) (Chains : (Cert → Prop) → List Cert → Prop)
    (ts : Ts) (tc : TsConf) (own : End) (oc : EndConf) (ref : Option (Option End)) (rc : Option EndConf) (up : Bool) (userOk : Text → Bool) (hs : List Cert → Handshake)
    (ht : TsSetUp ts tc) (ho : EndSafe spki own oc) (hr : RefAs (EndSafe spki) ref rc) (hlib : OpensslOk Chains hs)
    (habove : ∀ S, ∀ ev ∈ (hs S).evs, ev.depth > 0 → ev.preverify = true) (hf : FpsUsable v (oc :: rc.toList)) (s : Sess)
    (h : acceptOpenssl v ts own ref up userOk hs = .session s) :
    ∃ S, (∀ x, x ∈ S ↔ CaConfigured v tc (oc :: rc.toList) x) ∧ TlsLoggedIn v tc (oc :: rc.toList) userOk Chains (hs S).chain (hs S).peer s := by
  obtain ⟨p, h1, h2, -⟩ := prepare_as v hv ts tc (setUp_ts ts tc ht) own oc (endSafe_as spki own oc ho) ref rc (refAs_imp (endSafe_as spki) ref rc hr) up
  cases p with
  | none => simp [acceptOpenssl, h1] at h
  | some q =>
    obtain ⟨S, o⟩ := q
    have hp := h2 S o rfl
    have hrun : TlsAuth.run o userOk (hs S).chain (hs S).peer ⟨none, none⟩ (hs S).evs = some s := by
      simp only [acceptOpenssl, h1] at h
      split at h
      · cases h
      · rename_i s' hs'; cases h; exact hs'
    obtain ⟨u, g1, g2, g3, g4⟩ := tls_accept_user o userOk _ _ _ (hlib.reports S) s hrun
    refine ⟨S, hp.ca, u, g1, g3, (name_by_conf hp hf _ (hlib.readable S) u).mp g2, g4, ?_⟩
    rcases tls_accept_partial o userOk _ _ _ (hlib.reports S) s hrun (habove S) (hlib.order S) with h3 | h3
    · exact .inl (chains_conf hp.ca (hlib.verified S h3))
    · exact .inr ((hp.ee _).mp h3)

/-- What Mbed TLS does, given any trusted certificates: the reports go down to the certificate of the client, the last one (`MReports`), and the chain leads to a trusted
certificate if no flag is set. -/
structure MbedtlsOk (Chains : (Cert → Prop) → List Cert → Prop) (pre : List Cert → List MEv) (last : List Cert → MEv) : Prop where
  reports : ∀ S, MReports (pre S) (last S)
  verified : ∀ S, (∀ ev ∈ pre S ++ [last S], ev.flags = noFlags) → Chains (· ∈ S) ((pre S ++ [last S]).map (·.cert))
  readable : ∀ S, ∀ ev ∈ pre S ++ [last S], Readable ev.cert

/-- **C220, Mbed TLS.** Proved for diffs without the changes that are not followed, and without a condition on the reports. -/
theorem tls_login_configured_mbedtls_partial (v : Vals) (hv : ∀ a b, v.text a = v.text b → a = b) (spki : Nat → Bool) (Chains : (Cert → Prop) → List Cert → Prop)
    (ts : Ts) (tc : TsConf) (own : End) (oc : EndConf) (ref : Option (Option End)) (rc : Option EndConf) (up : Bool) (userOk : Text → Bool)
    (pre : List Cert → List MEv) (last : List Cert → MEv) (ht : TsSetUp ts tc) (ho : EndSafe spki own oc) (hr : RefAs (EndSafe spki) ref rc)
    (hlib : MbedtlsOk Chains pre last) (hf : FpsUsable v (oc :: rc.toList)) (s : Sess)
    (h : acceptMbedtls v ts own ref up userOk (fun S => pre S ++ [last S]) = .session s) :
    ∃ S, (∀ x, x ∈ S ↔ CaConfigured v tc (oc :: rc.toList) x) ∧
      TlsLoggedIn v tc (oc :: rc.toList) userOk Chains ((pre S ++ [last S]).map (·.cert)) (last S).cert s := by
  obtain ⟨p, h1, h2, -⟩ := prepare_as v hv ts tc (setUp_ts ts tc ht) own oc (endSafe_as spki own oc ho) ref rc (refAs_imp (endSafe_as spki) ref rc hr) up
  cases p with
  | none => simp [acceptMbedtls, h1] at h
  | some q =>
    obtain ⟨S, o⟩ := q
    have hp := h2 S o rfl
    have hrun : TlsAuth.mRun o userOk [] ⟨none, none⟩ (pre S ++ [last S]) = some s := by
      simp only [acceptMbedtls, h1] at h
      split at h
      · cases h
      · rename_i s' hs'; cases h; exact hs'
    obtain ⟨g1, g2, u, g3, g4, g5, g6⟩ := tls_accept_mbedtls o userOk _ _ (hlib.reports S) s hrun
    refine ⟨S, hp.ca, u, g3, g5, (name_by_conf hp hf _ ?_ u).mp g4, g6, ?_⟩
    · intro c hc
      obtain ⟨ev, hev, rfl⟩ := List.mem_map.mp hc
      exact hlib.readable S ev hev
    · rcases g2 with g2 | ⟨-, g2⟩
      · refine .inl (chains_conf hp.ca (hlib.verified S ?_))
        intro ev hev
        rcases List.mem_append.mp hev with hev | hev
        · exact g1 ev hev
        · rw [List.mem_singleton] at hev; rw [hev]; exact g2
      · exact .inr ((hp.ee _).mp g2)

/-- **C220.** A server without certificates for clients in its configuration accepts nobody, with either library. -/
theorem tls_login_nobody (v : Vals) (spki : Nat → Bool) (ts : Ts) (own : End) (oc : EndConf)
    (ref : Option (Option End)) (rc : Option EndConf) (up : Bool) (userOk : Text → Bool) (ho : EndSafe spki own oc)
    (hr : RefAs (EndSafe spki) ref rc) (hnone : ∀ c ∈ oc :: rc.toList, c.tls.auth.bind AuthConf.ca = none ∧ c.tls.auth.bind AuthConf.ee = none) :
    (∀ hs, acceptOpenssl v ts own ref up userOk hs = .refused) ∧ ∀ hs, acceptMbedtls v ts own ref up userOk hs = .refused := by
  have key : ∀ (x : End) (c : EndConf), EndSafe spki x c → c.tls.auth.bind AuthConf.ca = none → c.tls.auth.bind AuthConf.ee = none →
      loadTrusted v ts x.tls.ca = some (some []) ∧ ∃ l, endOpts v ts x = some ⟨some [], l⟩ := by
    intro x c hx h1 h2
    have hx := (endSafe_as spki x c hx).1
    have h3 := hx.2.1
    have h4 := hx.2.2.1
    rw [h1] at h3
    rw [h2] at h4
    have h3 : x.tls.ca.trust = some (.certs []) := h3
    have h4 : x.tls.ee.trust = some (.certs []) := h4
    exact ⟨by simp [loadTrusted, certsOf, h3, allCerts], _, by simp only [endOpts, certsOf, h4]; rfl⟩
  have hp : prepare v ts own ref up = some none := by
    obtain ⟨a1, l, a2⟩ := key own oc ho (hnone oc (by simp)).1 (hnone oc (by simp)).2
    match ref, rc with
    | none, none => simp [prepare, store, endpt, a1, a2, numEe, numCerts]
    | some none, none => simp [prepare, store, a1]
    | some (some r), some c =>
      obtain ⟨b1, m, b2⟩ := key r c hr (hnone c (by simp)).1 (hnone c (by simp)).2
      simp [prepare, store, endpt, a1, a2, b1, b2, numEe, numCerts]
    | some (some r), none => exact hr.elim
    | none, some c => exact hr.elim
    | some none, some c => exact hr.elim
  exact ⟨fun hs => by simp [acceptOpenssl, hp], fun hs => by simp [acceptMbedtls, hp]⟩

/-! ## C221: clients with configured certificates get in -/

/-- The configuration can be used: bags exist, certificates of authorities can be read, and there is at least one certificate. -/
structure TlsClientUsable (v : Vals) (tc : TsConf) (cs : List EndConf) : Prop where
  bags : ∀ c ∈ cs, BagThere tc (c.tls.auth.bind AuthConf.ca)
  cas : ∀ c ∈ cs, ∀ d, CertIn tc (c.tls.auth.bind AuthConf.ca) d → ∃ y, v.cert d = some y
  ees : ∀ c ∈ cs, ∀ d, CertIn tc (c.tls.auth.bind AuthConf.ee) d → ∃ y, v.cert d = some y
  some : ∃ c ∈ cs, ∃ d, CertIn tc (c.tls.auth.bind AuthConf.ca) d ∨ CertIn tc (c.tls.auth.bind AuthConf.ee) d

theorem verifyPeer_conf {v : Vals} {tc : TsConf} {cs : List EndConf} {S : List Cert} {o : Endpt} (hp : PrepAs v tc cs S o) (hu : TlsClientUsable v tc cs) (lib : TlsAuth.Lib)
    (peer : Cert) (h : EeConfigured v tc cs peer) : TlsAuth.verifyPeer lib peer o = .ok := by
  refine verifyPeer_in lib peer o ((hp.ee peer).mpr h) ?_
  intro l hl hn
  obtain ⟨c, hc, d, h1, h2⟩ := hp.eeNull l hl hn
  obtain ⟨y, hy⟩ := hu.ees c hc d h1
  rw [h2] at hy
  cases hy

/-- **C221.** Full statement for OpenSSL (false, see `tls_login_possible_false`): after any data and diffs, clients with configured certificates get in. -/
def TlsLoginPossible (v : Vals) (spki : Nat → Bool) : Prop :=
  ∀ (ts : Ts) (tc : TsConf) (own : End) (oc : EndConf) (ref : Option (Option End)) (rc : Option EndConf) (userOk : Text → Bool) (hs : List Cert → Handshake),
    TsSetUp ts tc → EndSetUp spki own oc → RefAs (EndSetUp spki) ref rc → ref ≠ some none → TlsClientUsable v tc (oc :: rc.toList) → FpsUsable v (oc :: rc.toList) →
    ∀ u, userOk u = true →
    (∀ S, (∀ x, x ∈ S ↔ CaConfigured v tc (oc :: rc.toList) x) → Reports (hs S).evs (hs S).peer ∧ (∀ c ∈ (hs S).chain, Readable c) ∧
      NameByConf v (oc :: rc.toList) (hs S).chain u ∧ ∀ ev ∈ (hs S).evs, GoodEv (EeConfigured v tc (oc :: rc.toList) (hs S).peer) ev) →
    ∃ s, acceptOpenssl v ts own ref true userOk hs = .session s ∧ s.username = some u

/-- **C221, OpenSSL.** Proved for diffs without the changes that are not followed: a client whose chain is verified with the configured authorities, or whose certificate
is a configured one without known issuer, gets the user name that the configured entries give for its chain, if the application agrees. -/
theorem tls_login_possible_partial (v : Vals) (hv : ∀ a b, v.text a = v.text b → a = b) (spki : Nat → Bool) (ts : Ts) (tc : TsConf) (own : End) (oc : EndConf)
    (ref : Option (Option End)) (rc : Option EndConf) (userOk : Text → Bool) (hs : List Cert → Handshake) (ht : TsSetUp ts tc) (ho : EndSafe spki own oc)
    (hr : RefAs (EndSafe spki) ref rc) (href : ref ≠ some none) (hu : TlsClientUsable v tc (oc :: rc.toList)) (hf : FpsUsable v (oc :: rc.toList)) (u : Text)
    (hk : userOk u = true)
    (hlib : ∀ S, (∀ x, x ∈ S ↔ CaConfigured v tc (oc :: rc.toList) x) → Reports (hs S).evs (hs S).peer ∧ (∀ c ∈ (hs S).chain, Readable c) ∧
      NameByConf v (oc :: rc.toList) (hs S).chain u ∧ ∀ ev ∈ (hs S).evs, GoodEv (EeConfigured v tc (oc :: rc.toList) (hs S).peer) ev) :
    ∃ s, acceptOpenssl v ts own ref true userOk hs = .session s ∧ s.username = some u := by
  obtain ⟨p, h1, h2, h3⟩ := prepare_as v hv ts tc (setUp_ts ts tc ht) own oc (endSafe_as spki own oc ho) ref rc (refAs_imp (endSafe_as spki) ref rc hr) true
  have h3 := h3 rfl href (fun c hc => ⟨hu.bags c hc, hu.cas c hc⟩) hu.some
  cases p with
  | none => exact absurd rfl h3
  | some q =>
    obtain ⟨S, o⟩ := q
    have hp := h2 S o rfl
    obtain ⟨k1, k2, k3, k4⟩ := hlib S hp.ca
    have hname := (name_by_conf hp hf _ k2 u).mpr k3
    obtain ⟨s, hs'⟩ := run_accepts o userOk (hs S).chain (hs S).peer u hname hk (EeConfigured v tc (oc :: rc.toList) (hs S).peer)
      (verifyPeer_conf hp hu .openssl (hs S).peer) (hs S).evs ⟨none, none⟩ (.inl rfl) k1.onPeer k4
    refine ⟨s, by simp only [acceptOpenssl, h1, hs'], ?_⟩
    obtain ⟨w, g1, g2, -⟩ := tls_accept_user o userOk _ _ _ k1 s hs'
    rw [hname] at g2
    cases g2
    exact g1

/-- **C221, Mbed TLS.** The same. -/
theorem tls_login_possible_mbedtls_partial (v : Vals) (hv : ∀ a b, v.text a = v.text b → a = b) (spki : Nat → Bool) (ts : Ts) (tc : TsConf) (own : End) (oc : EndConf)
    (ref : Option (Option End)) (rc : Option EndConf) (userOk : Text → Bool) (pre : List Cert → List MEv) (last : List Cert → MEv) (ht : TsSetUp ts tc)
    (ho : EndSafe spki own oc) (hr : RefAs (EndSafe spki) ref rc) (href : ref ≠ some none) (hu : TlsClientUsable v tc (oc :: rc.toList)) (hf : FpsUsable v (oc :: rc.toList))
    (u : Text) (hk : userOk u = true)
    (hlib : ∀ S, (∀ x, x ∈ S ↔ CaConfigured v tc (oc :: rc.toList) x) → MReports (pre S) (last S) ∧ (∀ ev ∈ pre S ++ [last S], Readable ev.cert ∧ ev.names = true) ∧
      NameByConf v (oc :: rc.toList) ((pre S ++ [last S]).map (·.cert)) u ∧ (∀ ev ∈ pre S, ev.flags = noFlags) ∧
      ((last S).flags = noFlags ∨ ((last S).flags = ⟨true, false, false⟩ ∧ EeConfigured v tc (oc :: rc.toList) (last S).cert))) :
    ∃ s, acceptMbedtls v ts own ref true userOk (fun S => pre S ++ [last S]) = .session s ∧ s.username = some u := by
  obtain ⟨p, h1, h2, h3⟩ := prepare_as v hv ts tc (setUp_ts ts tc ht) own oc (endSafe_as spki own oc ho) ref rc (refAs_imp (endSafe_as spki) ref rc hr) true
  have h3 := h3 rfl href (fun c hc => ⟨hu.bags c hc, hu.cas c hc⟩) hu.some
  cases p with
  | none => exact absurd rfl h3
  | some q =>
    obtain ⟨S, o⟩ := q
    have hp := h2 S o rfl
    obtain ⟨k1, k2, k3, k4, k5⟩ := hlib S hp.ca
    have hname := (name_by_conf hp hf _ (by
      intro c hc
      obtain ⟨ev, hev, rfl⟩ := List.mem_map.mp hc
      exact (k2 ev hev).1) u).mpr k3
    obtain ⟨s, hs'⟩ := mRun_accepts o userOk (last S) u hk k1.isLast (k2 _ (by simp)).2 (by
      rcases k5 with k5 | ⟨k5, k6⟩
      · exact .inl k5
      · exact .inr ⟨k5, verifyPeer_conf hp hu .mbedtls _ k6⟩) (pre S) []
      (fun ev hev => ⟨k1.above ev hev, k4 ev hev, (k2 ev (by simp [hev])).2⟩) (by simpa using hname)
    refine ⟨s, by simp only [acceptMbedtls, h1, hs'], ?_⟩
    obtain ⟨-, -, w, g1, g2, -⟩ := tls_accept_mbedtls o userOk _ _ k1 s hs'
    rw [hname] at g2
    cases g2
    exact g1

/-! ## Examples -/

/-- Names are texts of that many letters `u`, the fingerprint 500 is that of certificate 11; certificate `n` is made of the data `n` below 256. -/
def tlsVals : Vals := ⟨fun n => if n = 500 then "04:0B:04".toList else List.replicate n 'u', fun d => if d < 256 then some (exCert d "/CN=c" []) else none⟩

theorem tlsVals_differ (a b : Nat) (h : tlsVals.text a = tlsVals.text b) : a = b := by
  simp only [tlsVals] at h
  have hl := congrArg List.length h
  by_cases ha : a = 500 <;> by_cases hb : b = 500
  · rw [ha, hb]
  · rw [if_pos ha, if_neg hb] at h
    have : '0' ∈ List.replicate b 'u' := h ▸ List.mem_cons_self
    simp [List.mem_replicate] at this
  · rw [if_neg ha, if_pos hb] at h
    have : '0' ∈ List.replicate a 'u' := h ▸ List.mem_cons_self
    simp [List.mem_replicate] at this
  · simpa [ha, hb] using hl

/-- The user name of an accepted client. -/
def userOf : Out → Option (Option Text)
  | .session s => some s.username
  | _ => none

/-- The result of accepting a client that has the certificate `n`, issued by certificate 11; OpenSSL verifies it exactly if that is trusted. The bag 7 of the
truststore has certificate 13. -/
def tlsAfter (d : TlsData) (ds : List ConfTls.TlsDiff) (es : List ConfTls.CtnEdit) (n : Nat) : Option (Option Text) :=
  match ConfTls.run allSpki d.tree (ds.map ConfTls.tlsTree), ConfTls.ctnNodes (es.map ConfTls.ctnEdit) [] with
  | .ok t, some l => userOf (acceptOpenssl tlsVals ⟨[⟨7, [⟨1, some 13⟩]⟩], []⟩ ⟨t, l⟩ none true (fun _ => true) (fun S =>
      ⟨[exCert n "/CN=c" [], exCert 11 "/CN=ca" []], exCert n "/CN=c" [],
        if S.any (fun c => c.id == 11) then [⟨true, 1, .other, exCert 11 "/CN=ca" [], true⟩, ⟨true, 0, .other, exCert n "/CN=c" [], true⟩]
        else [⟨false, 0, .unableToVerifyLeaf, exCert n "/CN=c" [], true⟩]⟩))
  | _, _ => none

/-- Certificate 11 is that of a trusted authority, bag 7 has the end-entity certificates; clients whose chain has the certificate 11 are user 60, others user 61. -/
def tlsLoginData : TlsData := ⟨.ref 30 31, some ⟨some (.inline [(1, 11)]), some (.bag 7)⟩, []⟩

/-- The entries. -/
def tlsLoginCtn : List ConfTls.CtnEdit := [.create 9 ⟨0, some 61, none⟩, .create 4 ⟨0, some 60, some 500⟩]

example : tlsAfter tlsLoginData [] tlsLoginCtn 10 = some (some (List.replicate 60 'u')) := by decide +kernel

/-- Without entry 4 the other one is used. -/
example : tlsAfter tlsLoginData [] (tlsLoginCtn ++ [.delete 4 []]) 10 = some (some (List.replicate 61 'u')) := by decide +kernel

/-- After the certificates of authorities have been removed, only the client with the certificate of the bag gets in. -/
example : [10, 13].map (tlsAfter tlsLoginData [caDiff (.delete [])] tlsLoginCtn) = [none, some (some (List.replicate 60 'u'))] := by decide +kernel

/-- After the end-entity certificates have been removed as well, nobody does. -/
example : [10, 13].map (tlsAfter tlsLoginData [caDiff (.delete []), eeDiff (.delete [])] tlsLoginCtn) = [none, none] := by decide +kernel

/-! ## Changes that are not followed -/

/-- A client with a verified certificate. -/
def tlsClient : List Cert → Handshake := fun _ => ⟨[exCert 10 "/CN=c" []], exCert 10 "/CN=c" [], [⟨true, 0, .other, exCert 10 "/CN=c" [], true⟩]⟩

theorem tlsClient_reports (S : List Cert) : Reports (tlsClient S).evs (tlsClient S).peer := by
  constructor
  · intro ev hev _
    simp only [tlsClient, List.mem_singleton] at hev
    rw [hev]; rfl
  · exact ⟨_, List.mem_singleton.mpr rfl, rfl, by simp⟩

theorem tlsClient_readable (S : List Cert) : ∀ c ∈ (tlsClient S).chain, Readable c := by
  intro c hc
  simp only [tlsClient, List.mem_singleton] at hc
  rw [hc]
  exact exCert_readable 10 (by decide) _ _ (by simp)

/-- Data with one authority. -/
def tlsOneCa : TlsData := ⟨.ref 30 31, some ⟨some (.inline [(1, 11)]), none⟩, []⟩

/-- **C220, false in general.** The user name of an entry is changed from 60 to 61 by a diff; clients still log in as user 60: there is no callback for the name
(C135). -/
theorem tls_login_configured_false : ¬ TlsLoginConfigured tlsVals allSpki := by
  intro h
  let ctn : Map CtnConf := ConfStore.upd (ConfStore.upd (fun _ => none) 1 (some ⟨0, some 60, none⟩)) 1 (some ⟨0, some 61, none⟩)
  have hrun : ConfTls.run allSpki tlsOneCa.tree [] =
      .ok ⟨⟨.keystore, .str 30, some 31, 0, none, none⟩, ⟨.local, .certs [⟨1, some 11⟩], 1⟩, ConfTls.newGrp, 0⟩ := by decide +kernel
  have hconf : (tlsOneCa.conf allSpki).isSome = true := by decide
  obtain ⟨c0, hc0⟩ := Option.isSome_iff_exists.mp hconf
  have ho : EndSetUp allSpki ⟨⟨⟨.keystore, .str 30, some 31, 0, none, none⟩, ⟨.local, .certs [⟨1, some 11⟩], 1⟩, ConfTls.newGrp, 0⟩, [⟨1, none, 0, some 60⟩]⟩
      ⟨c0, ctn⟩ :=
    ⟨⟨tlsOneCa, [], c0, hc0, rfl, hrun⟩, [.create 1 ⟨0, some 60, none⟩, .change 1 ⟨none, .replace 61, .keep⟩], rfl, by decide⟩
  have hname : ∀ i e, ctn i = some e → i = 1 ∧ e = ⟨0, some 61, none⟩ := by
    intro i e hi
    simp only [ctn, ConfStore.upd] at hi
    split at hi
    · rename_i h1
      cases hi
      exact ⟨h1, rfl⟩
    · cases hi
  have hacc : userOf (acceptOpenssl tlsVals ⟨[], []⟩
      ⟨⟨⟨.keystore, .str 30, some 31, 0, none, none⟩, ⟨.local, .certs [⟨1, some 11⟩], 1⟩, ConfTls.newGrp, 0⟩, [⟨1, none, 0, some 60⟩]⟩ none true (fun _ => true) tlsClient) =
      some (some (tlsVals.text 60)) := by decide +kernel
  cases ha : acceptOpenssl tlsVals ⟨[], []⟩
      ⟨⟨⟨.keystore, .str 30, some 31, 0, none, none⟩, ⟨.local, .certs [⟨1, some 11⟩], 1⟩, ConfTls.newGrp, 0⟩, [⟨1, none, 0, some 60⟩]⟩ none true (fun _ => true) tlsClient with
  | refused => rw [ha] at hacc; cases hacc
  | ub => rw [ha] at hacc; cases hacc
  | session s =>
    rw [ha] at hacc
    have hs : s.username = some (tlsVals.text 60) := by simpa [userOf] using hacc
    obtain ⟨S, -, u, g1, -, ⟨pre, c, post, i, e, g2, g3, -, -, cpre, x, cpost, -, -, -, g4⟩, -⟩ := h (fun _ _ => True) ⟨[], []⟩ TsConf.empty _ ⟨c0, ctn⟩ none none true
      (fun _ => true) tlsClient ⟨⟨[], []⟩, ⟨[], []⟩, ⟨[], []⟩, [], TsConf.empty, rfl, rfl, by decide, rfl⟩ ho trivial
      ⟨tlsClient_reports, by
        intro S a e b h1 _ _ f hf hpf
        have : f ∈ (tlsClient S).evs := by rw [h1]; simp [hf]
        simp only [tlsClient, List.mem_singleton] at this
        rw [this] at hpf
        exact absurd hpf (by simp), fun _ _ => trivial, tlsClient_readable⟩
      (by
        intro c hc i e hi
        simp only [Option.toList_none, List.mem_singleton] at hc
        subst hc
        obtain ⟨-, rfl⟩ := hname i e hi
        intro t ht
        simp [entryConf] at ht) s ha
    have hc : c = ⟨c0, ctn⟩ := by
      have : c ∈ pre ++ c :: post := by simp
      rw [← g2] at this
      simpa using this
    subst hc
    obtain ⟨-, rfl⟩ := hname i e g3
    have g4 : some (tlsVals.text 61) = some u := g4
    rw [g1, ← g4, Option.some.injEq] at hs
    exact absurd (tlsVals_differ _ _ hs) (by decide)

/-- **C221, false in general.** Certificates are given instead of a bag of the truststore by a diff: the server looks for the bag named NULL when a client
connects (C133). -/
theorem tls_login_possible_false : ¬ TlsLoginPossible tlsVals allSpki := by
  intro h
  have hrun : ConfTls.run allSpki (TlsData.mk (.ref 30 31) (some ⟨some (.bag 7), none⟩) []).tree ([caDiff (.toInline 7 [(1, 11)])].map ConfTls.tlsTree) =
      .ok ⟨⟨.keystore, .str 30, some 31, 0, none, none⟩, ⟨.truststore, .null, 1⟩, ConfTls.newGrp, 0⟩ := by decide +kernel
  have hca : ConfTls.patchTlsAll allSpki ⟨.ref 30 31, some ⟨some (.bag 7), none⟩, fun _ => false⟩ [caDiff (.toInline 7 [(1, 11)])] =
      some ⟨.ref 30 31, some ⟨some (.inline (ConfStore.upd (fun _ => none) 1 (some 11))), none⟩, fun _ => false⟩ := rfl
  have hcert : ∀ d, CertIn TsConf.empty (some (.inline (ConfStore.upd (fun _ => none) 1 (some 11)))) d → d = 11 := by
    rintro d ⟨k, hk⟩
    simp only [ConfStore.upd] at hk
    split at hk
    · cases hk; rfl
    · cases hk
  have hctn : ∀ i e, (ConfStore.upd (fun _ => none) 1 (some ⟨0, some 60, none⟩) : Map CtnConf) i = some e → i = 1 ∧ e = ⟨0, some 60, none⟩ := by
    intro i e hi
    simp only [ConfStore.upd] at hi
    split at hi
    · rename_i h1; cases hi; exact ⟨h1, rfl⟩
    · cases hi
  obtain ⟨s, h1, -⟩ := h ⟨[], []⟩ TsConf.empty
    ⟨⟨⟨.keystore, .str 30, some 31, 0, none, none⟩, ⟨.truststore, .null, 1⟩, ConfTls.newGrp, 0⟩, [⟨1, none, 0, some 60⟩]⟩
    ⟨⟨.ref 30 31, some ⟨some (.inline (ConfStore.upd (fun _ => none) 1 (some 11))), none⟩, fun _ => false⟩,
      ConfStore.upd (fun _ => none) 1 (some ⟨0, some 60, none⟩)⟩ none none (fun _ => true) tlsClient
    ⟨⟨[], []⟩, ⟨[], []⟩, ⟨[], []⟩, [], TsConf.empty, rfl, rfl, by decide, rfl⟩
    ⟨⟨_, _, _, rfl, hca, hrun⟩, [.create 1 ⟨0, some 60, none⟩], rfl, by decide⟩ trivial (by simp)
    ⟨by simp [BagThere], by
        intro c hc d hd
        simp only [Option.toList_none, List.mem_singleton] at hc
        subst hc
        rw [hcert d hd]
        exact ⟨_, rfl⟩, by
        intro c hc d hd
        simp only [Option.toList_none, List.mem_singleton] at hc
        subst hc
        exact hd.elim, ⟨_, List.mem_cons_self, 11, .inl ⟨1, rfl⟩⟩⟩
    (by
      intro c hc i e hi
      simp only [Option.toList_none, List.mem_singleton] at hc
      subst hc
      obtain ⟨-, rfl⟩ := hctn i e hi
      intro t ht
      simp [entryConf] at ht)
    (tlsVals.text 60) rfl
    (by
      intro S _
      refine ⟨tlsClient_reports S, tlsClient_readable S, ⟨[], _, [], 1, ⟨0, some 60, none⟩, rfl, rfl, by simp, ?_, [], exCert 10 "/CN=c" [], [], rfl, by simp, .inl rfl, rfl⟩, ?_⟩
      · intro j f hj hf
        obtain ⟨rfl, -⟩ := hctn j f hf
        omega
      · intro ev hev
        simp only [tlsClient, List.mem_singleton] at hev
        rw [hev]
        exact ⟨rfl, .inl rfl⟩)
  simp [acceptOpenssl, prepare, store, loadTrusted, certsOf, ConfTls.Grp.trust] at h1

end Verif.Props
