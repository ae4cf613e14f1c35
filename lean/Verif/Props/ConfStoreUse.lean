import Verif.Lemmas.ConfStoreUse
import Verif.Props.ServerId
import Verif.Props.ConfTlsUse

/-!
# Properties: the keystore and the truststore configured by functions, and the endpoints that refer to them (C247)
-/

namespace Verif.Props
open Verif.ConfUtil (Text Schema Config)
open Verif.ConfStoreUse
open Verif.ConfStore (Ts Ks HoldsTs HoldsKs setupTs setupKs)
open Verif.TlsLogin hiding Out
open Verif.ConfTlsUse (Want setUp endptOf refOf involved FpsOk Usable CaWanted EeWanted NameWanted LoggedIn FromFiles privFormats)
open Verif.TlsAuth (Cert Readable Sess MEv noFlags)
open Verif.ServerId (loadServer)

/-- The application configured the stores and TLS endpoints, by calls in any order that all succeeded; every key of the keystore was given, and each endpoint has
an identity. -/
structure StoreTls (v : Vals) (C : Text → Nat) (spki : Nat → Bool) (S : Schema) (cs : List (Call ⊕ ConfTlsUse.Call)) (cfg : Config) : Prop where
  texts : ∀ a b, v.text a = v.text b → a = b
  codes : ∀ t, v.text (C t) = t
  good : (∀ c ∈ stores cs, c.good) ∧ ∀ c ∈ others cs, c.good
  files : FromFiles spki C (others cs) ∧ KeysFromFiles (stores cs)
  built : build (fun cfg c => c.run S cfg) S cs none = (true, cfg)
  ids : ∀ e w, ConfTlsUse.wanted (others cs) e = some w → w.id.isSome
  paired : (wanted (stores cs)).paired

theorem StoreTls.back {v : Vals} {C : Text → Nat} {spki : Nat → Bool} {S : Schema} {cs : List (Call ⊕ ConfTlsUse.Call)} {cfg : Config}
    (h : StoreTls v C spki S cs cfg) (n : Nat) : C (v.text n) = n := h.texts _ _ (h.codes _)

theorem StoreTls.inv {v : Vals} {C : Text → Nat} {spki : Nat → Bool} {S : Schema} {cs : List (Call ⊕ ConfTlsUse.Call)} {cfg : Config}
    (h : StoreTls v C spki S cs cfg) : Inv (cfg.getD []) (wanted (stores cs)) ∧ ConfTlsUse.Inv (cfg.getD []) (ConfTlsUse.wanted (others cs)) :=
  inv_build (tls_off S) (tls_kept S) S cs [] [] none cfg h.good.1 h.good.2 inv_nil ConfTlsUse.inv_nil h.built

theorem known_nil : (wanted []).known := fun _ _ _ h => by cases h

theorem StoreTls.ts {v : Vals} {C : Text → Nat} {spki : Nat → Bool} {S : Schema} {cs : List (Call ⊕ ConfTlsUse.Call)} {cfg : Config}
    (h : StoreTls v C spki S cs cfg) {s0 ts : Ts} (ht : setupTs (tsTreeOf C (cfg.getD [])) s0 = .ok ts) :
    Login.TsSetUp ts ((wanted (stores cs)).ts C v.text) := by
  obtain ⟨ts', h1, h2⟩ := h.inv.1.tsSetUp h.codes h.back s0
  rw [ht] at h1
  cases h1
  exact h2

theorem StoreTls.ks {v : Vals} {C : Text → Nat} {spki : Nat → Bool} {S : Schema} {cs : List (Call ⊕ ConfTlsUse.Call)} {cfg : Config}
    (h : StoreTls v C spki S cs cfg) {s0 ks : Ks} (ht : setupKs (ksTreeOf C (cfg.getD [])) s0 = .ok ks) :
    ServerId.KsSafe ks ((wanted (stores cs)).ks C v.text) := by
  obtain ⟨ks', h1, h2⟩ := h.inv.1.ksSetUp h.paired (known_wanted (stores cs) [] known_nil h.files.2) h.codes h.back s0
  rw [ht] at h1
  cases h1
  exact h2

theorem StoreTls.made {v : Vals} {C : Text → Nat} {spki : Nat → Bool} {S : Schema} {cs : List (Call ⊕ ConfTlsUse.Call)} {cfg : Config}
    (h : StoreTls v C spki S cs cfg) {s0 ts : Ts} (ht : setupTs (tsTreeOf C (cfg.getD [])) s0 = .ok ts) :
    TlsMade v C spki ts ((wanted (stores cs)).ts C v.text) (others cs) (cfg.getD []) :=
  ⟨h.texts, h.codes, h.ts ht, h.inv.2, h.files.1, h.ids⟩

/-- **C247.** Whatever keys, certificates and bags were added and deleted by the functions for the stores, between calls of the functions for TLS endpoints: with
the data the server is set up. Its stores hold exactly what the calls say, whatever was there before, and there are exactly the endpoints wanted. -/
theorem store_functions_set_up (v : Vals) (C : Text → Nat) (spki : Nat → Bool) (S : Schema) (cs : List (Call ⊕ ConfTlsUse.Call)) (cfg : Config)
    (h : StoreTls v C spki S cs cfg) (s0 : Ts) (k0 : Ks) :
    ∃ ts ks l, setupTs (tsTreeOf C (cfg.getD [])) s0 = .ok ts ∧ HoldsTs ts ((wanted (stores cs)).ts C v.text) ∧
      setupKs (ksTreeOf C (cfg.getD [])) k0 = .ok ks ∧ HoldsKs ks ((wanted (stores cs)).ks C v.text) ∧
      setUp spki C (cfg.getD []) = some l ∧ (∀ e, ConfTlsUse.wanted (others cs) e = none → endptOf l e = none) ∧
      ∀ e w, ConfTlsUse.wanted (others cs) e = some w → ∃ own, endptOf l e = some own := by
  obtain ⟨ts, h1, h2⟩ := h.inv.1.tsSetUp h.codes h.back s0
  obtain ⟨ks, h3, h4⟩ := h.inv.1.ksSetUp h.paired (known_wanted (stores cs) [] known_nil h.files.2) h.codes h.back k0
  obtain ⟨l, h5, h6, h7⟩ := (h.made h1).endpts
  refine ⟨ts, ks, l, h1, Login.setUp_ts _ _ h2, h3, ServerId.ksSafe_as _ _ h4, h5, h6, fun e w hw => ?_⟩
  obtain ⟨i, hi⟩ := Option.isSome_iff_exists.mp (h.ids e w hw)
  obtain ⟨x, g1, -⟩ := h7 e w i hw hi
  exact ⟨x, g1⟩

/-- **C247.** Clients of an endpoint are shown exactly the certificate and the private key of the identity given last for it: those given there, or those that
the keystore has after all calls under the names given there, whatever the order of the calls. -/
theorem store_identity (v : Vals) (C : Text → Nat) (iv : ServerId.Vals) (S : Schema) (cs : List (Call ⊕ ConfTlsUse.Call)) (cfg : Config)
    (h : StoreTls v C iv.spki S cs cfg) (k0 ks : Ks) (hks : setupKs (ksTreeOf C (cfg.getD [])) k0 = .ok ks) (l : List (Text × End)) (e : Text) (w : Want)
    (i : ConfTlsUse.Ident) (own : End) (hl : setUp iv.spki C (cfg.getD []) = some l) (hw : ConfTlsUse.wanted (others cs) e = some w) (hi : w.id = some i)
    (hown : endptOf l e = some own) :
    loadServer iv ks own.tls.id ≠ .ub ∧ ∀ x k, loadServer iv ks own.tls.id = .shown x k ↔
      ∃ f p d, IdentIs (wanted (stores cs)) i f p d ∧ iv.cert (C d) = some x ∧ iv.pkey (fmtNo privFormats f) (C p) = some k := by
  obtain ⟨ts, h1, -⟩ := h.inv.1.tsSetUp h.codes h.back ⟨[], []⟩
  obtain ⟨l', h2, -, h3⟩ := (h.made h1).endpts
  rw [hl] at h2
  cases h2
  obtain ⟨x, g1, g2⟩ := h3 e w i hw hi
  rw [hown] at g1
  cases g1
  obtain ⟨k1, k2⟩ := tls_identity_partial iv ks _ own.tls _ (h.ks hks) g2.1
  refine ⟨k1, fun x k => (k2 x k).trans ?_⟩
  have hid := ConfTlsUse.wanted_id iv.spki C (others cs) h.files.1 e w i hw hi
  cases i with
  | inline pub pf priv crt =>
    constructor
    · rintro ⟨f, p, d, hh, hx, hk⟩
      cases hh
      exact ⟨pf, priv, crt, .inline _ _ _ _, hx, by rw [← (priv_no pf hid.1).1]; exact hk⟩
    · rintro ⟨f, p, d, hh, hx, hk⟩
      cases hh
      exact ⟨_, _, _, .inline _ _ _ _ _, hx, by rw [(priv_no pf hid.1).1]; exact hk⟩
  | keystore key crt =>
    constructor
    · rintro ⟨f, p, d, hh, hx, hk⟩
      obtain - | ⟨_, _, _, kc, hkc, hcc⟩ := hh
      simp only [Store.ks, h.codes] at hkc
      obtain ⟨y, hy, hy'⟩ := Option.bind_eq_some_iff.mp hkc
      obtain ⟨pr, hpr, rfl⟩ := Option.map_eq_some_iff.mp hy'
      simp only [h.codes] at hcc
      obtain ⟨dd, hdd, rfl⟩ := Option.map_eq_some_iff.mp hcc
      exact ⟨_, _, _, .stored _ _ y pr dd hy hpr hdd, hx, hk⟩
    · rintro ⟨f, p, d, hh, hx, hk⟩
      obtain - | ⟨_, _, y, pr, _, hy, hpr, hdd⟩ := hh
      refine ⟨_, _, _, .ref (C key) (C crt) (C d) ⟨some (fmtNo pubFormats pr.pfmt), some (C pr.pub), fmtNo privFormats pr.sfmt, C pr.priv,
        fun c => (y.certs (v.text c)).map C⟩ ?_ ?_, hx, hk⟩
      · simp only [Store.ks, h.codes, hy, hpr, Option.bind_some, Option.map_some]
      · simp only [h.codes, hdd, Option.map_some]

/-- **C247.** The certificates of a bag that an endpoint refers to are those given to the functions for that bag. -/
theorem store_bag (v : Vals) (C : Text → Nat) (hC : ∀ t, v.text (C t) = t) (cs : List Call) (b : Text) (d : Nat) :
    ConfTlsUse.CertOf ((wanted cs).ts C v.text) C (some (.bag b)) d ↔ ∃ m k x, (wanted cs).bags true b = some m ∧ m (v.text k) = some x ∧ d = C x := by
  simp only [ConfTlsUse.CertOf, Store.ts, hC, Option.map_eq_some_iff]
  constructor
  · rintro ⟨m, k, ⟨m', h1, rfl⟩, h2⟩
    obtain ⟨x, h3, rfl⟩ := Option.map_eq_some_iff.mp h2
    exact ⟨m', k, x, h1, h3, rfl⟩
  · rintro ⟨m, k, x, h1, h2, rfl⟩
    exact ⟨_, k, ⟨m, h1, rfl⟩, by rw [h2]; rfl⟩

/-- **C247.** Full statement for OpenSSL (false, see `store_certs_login_false`): an accepted client is one that the calls for endpoints and for the truststore
say. -/
def StoreCertsLogin (v : Vals) (C : Text → Nat) (spki : Nat → Bool) : Prop :=
  ∀ (Chains : (Cert → Prop) → List Cert → Prop) (S : Schema) (cs : List (Call ⊕ ConfTlsUse.Call)) (cfg : Config), StoreTls v C spki S cs cfg →
    ∀ (s0 ts : Ts), setupTs (tsTreeOf C (cfg.getD [])) s0 = .ok ts →
    ∀ (l : List (Text × End)) (e : Text) (w : Want) (own : End), setUp spki C (cfg.getD []) = some l → ConfTlsUse.wanted (others cs) e = some w →
    endptOf l e = some own → FpsOk (involved (ConfTlsUse.wanted (others cs)) w) → ∀ (up : Bool) (userOk : Text → Bool) (hs : List Cert → Handshake),
    OpensslOk Chains hs → ∀ s, acceptOpenssl v ts own (refOf l e (cfg.getD [])) up userOk hs = .session s →
    ∃ T, (∀ x, x ∈ T ↔ CaWanted v ((wanted (stores cs)).ts C v.text) C (involved (ConfTlsUse.wanted (others cs)) w) x) ∧
      LoggedIn v ((wanted (stores cs)).ts C v.text) C (involved (ConfTlsUse.wanted (others cs)) w) userOk Chains (hs T).chain (hs T).peer s

/-- **C247, OpenSSL.** An accepted client is one that the calls for endpoints and for the truststore say. Proved for clients in whose chain nothing above the
client's certificate fails (the callback ignores such failures). -/
theorem store_certs_login_partial (v : Vals) (C : Text → Nat) (spki : Nat → Bool) (Chains : (Cert → Prop) → List Cert → Prop) (S : Schema)
    (cs : List (Call ⊕ ConfTlsUse.Call)) (cfg : Config) (h : StoreTls v C spki S cs cfg) (s0 ts : Ts) (hts : setupTs (tsTreeOf C (cfg.getD [])) s0 = .ok ts)
    (l : List (Text × End)) (e : Text) (w : Want) (own : End) (hl : setUp spki C (cfg.getD []) = some l) (hw : ConfTlsUse.wanted (others cs) e = some w)
    (hown : endptOf l e = some own) (hf : FpsOk (involved (ConfTlsUse.wanted (others cs)) w)) (up : Bool) (userOk : Text → Bool) (hs : List Cert → Handshake)
    (hlib : OpensslOk Chains hs) (habove : ∀ T, ∀ ev ∈ (hs T).evs, ev.depth > 0 → ev.preverify = true) (s : Sess)
    (ha : acceptOpenssl v ts own (refOf l e (cfg.getD [])) up userOk hs = .session s) :
    ∃ T, (∀ x, x ∈ T ↔ CaWanted v ((wanted (stores cs)).ts C v.text) C (involved (ConfTlsUse.wanted (others cs)) w) x) ∧
      LoggedIn v ((wanted (stores cs)).ts C v.text) C (involved (ConfTlsUse.wanted (others cs)) w) userOk Chains (hs T).chain (hs T).peer s := by
  have h := h.made hts
  obtain ⟨oc, rc, h1, h2, h3, -⟩ := h.endpt hl hw hown
  obtain ⟨T, g1, g2⟩ := tls_login_configured_partial v h.texts spki Chains ts _ own oc _ rc up userOk hs h.ts h1 h2 hlib habove
    (ConfTlsUse.fps_of h.codes h3 hf) s ha
  exact ⟨T, fun x => (g1 x).trans (ConfTlsUse.ca_iff h.codes h3 _ x), logged_in h.codes h3 g2⟩

/-- **C247, Mbed TLS.** Without a condition on the reports. -/
theorem store_certs_login_mbedtls (v : Vals) (C : Text → Nat) (spki : Nat → Bool) (Chains : (Cert → Prop) → List Cert → Prop) (S : Schema)
    (cs : List (Call ⊕ ConfTlsUse.Call)) (cfg : Config) (h : StoreTls v C spki S cs cfg) (s0 ts : Ts) (hts : setupTs (tsTreeOf C (cfg.getD [])) s0 = .ok ts)
    (l : List (Text × End)) (e : Text) (w : Want) (own : End) (hl : setUp spki C (cfg.getD []) = some l) (hw : ConfTlsUse.wanted (others cs) e = some w)
    (hown : endptOf l e = some own) (hf : FpsOk (involved (ConfTlsUse.wanted (others cs)) w)) (up : Bool) (userOk : Text → Bool)
    (pre : List Cert → List MEv) (last : List Cert → MEv) (hlib : MbedtlsOk Chains pre last) (s : Sess)
    (ha : acceptMbedtls v ts own (refOf l e (cfg.getD [])) up userOk (fun T => pre T ++ [last T]) = .session s) :
    ∃ T, (∀ x, x ∈ T ↔ CaWanted v ((wanted (stores cs)).ts C v.text) C (involved (ConfTlsUse.wanted (others cs)) w) x) ∧
      LoggedIn v ((wanted (stores cs)).ts C v.text) C (involved (ConfTlsUse.wanted (others cs)) w) userOk Chains ((pre T ++ [last T]).map (·.cert))
        (last T).cert s := by
  have h := h.made hts
  obtain ⟨oc, rc, h1, h2, h3, -⟩ := h.endpt hl hw hown
  obtain ⟨T, g1, g2⟩ := tls_login_configured_mbedtls_partial v h.texts spki Chains ts _ own oc _ rc up userOk pre last h.ts h1 h2 hlib
    (ConfTlsUse.fps_of h.codes h3 hf) s ha
  exact ⟨T, fun x => (g1 x).trans (ConfTlsUse.ca_iff h.codes h3 _ x), logged_in h.codes h3 g2⟩

/-- **C247, OpenSSL.** A client whose chain is verified with the authorities given to the functions, also in bags of the truststore, or whose certificate is one
given to them, without known issuer, gets in with the user name of the entries given, if the application agrees. -/
theorem store_certs_possible (v : Vals) (C : Text → Nat) (spki : Nat → Bool) (S : Schema) (cs : List (Call ⊕ ConfTlsUse.Call)) (cfg : Config)
    (h : StoreTls v C spki S cs cfg) (s0 ts : Ts) (hts : setupTs (tsTreeOf C (cfg.getD [])) s0 = .ok ts) (l : List (Text × End)) (e : Text) (w : Want) (own : End)
    (hl : setUp spki C (cfg.getD []) = some l) (hw : ConfTlsUse.wanted (others cs) e = some w) (hown : endptOf l e = some own)
    (hf : FpsOk (involved (ConfTlsUse.wanted (others cs)) w)) (hu : Usable v ((wanted (stores cs)).ts C v.text) C (involved (ConfTlsUse.wanted (others cs)) w))
    (href : ∀ r, w.ref = some r → (ConfTlsUse.wanted (others cs) r).isSome) (userOk : Text → Bool) (hs : List Cert → Handshake) (u : Text) (hk : userOk u = true)
    (hlib : ∀ T, (∀ x, x ∈ T ↔ CaWanted v ((wanted (stores cs)).ts C v.text) C (involved (ConfTlsUse.wanted (others cs)) w) x) →
      Reports (hs T).evs (hs T).peer ∧ (∀ c ∈ (hs T).chain, Readable c) ∧ NameWanted (involved (ConfTlsUse.wanted (others cs)) w) (hs T).chain u ∧
      ∀ ev ∈ (hs T).evs, GoodEv (EeWanted v ((wanted (stores cs)).ts C v.text) C (involved (ConfTlsUse.wanted (others cs)) w) (hs T).peer) ev) :
    ∃ s, acceptOpenssl v ts own (refOf l e (cfg.getD [])) true userOk hs = .session s ∧ s.username = some u := by
  have h := h.made hts
  obtain ⟨oc, rc, h1, h2, h3, h4⟩ := h.endpt hl hw hown
  refine tls_login_possible_partial v h.texts spki ts _ own oc _ rc userOk hs h.ts h1 h2 (h4 href) (usable_conf h.codes h3 hu)
    (ConfTlsUse.fps_of h.codes h3 hf) u hk ?_
  intro T hT
  obtain ⟨k1, k2, k3, k4⟩ := hlib T (fun x => (hT x).trans (ConfTlsUse.ca_iff h.codes h3 _ x))
  refine ⟨k1, k2, (ConfTlsUse.name_iff h.codes h3 _ u).mpr k3, fun ev hev => ?_⟩
  rw [propext (ConfTlsUse.ee_iff h.codes h3 _ (hs T).peer)]
  exact k4 ev hev

/-- **C247, Mbed TLS.** The same. -/
theorem store_certs_possible_mbedtls (v : Vals) (C : Text → Nat) (spki : Nat → Bool) (S : Schema) (cs : List (Call ⊕ ConfTlsUse.Call)) (cfg : Config)
    (h : StoreTls v C spki S cs cfg) (s0 ts : Ts) (hts : setupTs (tsTreeOf C (cfg.getD [])) s0 = .ok ts) (l : List (Text × End)) (e : Text) (w : Want) (own : End)
    (hl : setUp spki C (cfg.getD []) = some l) (hw : ConfTlsUse.wanted (others cs) e = some w) (hown : endptOf l e = some own)
    (hf : FpsOk (involved (ConfTlsUse.wanted (others cs)) w)) (hu : Usable v ((wanted (stores cs)).ts C v.text) C (involved (ConfTlsUse.wanted (others cs)) w))
    (href : ∀ r, w.ref = some r → (ConfTlsUse.wanted (others cs) r).isSome) (userOk : Text → Bool) (pre : List Cert → List MEv) (last : List Cert → MEv)
    (u : Text) (hk : userOk u = true)
    (hlib : ∀ T, (∀ x, x ∈ T ↔ CaWanted v ((wanted (stores cs)).ts C v.text) C (involved (ConfTlsUse.wanted (others cs)) w) x) → MReports (pre T) (last T) ∧
      (∀ ev ∈ pre T ++ [last T], Readable ev.cert ∧ ev.names = true) ∧
      NameWanted (involved (ConfTlsUse.wanted (others cs)) w) ((pre T ++ [last T]).map (·.cert)) u ∧ (∀ ev ∈ pre T, ev.flags = noFlags) ∧
      ((last T).flags = noFlags ∨ ((last T).flags = ⟨true, false, false⟩ ∧
        EeWanted v ((wanted (stores cs)).ts C v.text) C (involved (ConfTlsUse.wanted (others cs)) w) (last T).cert))) :
    ∃ s, acceptMbedtls v ts own (refOf l e (cfg.getD [])) true userOk (fun T => pre T ++ [last T]) = .session s ∧ s.username = some u := by
  have h := h.made hts
  obtain ⟨oc, rc, h1, h2, h3, h4⟩ := h.endpt hl hw hown
  refine tls_login_possible_mbedtls_partial v h.texts spki ts _ own oc _ rc userOk pre last h.ts h1 h2 (h4 href) (usable_conf h.codes h3 hu)
    (ConfTlsUse.fps_of h.codes h3 hf) u hk ?_
  intro T hT
  obtain ⟨k1, k2, k3, k4, k5⟩ := hlib T (fun x => (hT x).trans (ConfTlsUse.ca_iff h.codes h3 _ x))
  exact ⟨k1, k2, (ConfTlsUse.name_iff h.codes h3 _ u).mpr k3, k4, k5.imp_right (fun k => ⟨k.1, (ConfTlsUse.ee_iff h.codes h3 _ _).mpr k.2⟩)⟩

/-- **C247, SSH.** Users of an SSH endpoint and the stores were configured by the functions, in any order: with the data the server is set up, and users log in as
the calls say, also with the public keys that were given for the bags of the truststore that users refer to. -/
theorem store_users_login (v : Login.Vals) (hv : TextsDiffer v) (C : Text → Nat) (hC : ∀ t, v.text (C t) = t) (env : SshAuth.Env) (S : Schema) (e : Text)
    (he : '\'' ∉ e) (cs : List (Call ⊕ ConfUserUse.Call)) (cfg : Config) (hg : ∀ c ∈ stores cs, c.good) (hg' : ∀ c ∈ others cs, c.good)
    (hk : ConfUserUse.SshKeys v C (others cs)) (h : build (fun cfg c => c.run S e cfg) S cs none = (true, cfg)) (hosts : List (Nat × ConfUsers.HostConf))
    (hc : ConfUsers.SshConf) (hh : (ConfUsers.SshData.mk hosts []).conf v.spki = some hc) (s0 : Ts) :
    ∃ ts s o, setupTs (tsTreeOf C (cfg.getD [])) s0 = .ok ts ∧
      ConfUsers.run v.spki (ConfUserUse.sshTree C e (hosts.map (fun p => ConfUsers.hostData p.1 p.2)) (cfg.getD [])) [] = .ok s ∧
      Login.opts v ts [s] = some o ∧ LogsInAsWanted v env ((wanted (stores cs)).ts C v.text) C o (ConfUserUse.wanted (others cs)) := by
  have hi := inv_build (user_off S e he) (user_kept S e he) S cs [] [] none cfg hg hg' inv_nil (ConfUserUse.inv_nil e) h
  obtain ⟨ts, h1, h2⟩ := hi.1.tsSetUp hC (fun n => hv _ _ (hC _)) s0
  obtain ⟨s, o, h3, h4, h5⟩ := users_login_data v hv C hC env ts _ h2 e (others cs) (cfg.getD []) hi.2 hk hosts hc hh
  exact ⟨ts, s, o, h1, h3, h4, h5⟩

/-- **C247.** After calls that succeeded, a function for the stores succeeds if and only if some function for an endpoint was called before and what it deletes
is there, provided that libyang takes names and values. -/
theorem store_function_succeeds (S : Schema) (hS : ConfUserUse.Takes S) (cs : List (Call ⊕ ConfTlsUse.Call)) (cfg : Config)
    (hg : (∀ c ∈ stores cs, c.good) ∧ ∀ c ∈ others cs, c.good) (h : build (fun cfg c => c.run S cfg) S cs none = (true, cfg)) (c : Call) (hc : c.good) :
    (∃ t, c.run S cfg = (true, some t)) ↔ others cs ≠ [] ∧ (wanted (stores cs)).possible c := by
  have hi := (inv_build (tls_off S) (tls_kept S) S cs [] [] none cfg hg.1 hg.2 inv_nil ConfTlsUse.inv_nil h).1
  have ht : TopIn cfg := build_top (tls_tops S) S cs none cfg hg.1 hg.2 (fun _ e => by cases e) h
  rw [← build_some (tls_off S) S cs cfg hg.1 hg.2 h]
  cases cfg with
  | none => exact ⟨fun ⟨t, e⟩ => absurd e (call_none hc rfl), fun e => by cases e.1⟩
  | some t => exact (call_iff hS hc hi (ht t rfl)).trans ⟨fun e => ⟨rfl, e⟩, fun e => e.2⟩

/-- **C247, SSH.** The same between functions for users of an SSH endpoint. -/
theorem store_function_succeeds_ssh (S : Schema) (hS : ConfUserUse.Takes S) (e : Text) (he : '\'' ∉ e) (cs : List (Call ⊕ ConfUserUse.Call)) (cfg : Config)
    (hg : (∀ c ∈ stores cs, c.good) ∧ ∀ c ∈ others cs, c.good) (h : build (fun cfg c => c.run S e cfg) S cs none = (true, cfg)) (c : Call) (hc : c.good) :
    (∃ t, c.run S cfg = (true, some t)) ↔ others cs ≠ [] ∧ (wanted (stores cs)).possible c := by
  have hi := (inv_build (user_off S e he) (user_kept S e he) S cs [] [] none cfg hg.1 hg.2 inv_nil (ConfUserUse.inv_nil e) h).1
  have ht : TopIn cfg := build_top (user_tops S e he) S cs none cfg hg.1 hg.2 (fun _ e => by cases e) h
  rw [← build_some (user_off S e he) S cs cfg hg.1 hg.2 h]
  cases cfg with
  | none => exact ⟨fun ⟨t, e⟩ => absurd e (call_none hc rfl), fun e => by cases e.1⟩
  | some t => exact (call_iff hS hc hi (ht t rfl)).trans ⟨fun e => ⟨rfl, e⟩, fun e => e.2⟩

/-- **C247.** What the documentation says of the functions that add to the stores (src/server_config.h:151, 180, 209, 237): "If *config is NULL, it will be
created." (False, see `store_first_false`.) -/
def StoreFirst (S : Schema) : Prop := ∀ c : Call, c.good → (∀ s : Store, s.possible c) → (c.run S none).1 = true

/-- **C247, false.** With no data before, none of the functions ever succeeds, whatever libyang takes. -/
theorem store_first_false (S : Schema) : (∀ c : Call, c.good → (c.run S none).1 = false) ∧ ¬ StoreFirst S := by
  have key : ∀ c : Call, c.good → (c.run S none).1 = false := by
    intro c hc
    have := fun cfg' => call_none (S := S) (cfg := none) (cfg' := cfg') hc rfl
    cases hr : c.run S none with
    | mk b cfg' =>
      cases b with
      | false => rfl
      | true => exact absurd hr (this cfg')
  refine ⟨key, fun h => ?_⟩
  have hc : (Call.entry true t!"b" t!"k" t!"d").good := by unfold Call.good; decide
  have := h _ hc (fun _ => trivial)
  rw [key _ hc] at this
  cases this

/-! ## Examples -/

def rsaFmt : Text := t!"ietf-crypto-types:rsa-private-key-format"
def tlsFmt : Text := t!"ietf-crypto-types:subject-public-key-info-format"

/-- An endpoint that refers to a key and a bag that are given only later. -/
def storeCalls : List (Call ⊕ ConfTlsUse.Call) :=
  [.inr ⟨t!"m", .ks t!"k" t!"c"⟩, .inr ⟨t!"m", .bag false t!"b"⟩, .inl (.keyCert t!"k" t!"c" t!"D"), .inl (.key t!"k" tlsFmt t!"P" rsaFmt t!"Q"),
    .inl (.entry true t!"b" t!"x" t!"A"), .inr ⟨t!"m", .ctn 1 none 0 t!"ann"⟩]

/-- Certificates and keys of texts of one letter, for the examples. -/
def storeVals : ServerId.Vals := ⟨fun d => some (exCert (d - 1) "/CN=s" []), fun f p => some (10 * p + f), fun f p => 10 * p + f, fun _ => none, fun _ => true⟩

/-- What is shown to a client that has the certificate `n` issued by `i`, and the user they are. -/
def storeAccept (cs : List (Call ⊕ ConfTlsUse.Call)) (e : Text) (n i : Nat) : Option (Option (Nat × Nat) × Option (Option Text)) :=
  match build (fun cfg c => c.run anySchema cfg) anySchema cs none with
  | (true, some t) =>
    match setupTs (tsTreeOf textCode t) ⟨[], []⟩, setupKs (ksTreeOf textCode t) ⟨[]⟩, setUp allSpki textCode t with
    | .ok ts, .ok ks, some l =>
      match endptOf l e with
      | some own => some (shownOf (loadServer storeVals ks own.tls.id), userOf (acceptOpenssl tlsTexts ts own (refOf l e t) true (fun _ => true) (fun S =>
          ⟨[exCert n "/CN=c" [], exCert i "/CN=ca" []], exCert n "/CN=c" [],
            if S.any (fun c => c.id == i) then [⟨true, 1, .other, exCert i "/CN=ca" [], true⟩, ⟨true, 0, .other, exCert n "/CN=c" [], true⟩]
            else [⟨false, 0, .unableToVerifyLeaf, exCert n "/CN=c" [], true⟩]⟩)))
      | none => none
    | _, _, _ => none
  | _ => none

/-- The key and the certificate of the keystore are shown, though they were given later. -/
example : (storeAccept [.inr ⟨t!"m", .ks t!"k" t!"c"⟩, .inl (.keyCert t!"k" t!"c" t!"D"), .inl (.key t!"k" tlsFmt t!"P" rsaFmt t!"Q")] t!"m" 100 65).map Prod.fst =
    some (some (68, 820)) := by decide +kernel

/-- The truststore after calls. -/
def tsAfter (cs : List (Call ⊕ ConfTlsUse.Call)) : Option Ts :=
  match build (fun cfg c => c.run anySchema cfg) anySchema cs none with
  | (true, some t) =>
    match setupTs (tsTreeOf textCode t) ⟨[], []⟩ with
    | .ok ts => some ts
    | _ => none
  | _ => none

/-- A certificate that is replaced, one that is deleted, and a public key in a bag of the same name. -/
example : tsAfter [.inr ⟨t!"m", .bag false t!"b"⟩, .inl (.entry true t!"b" t!"x" t!"A"), .inl (.entry true t!"b" t!"y" t!"B"), .inl (.entry true t!"b" t!"x" t!"C"),
    .inl (.entry false t!"b" t!"x" t!"D"), .inl (.delEntry true t!"b" t!"y")] = some ⟨[⟨99, [⟨121, some 68⟩]⟩], [⟨99, [⟨121, 0, some 69⟩]⟩]⟩ := by decide +kernel

/-- Clients of others are refused. -/
example : (storeAccept [.inr ⟨t!"m", .ks t!"k" t!"c"⟩, .inr ⟨t!"m", .bag false t!"b"⟩, .inl (.entry true t!"b" t!"x" t!"A")] t!"m" 100 88).map Prod.snd =
    some none := by decide +kernel

/-- The truststore cannot be the first. -/
example : (build (fun cfg (c : ConfTlsUse.Call) => c.run anySchema cfg) anySchema [.inl (.entry true t!"b" t!"x" t!"A")] none).1 = false := by decide +kernel

/-- Deleting: the second time nothing is there. -/
example : [[], [Sum.inl (Call.delEntry true t!"b" t!"x")], [.inl (.delEntry true t!"b" t!"x"), .inl (.delEntry true t!"b" t!"x")]].map (fun d =>
    (build (fun cfg (c : ConfTlsUse.Call) => c.run anySchema cfg) anySchema
      (.inr ⟨t!"m", .bag false t!"b"⟩ :: .inl (.entry true t!"b" t!"x" t!"A") :: d) none).1) = [true, true, false] := by decide +kernel

theorem store_wanted (e : Text) (w : Want) (h : ConfTlsUse.wanted (others storeCalls) e = some w) : e = t!"m" ∧ w.id = some (.keystore t!"k" t!"c") := by
  by_cases he : e = t!"m"
  · subst he
    have : ConfTlsUse.wanted (others storeCalls) t!"m" = some _ := rfl
    rw [this] at h
    cases h
    exact ⟨rfl, rfl⟩
  · simp [ConfTlsUse.wanted, storeCalls, others, Ne.symm he] at h

theorem store_keys (k : Text) : (wanted (stores storeCalls)).keys k =
    if k = t!"k" then some ⟨some ⟨tlsFmt, t!"P", rsaFmt, t!"Q"⟩, fun c => if c = t!"c" then some t!"D" else none⟩ else none := by
  by_cases hk : k = t!"k"
  · subst hk; rfl
  · simp [wanted, stores, storeCalls, Store.apply, Store.setKey, Store.setBag, ConfStoreUse.set, hk, Store.empty]

theorem store_calls (f : Text ≃ Nat) : StoreTls (eqvVals f) f allSpki anySchema storeCalls
    (build (fun cfg c => c.run anySchema cfg) anySchema storeCalls none).2 where
  texts := fun a b h => by simpa [eqvVals] using h
  codes := fun t => f.symm_apply_apply t
  good := by
    constructor
    · intro c hc
      simp only [storeCalls, stores, List.filterMap_cons, List.filterMap_nil, List.mem_cons, List.not_mem_nil, or_false] at hc
      rcases hc with rfl | rfl | rfl <;> simp [Call.good, Call.names]
    · intro c hc
      simp only [storeCalls, others, List.filterMap_cons, List.filterMap_nil, List.mem_cons, List.not_mem_nil, or_false] at hc
      rcases hc with rfl | rfl | rfl <;> simp [ConfTlsUse.Call.good]
  files := by
    refine ⟨fun e a b c d hm => ?_, fun k a b c d hm => ?_⟩
    · simp [storeCalls, others] at hm
    · simp only [storeCalls, stores, List.filterMap_cons, List.filterMap_nil, List.mem_cons, List.not_mem_nil, or_false, reduceCtorEq, false_or,
        Call.key.injEq] at hm
      obtain ⟨-, rfl, -, rfl, -⟩ := hm
      decide
  built := pairEta _ (by decide +kernel)
  ids := fun e w hw => by rw [(store_wanted e w hw).2]; rfl
  paired := by
    intro k x hx
    rw [store_keys] at hx
    split at hx
    · cases hx; rfl
    · cases hx

/-- Clients are shown the certificate and the key given for the keystore. -/
example : ∃ (v : Vals) (C : Text → Nat) (ks : Ks) (l : List (Text × End)) (own : End), v.text (C t!"D") = t!"D" ∧
    setupKs (ksTreeOf C ((build (fun cfg c => c.run anySchema cfg) anySchema storeCalls none).2.getD [])) ⟨[]⟩ = .ok ks ∧
    setUp allSpki C ((build (fun cfg c => c.run anySchema cfg) anySchema storeCalls none).2.getD []) = some l ∧ endptOf l t!"m" = some own ∧
    loadServer storeVals ks own.tls.id = .shown (exCert (C t!"D" - 1) "/CN=s" []) (10 * C t!"Q" + 0) := by
  obtain ⟨f, -⟩ := texts_numbers
  have h := store_calls f
  generalize (build (fun cfg c => c.run anySchema cfg) anySchema storeCalls none).2 = cfg at h
  obtain ⟨ts, ks, l, -, -, h1, -, h2, -, h3⟩ := store_functions_set_up _ _ _ _ _ _ h ⟨[], []⟩ ⟨[]⟩
  obtain ⟨w, hw⟩ : ∃ w, ConfTlsUse.wanted (others storeCalls) t!"m" = some w := ⟨_, rfl⟩
  obtain ⟨own, h4⟩ := h3 _ _ hw
  have hk := store_keys t!"k"
  rw [if_pos rfl] at hk
  refine ⟨eqvVals f, f, ks, l, own, f.symm_apply_apply _, h1, h2, h4, ((store_identity _ f storeVals anySchema storeCalls cfg h ⟨[]⟩ ks h1 l _ w _ own h2 hw
    (store_wanted _ w hw).2 h4).2 _ _).mpr ⟨rsaFmt, t!"Q", t!"D", .stored _ _ _ _ _ hk rfl rfl, rfl, rfl⟩⟩

/-- Ann has the keys of a bag, which is filled later. -/
def bagCalls : List (Call ⊕ ConfUserUse.Call) := [.inr (.tsRef t!"ann" t!"b"), .inl (.entry false t!"b" t!"x" t!"B"), .inl (.entry false t!"b" t!"y" t!"A"),
  .inl (.delEntry false t!"b" t!"x")]

/-- Keys that log in for Ann after the calls. -/
def bagLogin (k : Nat) : Option Bool :=
  match build (fun cfg c => c.run anySchema t!"main" cfg) anySchema bagCalls none with
  | (true, some t) =>
    match setupTs (tsTreeOf textCode t) ⟨[], []⟩, ConfUsers.run textVals.spki (ConfUserUse.sshTree textCode t!"main" [] t) [] with
    | .ok ts, .ok s => (Login.opts textVals ts [s]).map (fun o => (SshAuth.run exEnv true o [userKey t!"ann" k] SshAuth.fresh).2.main.authenticated)
    | _, _ => none
  | _ => none

example : [66, 67, 7].map bagLogin = [some true, some false, some false] := by decide +kernel

/-! ## Failures above the certificate of the client -/

theorem build_inr (S : Schema) : ∀ (cs : List ConfTlsUse.Call) (cfg : Config),
    build (fun cfg c => c.run S cfg) S (cs.map Sum.inr) cfg = ConfTlsUse.build S cs cfg
  | [], _ => rfl
  | c :: cs, cfg => by
    rw [List.map_cons, build, ConfTlsUse.build]
    cases h : c.run S cfg with
    | mk b c1 => cases b <;> simp [build_inr S cs]

theorem one_store (f : Text ≃ Nat) : StoreTls (eqvVals f) f allSpki anySchema (oneCalls.map Sum.inr) (ConfTlsUse.build anySchema oneCalls none).2 where
  texts := (one_calls f).texts
  codes := (one_calls f).codes
  good := ⟨fun c hc => by simp [oneCalls, stores] at hc, (one_calls f).good⟩
  files := ⟨(one_calls f).files, fun _ _ _ _ _ hm => by simp [oneCalls, stores] at hm⟩
  built := (build_inr _ _ _).trans (one_calls f).built
  ids := (one_calls f).ids
  paired := fun _ _ h => by cases h

/-- **C247, false in general.** As in C246, an error above the certificate of the client is ignored. -/
theorem store_certs_login_false : ∃ v C, ¬ StoreCertsLogin v C allSpki := by
  obtain ⟨f, -⟩ := texts_numbers
  refine ⟨eqvVals f, f, fun hall => ?_⟩
  have hcalls := one_store f
  generalize (ConfTlsUse.build anySchema oneCalls none).2 = cfg at hcalls
  obtain ⟨ts, ks, l, ht, -, -, -, h1, -, h2⟩ := store_functions_set_up _ _ _ _ _ _ hcalls ⟨[], []⟩ ⟨[]⟩
  obtain ⟨w, hw⟩ : ∃ w, ConfTlsUse.wanted oneCalls t!"main" = some w := ⟨_, rfl⟩
  obtain ⟨own, h3⟩ := h2 t!"main" w hw
  obtain ⟨T', -, hl⟩ := hall (fun _ _ => False) _ _ _ hcalls _ ts ht l t!"main" w own h1 hw h3 (one_fps _ w hw) true (fun _ => true) oldIssuer oldIssuer_lib _
    (oldIssuer_accepted f (hcalls.made ht) h1 hw h3)
  exact oldIssuer_unwanted hw hl

end Verif.Props
