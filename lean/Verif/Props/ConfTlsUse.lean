import Verif.Lemmas.ConfTlsUse
import Verif.Props.TlsLogin
import Verif.Props.ConfUserUse

/-!
# Properties: clients with certificates configured by functions, and only they, log in over TLS (C246)
-/

namespace Verif.Props
open Verif.ConfUtil (Text Schema Config)
open Verif.ConfTlsUse
open Verif.TlsLogin
open Verif.Login (TsSetUp setUp_ts)
open Verif.ConfStore (Ts TsConf)
open Verif.ConfTls (AuthConf)
open Verif.TlsAuth (Cert Readable Sess Ev MEv noFlags Yields FpUsable)

/-- The application configured TLS endpoints by calls that all succeeded, and each endpoint has an identity. -/
structure TlsCalls (v : Vals) (C : Text → Nat) (spki : Nat → Bool) (ts : Ts) (tc : TsConf) (S : Schema) (cs : List Call) (cfg : Config) : Prop where
  texts : ∀ a b, v.text a = v.text b → a = b
  codes : ∀ t, v.text (C t) = t
  ts : TsSetUp ts tc
  good : ∀ c ∈ cs, c.good
  files : FromFiles spki C cs
  built : build S cs none = (true, cfg)
  ids : ∀ e w, wanted cs e = some w → w.id.isSome

/-- The data say what TLS endpoints are wanted, and each endpoint has an identity. -/
structure TlsMade (v : Vals) (C : Text → Nat) (spki : Nat → Bool) (ts : Ts) (tc : TsConf) (cs : List Call) (t : List ConfUtil.Node) : Prop where
  texts : ∀ a b, v.text a = v.text b → a = b
  codes : ∀ t, v.text (C t) = t
  ts : TsSetUp ts tc
  inv : Inv t (wanted cs)
  files : FromFiles spki C cs
  ids : ∀ e w, wanted cs e = some w → w.id.isSome

theorem TlsMade.back {v : Vals} {C : Text → Nat} {spki : Nat → Bool} {ts : Ts} {tc : TsConf} {cs : List Call} {t : List ConfUtil.Node}
    (h : TlsMade v C spki ts tc cs t) (n : Nat) : C (v.text n) = n := h.texts _ _ (h.codes _)

theorem TlsMade.endpts {v : Vals} {C : Text → Nat} {spki : Nat → Bool} {ts : Ts} {tc : TsConf} {cs : List Call} {t : List ConfUtil.Node}
    (h : TlsMade v C spki ts tc cs t) : ∃ l, setUp spki C t = some l ∧ (∀ e, wanted cs e = none → endptOf l e = none) ∧
      ∀ e w i, wanted cs e = some w → w.id = some i → ∃ x, endptOf l e = some x ∧ EndSafe spki x (confOf C v.text w i) := by
  refine h.inv.setUp h.codes h.back spki (fun e w hw => ?_)
  obtain ⟨i, hi⟩ := Option.isSome_iff_exists.mp (h.ids e w hw)
  exact ⟨i, hi, wanted_id spki C cs h.files e w i hw hi⟩

/-- The endpoint and the one it refers to, as configured. -/
theorem TlsMade.endpt {v : Vals} {C : Text → Nat} {spki : Nat → Bool} {ts : Ts} {tc : TsConf} {cs : List Call} {t : List ConfUtil.Node}
    (h : TlsMade v C spki ts tc cs t) {l : List (Text × End)} (hl : setUp spki C t = some l) {e : Text} {w : Want} (hw : wanted cs e = some w)
    {own : End} (hown : endptOf l e = some own) :
    ∃ oc rc, EndSafe spki own oc ∧ RefAs (EndSafe spki) (refOf l e t) rc ∧ Confs C v.text (involved (wanted cs) w) (oc :: rc.toList) ∧
      ((∀ r, w.ref = some r → (wanted cs r).isSome) → refOf l e t ≠ some none) := by
  obtain ⟨l', h1, h2, h3⟩ := h.endpts
  rw [hl] at h1
  cases h1
  obtain ⟨i, hi⟩ := Option.isSome_iff_exists.mp (h.ids e w hw)
  obtain ⟨x, g1, g2⟩ := h3 e w i hw hi
  rw [hown] at g1
  cases g1
  rw [h.inv.refOf hw]
  match hr : w.ref with
  | none => exact ⟨_, none, g2, trivial, by rw [involved, hr]; exact .cons w i .nil, fun _ => by simp⟩
  | some r =>
    match hwr : wanted cs r with
    | none =>
      refine ⟨_, none, g2, by rw [Option.map_some, h2 r hwr]; trivial, by rw [involved, hr, Option.bind_some, hwr]; exact .cons w i .nil, fun ha => ?_⟩
      have := ha r rfl
      rw [hwr] at this
      cases this
    | some w' =>
      obtain ⟨i', hi'⟩ := Option.isSome_iff_exists.mp (h.ids r w' hwr)
      obtain ⟨x', k1, k2⟩ := h3 r w' i' hwr hi'
      exact ⟨_, some _, g2, by rw [Option.map_some, k1]; exact k2, by rw [involved, hr, Option.bind_some, hwr]; exact .cons w i (.cons w' i' .nil),
        fun _ => by rw [Option.map_some, k1]; simp⟩

theorem TlsCalls.made {v : Vals} {C : Text → Nat} {spki : Nat → Bool} {ts : Ts} {tc : TsConf} {S : Schema} {cs : List Call} {cfg : Config}
    (h : TlsCalls v C spki ts tc S cs cfg) : TlsMade v C spki ts tc cs (cfg.getD []) :=
  ⟨h.texts, h.codes, h.ts, inv_build S cs [] none cfg h.good inv_nil h.built, h.files, h.ids⟩

/-- **C246.** Whatever TLS endpoints were configured by the functions, in any order: with the data the server is set up, there are exactly the endpoints wanted,
and each presents the identity that was given last for it. -/
theorem tls_functions_set_up (v : Vals) (C : Text → Nat) (spki : Nat → Bool) (ts : Ts) (tc : TsConf) (S : Schema) (cs : List Call) (cfg : Config)
    (h : TlsCalls v C spki ts tc S cs cfg) :
    ∃ l, setUp spki C (cfg.getD []) = some l ∧ (∀ e, wanted cs e = none → endptOf l e = none) ∧
      ∀ e w, wanted cs e = some w → ∃ own, endptOf l e = some own ∧ ShownWanted C own.tls.id.shown w.id := by
  obtain ⟨l, h1, h2, h3⟩ := h.made.endpts
  refine ⟨l, h1, h2, fun e w hw => ?_⟩
  obtain ⟨i, hi⟩ := Option.isSome_iff_exists.mp (h.ids e w hw)
  obtain ⟨x, g1, g2⟩ := h3 e w i hw hi
  refine ⟨x, g1, ?_⟩
  have hid := wanted_id spki C cs h.files e w i hw hi
  have hs : ConfTls.ShownAs x.tls.id.shown (idConf C i) := (endSafe_as spki x _ g2).1.1
  rw [hi]
  cases i with
  | inline pub pfmt priv crt => exact ⟨privCode pfmt, (priv_code pfmt hid.1).1, hs⟩
  | keystore key crt => exact hs

theorem logged_in {v : Vals} {C : Text → Nat} (hT : ∀ t, v.text (C t) = t) {ws : List Want} {ec : List EndConf} (h : Confs C v.text ws ec) {tc : TsConf}
    {userOk : Text → Bool} {Chains : (Cert → Prop) → List Cert → Prop} {chain : List Cert} {peer : Cert} {s : Sess}
    (hl : TlsLoggedIn v tc ec userOk Chains chain peer s) : LoggedIn v tc C ws userOk Chains chain peer s := by
  obtain ⟨u, h1, h2, h3, h4, h5⟩ := hl
  refine ⟨u, h1, h2, (name_iff hT h chain u).mp h3, h4, ?_⟩
  have hca : CaConfigured v tc ec = CaWanted v tc C ws := funext fun x => propext (ca_iff hT h tc x)
  rw [hca] at h5
  exact h5.imp_right (ee_iff hT h tc peer).mp

/-- **C246.** Full statement for OpenSSL (false, see `function_certs_login_false`): an accepted client is one that the calls of the application say. -/
def FunctionCertsLogin (v : Vals) (C : Text → Nat) (spki : Nat → Bool) : Prop :=
  ∀ (Chains : (Cert → Prop) → List Cert → Prop) (ts : Ts) (tc : TsConf) (S : Schema) (cs : List Call) (cfg : Config), TlsCalls v C spki ts tc S cs cfg →
    ∀ (l : List (Text × End)) (e : Text) (w : Want) (own : End), setUp spki C (cfg.getD []) = some l → wanted cs e = some w → endptOf l e = some own →
    FpsOk (involved (wanted cs) w) → ∀ (up : Bool) (userOk : Text → Bool) (hs : List Cert → Handshake), OpensslOk Chains hs →
    ∀ s, acceptOpenssl v ts own (refOf l e (cfg.getD [])) up userOk hs = .session s →
    ∃ T, (∀ x, x ∈ T ↔ CaWanted v tc C (involved (wanted cs) w) x) ∧ LoggedIn v tc C (involved (wanted cs) w) userOk Chains (hs T).chain (hs T).peer s

/-- **C246, OpenSSL.** Proved for clients in whose chain nothing above the client's certificate fails (the callback ignores such failures, `tls_accept_false`). -/
theorem function_certs_login_partial (v : Vals) (C : Text → Nat) (spki : Nat → Bool) (Chains : (Cert → Prop) → List Cert → Prop) (ts : Ts) (tc : TsConf)
    (S : Schema) (cs : List Call) (cfg : Config) (h : TlsCalls v C spki ts tc S cs cfg) (l : List (Text × End)) (e : Text) (w : Want) (own : End)
    (hl : setUp spki C (cfg.getD []) = some l) (hw : wanted cs e = some w) (hown : endptOf l e = some own) (hf : FpsOk (involved (wanted cs) w)) (up : Bool)
    (userOk : Text → Bool) (hs : List Cert → Handshake) (hlib : OpensslOk Chains hs)
    (habove : ∀ T, ∀ ev ∈ (hs T).evs, ev.depth > 0 → ev.preverify = true) (s : Sess)
    (ha : acceptOpenssl v ts own (refOf l e (cfg.getD [])) up userOk hs = .session s) :
    ∃ T, (∀ x, x ∈ T ↔ CaWanted v tc C (involved (wanted cs) w) x) ∧
      LoggedIn v tc C (involved (wanted cs) w) userOk Chains (hs T).chain (hs T).peer s := by
  obtain ⟨oc, rc, h1, h2, h3, -⟩ := h.made.endpt hl hw hown
  obtain ⟨T, g1, g2⟩ := tls_login_configured_partial v h.texts spki Chains ts tc own oc _ rc up userOk hs h.ts h1 h2 hlib habove (fps_of h.codes h3 hf) s ha
  exact ⟨T, fun x => (g1 x).trans (ca_iff h.codes h3 tc x), logged_in h.codes h3 g2⟩

/-- **C246, Mbed TLS.** Without a condition on the reports. -/
theorem function_certs_login_mbedtls (v : Vals) (C : Text → Nat) (spki : Nat → Bool) (Chains : (Cert → Prop) → List Cert → Prop) (ts : Ts) (tc : TsConf)
    (S : Schema) (cs : List Call) (cfg : Config) (h : TlsCalls v C spki ts tc S cs cfg) (l : List (Text × End)) (e : Text) (w : Want) (own : End)
    (hl : setUp spki C (cfg.getD []) = some l) (hw : wanted cs e = some w) (hown : endptOf l e = some own) (hf : FpsOk (involved (wanted cs) w)) (up : Bool)
    (userOk : Text → Bool) (pre : List Cert → List MEv) (last : List Cert → MEv) (hlib : MbedtlsOk Chains pre last) (s : Sess)
    (ha : acceptMbedtls v ts own (refOf l e (cfg.getD [])) up userOk (fun T => pre T ++ [last T]) = .session s) :
    ∃ T, (∀ x, x ∈ T ↔ CaWanted v tc C (involved (wanted cs) w) x) ∧
      LoggedIn v tc C (involved (wanted cs) w) userOk Chains ((pre T ++ [last T]).map (·.cert)) (last T).cert s := by
  obtain ⟨oc, rc, h1, h2, h3, -⟩ := h.made.endpt hl hw hown
  obtain ⟨T, g1, g2⟩ := tls_login_configured_mbedtls_partial v h.texts spki Chains ts tc own oc _ rc up userOk pre last h.ts h1 h2 hlib
    (fps_of h.codes h3 hf) s ha
  exact ⟨T, fun x => (g1 x).trans (ca_iff h.codes h3 tc x), logged_in h.codes h3 g2⟩

theorem usable_conf {v : Vals} {C : Text → Nat} (hT : ∀ t, v.text (C t) = t) {ws : List Want} {ec : List EndConf} (h : Confs C v.text ws ec) {tc : TsConf}
    (hu : Usable v tc C ws) : TlsClientUsable v tc ec := by
  have key : ∀ (w : Want) (i : Ident) d, (CertIn tc ((confOf C v.text w i).tls.auth.bind AuthConf.ca) d ↔ CertOf tc C (w.certs false) d) ∧
      (CertIn tc ((confOf C v.text w i).tls.auth.bind AuthConf.ee) d ↔ CertOf tc C (w.certs true) d) :=
    fun w i d => ⟨certIn_iff hT tc (w.certs false) d, certIn_iff hT tc (w.certs true) d⟩
  refine ⟨fun c hc => ?_, fun c hc d hd => ?_, fun c hc d hd => ?_, ?_⟩
  · obtain ⟨w, hw, i, rfl⟩ := h.right c hc
    rw [(conf_certs C v.text w i).1]
    match hcw : w.certs false with
    | none => trivial
    | some (.inline m) => trivial
    | some (.bag b) => exact hu.bags w hw b hcw
  · obtain ⟨w, hw, i, rfl⟩ := h.right c hc
    exact hu.certs w hw false d ((key w i d).1.mp hd)
  · obtain ⟨w, hw, i, rfl⟩ := h.right c hc
    exact hu.certs w hw true d ((key w i d).2.mp hd)
  · obtain ⟨w, hw, g, d, hd⟩ := hu.one
    obtain ⟨i, hi⟩ := h.left w hw
    cases g with
    | false => exact ⟨_, hi, d, .inl ((key w i d).1.mpr hd)⟩
    | true => exact ⟨_, hi, d, .inr ((key w i d).2.mpr hd)⟩

/-- **C246, OpenSSL.** A client whose chain is verified with the authorities given to the functions, or whose certificate is one given to them, without known issuer,
gets in with the user name of the entries given, if the application agrees. -/
theorem function_certs_possible (v : Vals) (C : Text → Nat) (spki : Nat → Bool) (ts : Ts) (tc : TsConf)
    (S : Schema) (cs : List Call) (cfg : Config) (h : TlsCalls v C spki ts tc S cs cfg) (l : List (Text × End)) (e : Text) (w : Want) (own : End)
    (hl : setUp spki C (cfg.getD []) = some l) (hw : wanted cs e = some w) (hown : endptOf l e = some own) (hf : FpsOk (involved (wanted cs) w))
    (hu : Usable v tc C (involved (wanted cs) w)) (href : ∀ r, w.ref = some r → (wanted cs r).isSome) (userOk : Text → Bool) (hs : List Cert → Handshake)
    (u : Text) (hk : userOk u = true)
    (hlib : ∀ T, (∀ x, x ∈ T ↔ CaWanted v tc C (involved (wanted cs) w) x) → Reports (hs T).evs (hs T).peer ∧ (∀ c ∈ (hs T).chain, Readable c) ∧
      NameWanted (involved (wanted cs) w) (hs T).chain u ∧ ∀ ev ∈ (hs T).evs, GoodEv (EeWanted v tc C (involved (wanted cs) w) (hs T).peer) ev) :
    ∃ s, acceptOpenssl v ts own (refOf l e (cfg.getD [])) true userOk hs = .session s ∧ s.username = some u := by
  obtain ⟨oc, rc, h1, h2, h3, h4⟩ := h.made.endpt hl hw hown
  refine tls_login_possible_partial v h.texts spki ts tc own oc _ rc userOk hs h.ts h1 h2 (h4 href) (usable_conf h.codes h3 hu) (fps_of h.codes h3 hf) u hk ?_
  intro T hT
  obtain ⟨k1, k2, k3, k4⟩ := hlib T (fun x => (hT x).trans (ca_iff h.codes h3 tc x))
  refine ⟨k1, k2, (name_iff h.codes h3 _ u).mpr k3, fun ev hev => ?_⟩
  rw [propext (ee_iff h.codes h3 tc (hs T).peer)]
  exact k4 ev hev

/-- **C246, Mbed TLS.** The same. -/
theorem function_certs_possible_mbedtls (v : Vals) (C : Text → Nat) (spki : Nat → Bool) (ts : Ts) (tc : TsConf)
    (S : Schema) (cs : List Call) (cfg : Config) (h : TlsCalls v C spki ts tc S cs cfg) (l : List (Text × End)) (e : Text) (w : Want) (own : End)
    (hl : setUp spki C (cfg.getD []) = some l) (hw : wanted cs e = some w) (hown : endptOf l e = some own) (hf : FpsOk (involved (wanted cs) w))
    (hu : Usable v tc C (involved (wanted cs) w)) (href : ∀ r, w.ref = some r → (wanted cs r).isSome) (userOk : Text → Bool)
    (pre : List Cert → List MEv) (last : List Cert → MEv) (u : Text) (hk : userOk u = true)
    (hlib : ∀ T, (∀ x, x ∈ T ↔ CaWanted v tc C (involved (wanted cs) w) x) → MReports (pre T) (last T) ∧
      (∀ ev ∈ pre T ++ [last T], Readable ev.cert ∧ ev.names = true) ∧ NameWanted (involved (wanted cs) w) ((pre T ++ [last T]).map (·.cert)) u ∧
      (∀ ev ∈ pre T, ev.flags = noFlags) ∧
      ((last T).flags = noFlags ∨ ((last T).flags = ⟨true, false, false⟩ ∧ EeWanted v tc C (involved (wanted cs) w) (last T).cert))) :
    ∃ s, acceptMbedtls v ts own (refOf l e (cfg.getD [])) true userOk (fun T => pre T ++ [last T]) = .session s ∧ s.username = some u := by
  obtain ⟨oc, rc, h1, h2, h3, h4⟩ := h.made.endpt hl hw hown
  refine tls_login_possible_mbedtls_partial v h.texts spki ts tc own oc _ rc userOk pre last h.ts h1 h2 (h4 href) (usable_conf h.codes h3 hu)
    (fps_of h.codes h3 hf) u hk ?_
  intro T hT
  obtain ⟨k1, k2, k3, k4, k5⟩ := hlib T (fun x => (hT x).trans (ca_iff h.codes h3 tc x))
  exact ⟨k1, k2, (name_iff h.codes h3 _ u).mpr k3, k4, k5.imp_right (fun k => ⟨k.1, (ee_iff h.codes h3 tc _).mpr k.2⟩)⟩

/-- **C246.** After calls that succeeded, a function succeeds if and only if what it deletes is there, the number of an entry is not 0 and its map type is known,
provided that libyang takes names and values. -/
theorem tls_function_succeeds (S : Schema) (hS : ConfUserUse.Takes S) (pre : List Call) (cfg : Config) (hgood : ∀ c ∈ pre, c.good)
    (h : build S pre none = (true, cfg)) (c : Call) (hc : c.good) : (∃ t, c.run S cfg = (true, some t)) ↔ c.act.possible (wanted pre c.endpt) := by
  have hi : Inv (cfg.getD []) (wanted pre) := inv_build S pre [] none cfg hgood inv_nil h
  rw [possible_img]
  constructor
  · rintro ⟨t, ht⟩
    refine ⟨fun i fp mt n ha => ?_, fun r hr => ?_⟩
    · have := run_map ht i fp mt n ha
      exact ⟨this.1, map_lt.mp this.2⟩
    · have := call_found hc ht r hr
      rwa [ConfUserUse.view_found, hi.at] at this
  · rintro ⟨hm, hr⟩
    refine call_some hS hc hi.sound hm (fun r hr' => ?_)
    rw [ConfUserUse.view_found, hi.at]
    exact hr r hr'

/-! ## Examples -/

/-- Values for the examples: the certificate of a text of one letter has the number of the letter. -/
def tlsTexts : Vals := ⟨textOf 50, fun d => some (exCert (d - 1) "/CN=c" [])⟩

/-- An endpoint with an authority that is changed, and a cert-to-name entry that is deleted. -/
def tlsCalls : List Call :=
  [⟨t!"m", .ks t!"k" t!"c"⟩, ⟨t!"m", .trust false t!"ca" t!"X"⟩, ⟨t!"m", .trust false t!"ca" t!"A"⟩, ⟨t!"m", .ctn 2 none 0 t!"eve"⟩,
    ⟨t!"m", .ctn 7 (some t!"04:41:04") 0 t!"ann"⟩, ⟨t!"m", .delCtn 2⟩]

/-- An endpoint that refers to another one, with a certificate of a client. -/
def refCalls : List Call := [⟨t!"m", .ks t!"k" t!"c"⟩, ⟨t!"m", .ref t!"s"⟩, ⟨t!"s", .ks t!"k" t!"c"⟩, ⟨t!"s", .trust true t!"b" t!"B"⟩, ⟨t!"s", .ctn 1 none 0 t!"bob"⟩]

/-- The result of accepting a client that has the certificate `n` issued by `i`, at the endpoint after the calls; OpenSSL verifies it exactly if the issuer is
trusted. -/
def acceptAfter (cs : List Call) (e : Text) (n i : Nat) : Option (Option Text) :=
  match build anySchema cs none with
  | (true, some t) =>
    match setUp allSpki textCode t with
    | some l =>
      match endptOf l e with
      | some own => userOf (acceptOpenssl tlsTexts ⟨[], []⟩ own (refOf l e t) true (fun _ => true) (fun S =>
          ⟨[exCert n "/CN=c" [], exCert i "/CN=ca" []], exCert n "/CN=c" [],
            if S.any (fun c => c.id == i) then [⟨true, 1, .other, exCert i "/CN=ca" [], true⟩, ⟨true, 0, .other, exCert n "/CN=c" [], true⟩]
            else [⟨false, 0, .unableToVerifyLeaf, exCert n "/CN=c" [], true⟩]⟩))
      | none => none
    | none => none
  | _ => none

/-- A client of the authority is Ann, by the fingerprint. -/
example : acceptAfter tlsCalls t!"m" 100 65 = some (some t!"ann") := by decide +kernel

/-- A client of the authority that was there first is refused. -/
example : acceptAfter tlsCalls t!"m" 100 88 = none := by decide +kernel

/-- The client with the certificate of the second endpoint is Bob, by the entry there. -/
example : acceptAfter refCalls t!"m" 66 99 = some (some t!"bob") := by decide +kernel

/-- Others are refused there. -/
example : acceptAfter refCalls t!"m" 67 99 = none := by decide +kernel

/-- What is not there cannot be deleted, a bag replaces certificates, and entries have numbers from 1 on. -/
example : [[⟨t!"main", .trust false t!"ca" t!"A"⟩, ⟨t!"main", .bag false t!"b"⟩, ⟨t!"main", .delTrust false t!"ca"⟩], [⟨t!"main", .ctn 0 none 0 t!"ann"⟩],
    [⟨t!"main", .ctn 1 none 6 t!"ann"⟩], [⟨t!"main", .ctn 1 none 5 t!"ann"⟩]].map (fun cs => (build anySchema cs none).1) = [false, false, false, true] := by
  decide +kernel

/-- One endpoint with one authority; everybody is Ann. -/
def oneCalls : List Call := [⟨t!"main", .ks t!"k" t!"c"⟩, ⟨t!"main", .trust false t!"ca" t!"A"⟩, ⟨t!"main", .ctn 1 none 0 t!"ann"⟩]

/-- What is wanted then. -/
theorem one_wanted (e : Text) (w : Want) (h : wanted oneCalls e = some w) : e = t!"main" ∧ w.id = some (.keystore t!"k" t!"c") ∧
    (∀ m, w.certs false = some m → m = .inline (fun j => if j = t!"ca" then some t!"A" else none)) ∧ (w.certs false).isSome ∧ w.certs true = none ∧ w.ref = none ∧
    ∀ i, w.ctn i = if i = 1 then some ⟨none, 0, t!"ann"⟩ else none := by
  by_cases he : e = t!"main"
  · subst he
    have : wanted oneCalls t!"main" = some _ := rfl
    rw [this] at h
    cases h
    exact ⟨rfl, rfl, fun m hm => by cases hm; rfl, rfl, rfl, rfl, fun i => rfl⟩
  · simp [wanted, oneCalls, Ne.symm he] at h

/-- The values with a number for each text. -/
def eqvVals (f : Text ≃ Nat) : Vals := ⟨f.symm, fun n => some (exCert (n % 256) "/CN=ca" [])⟩

theorem one_calls (f : Text ≃ Nat) : TlsCalls (eqvVals f) f allSpki ⟨[], []⟩ TsConf.empty anySchema oneCalls (build anySchema oneCalls none).2 where
  texts := fun a b h => by simpa [eqvVals] using h
  codes := fun t => f.symm_apply_apply t
  ts := ⟨⟨[], []⟩, ⟨[], []⟩, emptyTs, [], TsConf.empty, rfl, rfl, by decide, rfl⟩
  good := by
    intro c hc
    simp only [oneCalls, List.mem_cons, List.not_mem_nil, or_false] at hc
    rcases hc with rfl | rfl | rfl <;> simp [Call.good]
  files := by
    intro e a b c d hm
    simp [oneCalls] at hm
  built := pairEta _ (by decide +kernel)
  ids := fun e w hw => by rw [(one_wanted e w hw).2.1]; rfl

theorem one_fps (e : Text) (w : Want) (hw : wanted oneCalls e = some w) : FpsOk (involved (wanted oneCalls) w) := by
  intro x hx i y hy
  obtain ⟨-, -, -, -, -, hr, hc⟩ := one_wanted e w hw
  rw [involved, hr] at hx
  have hx : x = w := by simpa using hx
  subst hx
  rw [hc] at hy
  split at hy
  · cases hy
    intro s hs
    cases hs
  · cases hy

theorem one_name (e : Text) (w : Want) (hw : wanted oneCalls e = some w) (c : Cert) (t : List Cert) : NameWanted (involved (wanted oneCalls) w) (c :: t) t!"ann" := by
  obtain ⟨-, -, -, -, -, hr, hc⟩ := one_wanted e w hw
  refine ⟨[], w, [], 1, ⟨none, 0, t!"ann"⟩, by rw [involved, hr]; rfl, by rw [hc]; rfl, by simp, fun j f hj hf => ?_, [], c, t, rfl, by simp, ?_⟩
  · rw [hc, if_neg (by omega)] at hf
    cases hf
  · exact ⟨.inl rfl, rfl⟩

theorem one_usable (f : Text ≃ Nat) (e : Text) (w : Want) (hw : wanted oneCalls e = some w) :
    Usable (eqvVals f) TsConf.empty f (involved (wanted oneCalls) w) := by
  obtain ⟨-, -, h1, h2, h3, hr, -⟩ := one_wanted e w hw
  obtain ⟨m, hm⟩ := Option.isSome_iff_exists.mp h2
  have h1 := h1 m hm
  have hi : involved (wanted oneCalls) w = [w] := by rw [involved, hr]; rfl
  rw [hi]
  refine ⟨fun x hx b hb => ?_, fun x hx g d hd => ⟨_, rfl⟩, w, by simp, false, f t!"A", ?_⟩
  · rw [List.mem_singleton.mp hx, hm, h1] at hb
    cases hb
  · rw [hm, h1]
    exact ⟨t!"ca", t!"A", rfl, rfl⟩

/-- The client is Ann. -/
example : ∃ (v : Vals) (C : Text → Nat) (l : List (Text × End)) (own : End) (s : Sess),
    setUp allSpki C ((build anySchema oneCalls none).2.getD []) = some l ∧ endptOf l t!"main" = some own ∧
      acceptOpenssl v ⟨[], []⟩ own (refOf l t!"main" ((build anySchema oneCalls none).2.getD [])) true (fun _ => true) tlsClient = .session s ∧
      s.username = some t!"ann" := by
  obtain ⟨f, -⟩ := texts_numbers
  obtain ⟨l, h1, -, h2⟩ := tls_functions_set_up _ _ _ _ _ _ _ _ (one_calls f)
  obtain ⟨w, hw⟩ : ∃ w, wanted oneCalls t!"main" = some w := ⟨_, rfl⟩
  obtain ⟨own, h3, -⟩ := h2 t!"main" w hw
  obtain ⟨s, h4, h5⟩ := function_certs_possible _ _ _ _ _ _ _ _ (one_calls f) l t!"main" w own h1 hw h3 (one_fps _ w hw) (one_usable f _ w hw)
    (fun r hr => by rw [(one_wanted _ w hw).2.2.2.2.2.1] at hr; cases hr) (fun _ => true) tlsClient t!"ann" rfl
    (fun T _ => ⟨tlsClient_reports T, tlsClient_readable T, one_name _ w hw _ _, fun ev hev => by
      simp only [tlsClient, List.mem_singleton] at hev
      rw [hev]
      exact ⟨rfl, .inl rfl⟩⟩)
  exact ⟨_, f, l, own, s, h1, h3, h4, h5⟩

/-! ## Failures above the certificate of the client -/

/-- A client whose issuer is refused for some reason, such as its date. -/
def oldIssuer : List Cert → Handshake := fun _ => ⟨[exCert 10 "/CN=c" []], exCert 10 "/CN=c" [],
  [⟨false, 1, .other, exCert 11 "/CN=ca" [], true⟩, ⟨true, 0, .other, exCert 10 "/CN=c" [], true⟩]⟩

theorem oldIssuer_lib : OpensslOk (fun _ _ => False) oldIssuer := by
  refine ⟨fun S => ⟨?_, ⟨_, List.mem_cons_of_mem _ (List.mem_singleton.mpr rfl), rfl, by simp⟩⟩, ?_, ?_, ?_⟩
  · intro ev hev hd
    simp only [oldIssuer, List.mem_cons, List.not_mem_nil, or_false] at hev
    rcases hev with rfl | rfl
    · cases hd
    · rfl
  · intro S a e b hab hd hp x hx hx'
    have : x ∈ (oldIssuer S).evs := by rw [hab]; simp [hx]
    simp only [oldIssuer, List.mem_cons, List.not_mem_nil, or_false] at this
    rcases this with rfl | rfl <;> rfl
  · intro S hv
    have := hv _ (List.mem_cons_self)
    cases this
  · intro S c hc
    simp only [oldIssuer, List.mem_singleton] at hc
    rw [hc]
    exact exCert_readable 10 (by decide) _ _ (by simp)

/-- That client gets in. -/
theorem oldIssuer_accepted (f : Text ≃ Nat) {ts : Ts} {t : List ConfUtil.Node} (h : TlsMade (eqvVals f) f allSpki ts TsConf.empty oneCalls t) {l : List (Text × End)}
    {own : End} {w : Want} (h1 : setUp allSpki f t = some l) (hw : wanted oneCalls t!"main" = some w) (h3 : endptOf l t!"main" = some own) :
    acceptOpenssl (eqvVals f) ts own (refOf l t!"main" t) true (fun _ => true) oldIssuer = .session ⟨some t!"ann", some (exCert 10 "/CN=c" [])⟩ := by
  obtain ⟨oc, rc, g1, g2, g3, g4⟩ := h.endpt h1 hw h3
  have hconf := usable_conf h.codes g3 (one_usable f _ w hw)
  have hfps := fps_of h.codes g3 (one_fps _ w hw)
  obtain ⟨p, k1, k2, k3⟩ := prepare_as (eqvVals f) h.texts ts TsConf.empty (setUp_ts _ _ h.ts) own oc (endSafe_as allSpki own oc g1) _ rc
    (refAs_imp (endSafe_as allSpki) _ rc g2) true
  have k3 := k3 rfl (g4 (fun r hr => by rw [(one_wanted _ w hw).2.2.2.2.2.1] at hr; cases hr)) (fun c hc => ⟨hconf.bags c hc, hconf.cas c hc⟩) hconf.some
  obtain ⟨⟨T, o⟩, rfl⟩ := Option.ne_none_iff_exists'.mp k3
  have hname := (name_by_conf (k2 T o rfl) hfps _ (oldIssuer_lib.readable T) t!"ann").mpr ((name_iff h.codes g3 _ _).mpr (one_name _ w hw _ _))
  simp only [acceptOpenssl, k1]
  have hname : TlsAuth.endptName o [exCert 10 "/CN=c" []] = .name t!"ann" := hname
  simp [oldIssuer, TlsAuth.run, TlsAuth.callback, TlsAuth.cbVerify, TlsAuth.verifyCert, TlsAuth.cbCert, hname]

theorem oldIssuer_unwanted {v : Vals} {tc : TsConf} {C : Text → Nat} {w : Want} (hw : wanted oneCalls t!"main" = some w) {userOk : Text → Bool} {chain : List Cert}
    {peer : Cert} {s : Sess} : ¬ LoggedIn v tc C (involved (wanted oneCalls) w) userOk (fun _ _ => False) chain peer s := by
  rintro ⟨u, -, -, -, -, hend⟩
  rcases hend with hend | ⟨x, hx, d, y, hd, -⟩
  · exact hend
  · obtain ⟨-, -, -, -, he, hr, -⟩ := one_wanted _ w hw
    rw [involved, hr] at hx
    have hx : x = w := by simpa using hx
    rw [hx, he] at hd
    exact hd

/-- **C246, false in general.** A client gets in though its chain does not lead to a trusted authority, and its certificate is not one given to the functions: an error
above its certificate is ignored. -/
theorem function_certs_login_false : ∃ v C, ¬ FunctionCertsLogin v C allSpki := by
  obtain ⟨f, -⟩ := texts_numbers
  refine ⟨eqvVals f, f, fun hall => ?_⟩
  have hcalls := one_calls f
  generalize (build anySchema oneCalls none).2 = cfg at hcalls
  obtain ⟨l, h1, -, h2⟩ := tls_functions_set_up _ _ _ _ _ _ _ _ hcalls
  obtain ⟨w, hw⟩ : ∃ w, wanted oneCalls t!"main" = some w := ⟨_, rfl⟩
  obtain ⟨own, h3, -⟩ := h2 t!"main" w hw
  obtain ⟨T', -, hl⟩ := hall (fun _ _ => False) _ _ _ _ _ hcalls l t!"main" w own h1 hw h3 (one_fps _ w hw) true (fun _ => true) oldIssuer oldIssuer_lib _
    (oldIssuer_accepted f hcalls.made h1 hw h3)
  exact oldIssuer_unwanted hw hl

end Verif.Props
