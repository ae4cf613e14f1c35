import Verif.Lemmas.TlsTalk
import Verif.Props.ClientTls
import Verif.Props.TlsLogin
import Verif.Props.ServerId

/-!
# Properties C242 and C243: a client and a server of this library over TLS
-/

namespace Verif.Props
open Verif.TlsTalk
open Verif.TransCfg (Lib)
open Verif.ConfStore (Map TsConf KeyConf)
open Verif.ClientTls (LibOk Chain Configured wanted Proper Root FilesOk ListsGood)
open Verif.TlsLogin (EndConf NameByConf EeConfigured CaConfigured GoodEv Out)
open Verif.TlsAuth (Text Readable noFlags)

/-! ## C242: both sides know each other -/

/-- What the TLS library of the server does: as in C220, and the certificate it verifies is the first one shown; certificates keep their numbers. -/
structure WorldOk (w : World) (Chains : (TlsAuth.Cert → Prop) → List TlsAuth.Cert → Prop) : Prop where
  real : ∀ n, (w.real n).id = n
  ossl : ∀ l, OpensslOk Chains (w.ossl l)
  osslPeer : ∀ a l S, (w.ossl (a :: l) S).peer = w.seen a ∧ w.seen a ∈ (w.ossl (a :: l) S).chain
  mbed : ∀ l, MbedtlsOk Chains (w.mbedPre l) (w.mbedLast l)
  mbedPeer : ∀ a l S, (w.mbedLast (a :: l) S).cert = w.seen a

/-- The client talks to a server that shows the configured certificate and owns its key, which was issued by an authority in the files of the client for the host asked for.
The server talks to the owner of the certificate in the files of the client, whose session has the user name that the configuration gives. -/
structure Mutual (cl : Lib) (w : World) (d : ClientTls.Disk) (o : ClientTls.Opts) (way : Way) (s : Server) (kc : Map KeyConf) (tc : TsConf) (oc : EndConf)
    (rc : Option EndConf) (Chains : (TlsAuth.Cert → Prop) → List TlsAuth.Cert → Prop) (c : ClientTls.Sess) (t : TlsAuth.Sess) : Prop where
  server : ∃ n, Identity s.idVals kc oc n ∧ c.server = w.real n
  issued : ∃ p, Chain (Configured cl d o) c.server (fun y => y ∈ c.server :: w.more c.server.id ∨ Configured cl d o y) p
  name : ∀ t, way.wants t → t ∈ c.server.dns ∨ t ∈ c.server.ips
  client : OwnsFiles d o c.cert
  user : ∃ chain, w.seen c.cert.id ∈ chain ∧ TlsLoggedIn s.vals tc (oc :: rc.toList) s.userOk Chains chain (w.seen c.cert.id) t

/-- **C242.** Full statement (false, see `tls_mutual_false`): whenever one side has a session, both have authenticated each other according to configuration and files. -/
def TlsMutual (cl sl : Lib) : Prop :=
  ∀ (v13 : Bool) (w : World) (x : ClientTls.Ext) (d : ClientTls.Disk) (o : ClientTls.Opts) (way : Way) (s : Server) (hello : Bool × Bool) (kc : Map KeyConf)
    (tc : TsConf) (oc : EndConf) (rc : Option EndConf) (Chains : (TlsAuth.Cert → Prop) → List TlsAuth.Cert → Prop) (a : Option ClientTls.Sess) (b : Option TlsAuth.Sess),
    SetUp s kc tc oc rc → WorldOk w Chains → LibOk x → connect cl sl v13 w x d o way s hello = .ok (a, b) → (a.isSome = true ∨ b.isSome = true) →
    ∃ c t, (∀ c', a = some c' → c' = c) ∧ (∀ t', b = some t' → t' = t) ∧ Mutual cl w d o way s kc tc oc rc Chains c t

theorem peer_owns {s : Server} {sl : Lib} {w : World} {c : ClientTls.Cert} (h : (s.peer sl w).shown.head? = some c) (hown : (s.peer sl w).owns c.id = true) :
    ∃ n k, s.ready sl w = some (some (n, k)) ∧ c = w.real n ∧ k = c.id ∧ (s.peer sl w).shown = c :: w.more n := by
  unfold Server.peer at h hown ⊢
  split at h
  · rename_i n k hr
    rw [hr] at hown ⊢
    simp only [List.head?_cons, Option.some.injEq] at h
    simp only [beq_iff_eq] at hown
    exact ⟨n, k, rfl, h.symm, hown.symm, by rw [h]⟩
  · cases h

/-- What the client has verified. -/
theorem way_wanted {lib : Lib} {x : ClientTls.Ext} {d : ClientTls.Disk} {o : ClientTls.Opts} {way : Way} {peer : ClientTls.Peer} {c : ClientTls.Sess} (hx : LibOk x)
    (he : way = .home (.tls (some [])) → lib = .mbedtls) (h : way.client lib x d o peer = .ok (some c)) :
    ClientTls.Authentic lib d o peer c.server ∧ ∀ t, way.wants t → t ∈ c.server.dns ∨ t ∈ c.server.ips := by
  cases way with
  | direct host =>
    obtain ⟨h1, h2⟩ := tls_server_wanted hx h
    exact ⟨h1, fun t ht => by rw [show t = wanted host from ht]; exact h2⟩
  | home b =>
    obtain ⟨host, rfl⟩ := callhome_tls_only h
    obtain ⟨h1, h2⟩ := callhome_server_wanted_partial hx h
    refine ⟨h1, fun t ht => ?_⟩
    cases host with
    | none => exact ht.elim
    | some w =>
      obtain rfl : t = w := ht
      refine h2 t rfl ?_
      by_cases ht : t = []
      · subst ht; exact .inr (he rfl)
      · exact .inl ht

theorem way_identity {lib : Lib} {x : ClientTls.Ext} {d : ClientTls.Disk} {o : ClientTls.Opts} {way : Way} {peer : ClientTls.Peer} {c : ClientTls.Sess}
    (h : way.client lib x d o peer = .ok (some c)) : (∃ f items, o.certPath = some f ∧ d.file f = some items ∧ ClientTls.FirstCert items c.cert) ∧
    ∃ g items, o.keyPath = some g ∧ d.file g = some items ∧ ClientTls.FirstKey items c.key := by
  cases way with
  | direct host => exact ⟨(tls_client_identity_partial (.inl h)).1, (tls_client_identity_partial (.inl h)).2.1⟩
  | home b =>
    obtain ⟨host, rfl⟩ := callhome_tls_only h
    exact ⟨(tls_client_identity_partial (.inr h)).1, (tls_client_identity_partial (.inr h)).2.1⟩

/-- What the server has verified. -/
theorem verify_loggedIn {sl : Lib} {w : World} {s : Server} {kc : Map KeyConf} {tc : TsConf} {oc : EndConf} {rc : Option EndConf}
    {Chains : (TlsAuth.Cert → Prop) → List TlsAuth.Cert → Prop} (hs : Safe s kc tc oc rc) (hw : WorldOk w Chains)
    (habove : sl = .openssl → ∀ l S, ∀ ev ∈ (w.ossl l S).evs, ev.depth > 0 → ev.preverify = true) {a : Nat} {l : List Nat} {t : TlsAuth.Sess}
    (h : s.verify sl w (a :: l) = .session t) :
    ∃ chain, w.seen a ∈ chain ∧ TlsLoggedIn s.vals tc (oc :: rc.toList) s.userOk Chains chain (w.seen a) t := by
  cases sl with
  | openssl =>
    obtain ⟨S, -, h2⟩ := tls_login_configured_partial s.vals hs.texts _ Chains s.ts tc s.own oc s.ref rc s.up s.userOk _ hs.trust hs.own hs.ref (hw.ossl (a :: l))
      (habove rfl (a :: l)) hs.fps t h
    rw [(hw.osslPeer a l S).1] at h2
    exact ⟨_, (hw.osslPeer a l S).2, h2⟩
  | mbedtls =>
    obtain ⟨S, -, h2⟩ := tls_login_configured_mbedtls_partial s.vals hs.texts _ Chains s.ts tc s.own oc s.ref rc s.up s.userOk _ _ hs.trust hs.own hs.ref
      (hw.mbed (a :: l)) hs.fps t h
    rw [hw.mbedPeer a l S] at h2
    exact ⟨_, by rw [← hw.mbedPeer a l S]; simp, h2⟩

/-- **C242 (part).** It holds for all versions of TLS and all pairs of libraries, for diffs without the changes that are not followed, and with OpenSSL at the server for chains
in which nothing above the certificate of the client fails (both are missing: C220, C225), and without Call Home with an empty name and OpenSSL (C233). -/
theorem tls_mutual_partial {cl sl : Lib} {v13 : Bool} {w : World} {x : ClientTls.Ext} {d : ClientTls.Disk} {o : ClientTls.Opts} {way : Way} {s : Server}
    {hello : Bool × Bool} {kc : Map KeyConf} {tc : TsConf} {oc : EndConf} {rc : Option EndConf} {Chains : (TlsAuth.Cert → Prop) → List TlsAuth.Cert → Prop}
    {a : Option ClientTls.Sess} {b : Option TlsAuth.Sess} (hs : Safe s kc tc oc rc) (hw : WorldOk w Chains) (hx : LibOk x)
    (habove : sl = .openssl → ∀ l S, ∀ ev ∈ (w.ossl l S).evs, ev.depth > 0 → ev.preverify = true)
    (hempty : way = .home (.tls (some [])) → cl = .mbedtls) (h : connect cl sl v13 w x d o way s hello = .ok (a, b)) (hab : a.isSome = true ∨ b.isSome = true) :
    ∃ c t, (∀ c', a = some c' → c' = c) ∧ (∀ t', b = some t' → t' = t) ∧ Mutual cl w d o way s kc tc oc rc Chains c t := by
  obtain ⟨c, t, hl, ha, hb⟩ := connect_cases h hab
  refine ⟨c, t, ha, hb, ?_⟩
  rcases layer_cases hl with ⟨h1, -⟩ | ⟨c', hc, ⟨t', h1, h2, hkey, hv⟩ | ⟨-, h1 | h1⟩⟩
  · cases h1
  · cases h1
    cases h2
    obtain ⟨⟨hshown, howns, p, hchain⟩, hname⟩ := way_wanted hx hempty hc
    obtain ⟨n, k, hr, hn, hk, hsh⟩ := peer_owns hshown howns
    obtain ⟨y, hload, hy, -⟩ := ready_some hr
    obtain ⟨f, p', e, g1, g2, g3⟩ := ((tls_identity_partial s.idVals s.ks kc s.own.tls oc.tls hs.keys hs.own.1).2 y k).mp hload
    have hid : c.server.id = n := by rw [hn]; exact hw.real n
    obtain ⟨hf, hg⟩ := way_identity hc
    refine ⟨⟨n, ⟨f, p', e, y, g1, g2, hy, by rw [g3, hk, hid]⟩, hn⟩, ⟨p, by rw [hid, ← hsh]; exact hchain⟩, hname, ⟨hf, by rw [← hkey]; exact hg⟩, ?_⟩
    exact verify_loggedIn hs hw habove hv
  · cases h1
  · cases h1

/-! ## C242: do both sides agree? -/

/-- **C242.** Full statement (false, see `tls_layer_agree_false`): after the TLS handshake, either both sides have a session or none has. -/
def TlsLayerAgree (cl sl : Lib) (v13 : Bool) : Prop :=
  ∀ (w : World) (x : ClientTls.Ext) (d : ClientTls.Disk) (o : ClientTls.Opts) (way : Way) (s : Server) (a : Option ClientTls.Sess) (b : Out),
    layer cl sl v13 w x d o way s = .ok (a, b) → (a.isSome = true ↔ ∃ t, b = .session t)

/-- **C242 (part).** They agree with TLS 1.2; with TLS 1.3 the client has one if the server has. -/
theorem tls_layer_agree_partial (cl sl : Lib) : TlsLayerAgree cl sl false ∧
    ∀ (w : World) (x : ClientTls.Ext) (d : ClientTls.Disk) (o : ClientTls.Opts) (way : Way) (s : Server) (a : Option ClientTls.Sess) (t : TlsAuth.Sess),
      layer cl sl true w x d o way s = .ok (a, .session t) → a.isSome = true := by
  constructor
  · intro w x d o way s a b h
    rcases layer_cases h with ⟨rfl, rfl | rfl⟩ | ⟨c, -, ⟨t, rfl, rfl, -⟩ | ⟨rfl, rfl | rfl⟩⟩ <;> simp
  · intro w x d o way s a t h
    rcases layer_cases h with ⟨-, h | h⟩ | ⟨c, -, ⟨t, rfl, -⟩ | ⟨-, h | h⟩⟩
    · cases h
    · cases h
    · rfl
    · cases h
    · cases h

/-- **C242.** For diffs without the changes that are not followed the server uses no memory that is not there, whoever connects. -/
theorem tls_server_memory_partial {cl sl : Lib} {v13 : Bool} {w : World} {x : ClientTls.Ext} {d : ClientTls.Disk} {o : ClientTls.Opts} {way : Way} {s : Server}
    {kc : Map KeyConf} {tc : TsConf} {oc : EndConf} {rc : Option EndConf} {a : Option ClientTls.Sess} {b : Out} (hs : Safe s kc tc oc rc)
    (h : layer cl sl v13 w x d o way s = .ok (a, b)) : b ≠ .ub := by
  obtain ⟨q, h1, -⟩ := TlsLogin.prepare_as s.vals hs.texts s.ts tc (Login.setUp_ts s.ts tc hs.trust) s.own oc (TlsLogin.endSafe_as _ s.own oc hs.own) s.ref rc
    (TlsLogin.refAs_imp (TlsLogin.endSafe_as _) s.ref rc hs.ref) s.up
  have hload := (tls_identity_partial s.idVals s.ks kc s.own.tls oc.tls hs.keys hs.own.1).1
  have hready : s.ready sl w ≠ none := by
    unfold Server.ready
    cases h2 : ServerId.loadServer s.idVals s.ks s.own.tls.id with
    | ub => exact absurd h2 hload
    | refused => simp
    | shown c k =>
      simp only [h1]
      cases q with
      | none => simp
      | some q => simp only; split <;> simp
  have hverify : ∀ l, s.verify sl w l ≠ .ub := by
    intro l
    cases sl with
    | openssl =>
      simp only [Server.verify, TlsLogin.acceptOpenssl, h1]
      cases q with
      | none => simp
      | some q => simp only; split <;> simp
    | mbedtls =>
      simp only [Server.verify, TlsLogin.acceptMbedtls, h1]
      cases q with
      | none => simp
      | some q => simp only; split <;> simp
  unfold layer at h
  cases h2 : way.client cl x d o (s.peer sl w) with
  | error f => rw [h2] at h; cases h
  | ok r =>
    rw [h2] at h
    cases r with
    | none =>
      simp only [if_neg hready, Except.ok.injEq, Prod.mk.injEq] at h
      rw [← h.2]
      simp
    | some c =>
      simp only at h
      split at h
      · cases h; simp
      · cases h; simp
      · rename_i hu
        split at hu
        · exact absurd hu (hverify _)
        · cases hu

/-! ## C243: who should get in gets in -/

/-- The server shows what is configured, if the rest is there. -/
theorem peer_configured {sl : Lib} {w : World} {s : Server} {kc : Map KeyConf} {tc : TsConf} {oc : EndConf} {rc : Option EndConf} (hs : Safe s kc tc oc rc)
    (hreal : ∀ n, (w.real n).id = n) (hup : s.up = true) (href : s.ref ≠ some none) (hu : TlsClientUsable s.vals tc (oc :: rc.toList)) {n : Nat}
    (hid : Identity s.idVals kc oc n) : s.peer sl w = ⟨w.real n :: w.more n, fun m => m == n, true⟩ := by
  obtain ⟨f, p, e, y, g1, g2, g3, g4⟩ := hid
  have hload := ((tls_identity_partial s.idVals s.ks kc s.own.tls oc.tls hs.keys hs.own.1).2 y n).mpr ⟨f, p, e, g1, g2, g4⟩
  obtain ⟨q, h1, -, h3⟩ := TlsLogin.prepare_as s.vals hs.texts s.ts tc (Login.setUp_ts s.ts tc hs.trust) s.own oc (TlsLogin.endSafe_as _ s.own oc hs.own) s.ref rc
    (TlsLogin.refAs_imp (TlsLogin.endSafe_as _) s.ref rc hs.ref) s.up
  have h3 := h3 hup href (fun c hc => ⟨hu.bags c hc, hu.cas c hc⟩) hu.some
  cases q with
  | none => exact absurd rfl h3
  | some q =>
    have hr : s.ready sl w = some (some (n, n)) := by
      simp only [Server.ready, hload, h1, g3]
      rw [if_pos]
      cases sl <;> simp [ClientTls.keyFits, hreal]
    simp only [Server.peer, hr]

/-- What the server must make of the certificates of the client, given the configured authorities: no certificate fails, or only that of the client, which is configured itself;
the configured entries give the user name `u`. -/
def ClientGood (sl : Lib) (w : World) (s : Server) (tc : TsConf) (cs : List EndConf) (l : List Nat) (u : Text) : Prop :=
  ∀ S, (∀ x, x ∈ S ↔ CaConfigured s.vals tc cs x) →
    match sl with
    | .openssl => Reports (w.ossl l S).evs (w.ossl l S).peer ∧ (∀ c ∈ (w.ossl l S).chain, Readable c) ∧ NameByConf s.vals cs (w.ossl l S).chain u ∧
        ∀ ev ∈ (w.ossl l S).evs, GoodEv (EeConfigured s.vals tc cs (w.ossl l S).peer) ev
    | .mbedtls => MReports (w.mbedPre l S) (w.mbedLast l S) ∧ (∀ ev ∈ w.mbedPre l S ++ [w.mbedLast l S], Readable ev.cert ∧ ev.names = true) ∧
        NameByConf s.vals cs ((w.mbedPre l S ++ [w.mbedLast l S]).map (·.cert)) u ∧ (∀ ev ∈ w.mbedPre l S, ev.flags = noFlags) ∧
        ((w.mbedLast l S).flags = noFlags ∨ ((w.mbedLast l S).flags = ⟨true, false, false⟩ ∧ EeConfigured s.vals tc cs (w.mbedLast l S).cert))

/-- **C243.** A client and a server that are set up for each other: by its files the client owns certificate `own` and trusts an authority of the configured certificate `n` of
the server, which is for the host; by its configuration the server gives the user name `u` to the client. -/
structure ForEachOther (cl sl : Lib) (w : World) (x : ClientTls.Ext) (d : ClientTls.Disk) (o : ClientTls.Opts) (way : Way) (s : Server) (kc : Map KeyConf) (tc : TsConf)
    (oc : EndConf) (rc : Option EndConf) (own : ClientTls.Cert) (n : Nat) (u : Text) : Prop where
  real : ∀ n, (w.real n).id = n
  lib : LibOk x
  running : x.newStore = true ∧ x.curlInit = true ∧ x.urisOk = true ∧ x.up = true ∧ s.up = true ∧ s.ref ≠ some none
  files : FilesOk d o own
  lists : ListsGood cl x d o own ⟨w.real n :: w.more n, fun m => m == n, true⟩
  chain : ∃ p, Chain (Root cl d o) (w.real n) (fun c => c ∈ w.more n ∨ Configured cl d o c) p
  identity : Identity s.idVals kc oc n
  tls : way.overTls
  name : ∃ t, (∀ t', way.wants t' → t' = t) ∧ (t ∈ (w.real n).dns ∨ t ∈ (w.real n).ips)
  usable : TlsClientUsable s.vals tc (oc :: rc.toList)
  user : s.userOk u = true
  client : ClientGood sl w s tc (oc :: rc.toList) (own.id :: w.clientMore own.id) u

/-- **C243.** Full statement (false, see `tls_both_succeed_false`): they make a session, with this user. -/
def TlsBothSucceed (cl sl : Lib) : Prop :=
  ∀ (v13 : Bool) (w : World) (x : ClientTls.Ext) (d : ClientTls.Disk) (o : ClientTls.Opts) (way : Way) (s : Server) (kc : Map KeyConf) (tc : TsConf)
    (oc : EndConf) (rc : Option EndConf) (own : ClientTls.Cert) (n : Nat) (u : Text), SetUp s kc tc oc rc → ForEachOther cl sl w x d o way s kc tc oc rc own n u →
    ∃ t, connect cl sl v13 w x d o way s (true, true) = .ok (some ⟨own, own.id, w.real n⟩, some t) ∧ t.username = some u

/-- **C243 (part).** It holds for diffs without the changes that are not followed, unless the host is given as an address to OpenSSL or is longer than 255 characters with
Mbed TLS. -/
theorem tls_both_succeed_partial {cl sl : Lib} {v13 : Bool} {w : World} {x : ClientTls.Ext} {d : ClientTls.Disk} {o : ClientTls.Opts} {way : Way} {s : Server}
    {kc : Map KeyConf} {tc : TsConf} {oc : EndConf} {rc : Option EndConf} {own : ClientTls.Cert} {n : Nat} {u : Text} (hs : Safe s kc tc oc rc)
    (h : ForEachOther cl sl w x d o way s kc tc oc rc own n u) (hossl : cl = .openssl → ∀ t, way.wants t → t ∈ (w.real n).dns)
    (hmbed : cl = .mbedtls → ∀ t, way.wants t → t.length ≤ 255) :
    ∃ t, connect cl sl v13 w x d o way s (true, true) = .ok (some ⟨own, own.id, w.real n⟩, some t) ∧ t.username = some u := by
  obtain ⟨r1, r2, r3, r4, r5, r6⟩ := h.running
  have hpeer := peer_configured (sl := sl) hs h.real r5 r6 h.usable h.identity
  have hc : way.client cl x d o (s.peer sl w) = .ok (some ⟨own, own.id, w.real n⟩) := by
    rw [hpeer]
    obtain ⟨t, ht, hn⟩ := h.name
    have htls := h.tls
    cases way with
    | direct host =>
      have : wanted host = t := ht _ rfl
      subst this
      exact tls_server_accepted_partial h.lib r1 r2 r3 r4 h.files h.lists ⟨rfl, ⟨_, rfl, h.chain⟩, by simp [h.real], hn⟩ (fun hl => hossl hl _ rfl) (fun hl => hmbed hl _ rfl)
    | home b =>
      obtain ⟨host, rfl⟩ := htls
      refine callhome_server_accepted h.lib r1 r2 r3 r4 h.files h.lists ⟨rfl, ⟨_, rfl, h.chain⟩, by simp [h.real], hn⟩ ?_
      cases host with
      | none => exact .inl rfl
      | some v =>
        obtain rfl : v = t := ht v rfl
        exact .inr ⟨rfl, fun hl => hossl hl _ rfl, fun hl => hmbed hl _ rfl⟩
  obtain ⟨t, hv, ht⟩ : ∃ t, s.verify sl w (own.id :: w.clientMore own.id) = .session t ∧ t.username = some u := by
    have hcl := h.client
    cases sl with
    | openssl =>
      have := tls_login_possible_partial s.vals hs.texts _ s.ts tc s.own oc s.ref rc s.userOk (w.ossl (own.id :: w.clientMore own.id)) hs.trust hs.own hs.ref r6 h.usable hs.fps u
        h.user hcl
      simpa only [Server.verify, r5] using this
    | mbedtls =>
      have := tls_login_possible_mbedtls_partial s.vals hs.texts _ s.ts tc s.own oc s.ref rc s.userOk (w.mbedPre (own.id :: w.clientMore own.id))
        (w.mbedLast (own.id :: w.clientMore own.id)) hs.trust hs.own hs.ref r6 h.usable hs.fps u h.user hcl
      simpa only [Server.verify, r5] using this
  refine ⟨t, ?_, ht⟩
  simp only [connect, layer, hc, if_true, hv]

/-! ## Examples -/

/-- Certificate 11 has issued those of the clients: both libraries verify them exactly if it is trusted. The certificate of the server has number 3. -/
def ttWorld : World where
  real n := if n = 3 then ctSrv else { ctOwn with id := n }
  seen n := exCert (n % 256) "/CN=c" []
  more _ := []
  clientMore _ := []
  ossl l S := ⟨[exCert (l.headD 0 % 256) "/CN=c" []], exCert (l.headD 0 % 256) "/CN=c" [],
    [⟨S.any (fun c => c.id == 11), 0, .unableToVerifyLeaf, exCert (l.headD 0 % 256) "/CN=c" [], true⟩]⟩
  mbedPre _ _ := []
  mbedLast l S := ⟨0, if S.any (fun c => c.id == 11) then noFlags else ⟨true, false, false⟩, exCert (l.headD 0 % 256) "/CN=c" [], true⟩

/-- Issued by a trusted certificate 11. -/
def ttChains (T : TlsAuth.Cert → Prop) (_ : List TlsAuth.Cert) : Prop := ∃ c, T c ∧ c.id = 11

theorem ttWorld_ok : WorldOk ttWorld ttChains where
  real n := by
    simp only [ttWorld]
    split
    · rename_i h; rw [h]; rfl
    · rfl
  ossl l := by
    refine ⟨?_, ?_, ?_, ?_⟩
    · intro S
      refine ⟨?_, _, List.mem_singleton.mpr rfl, rfl, by simp⟩
      intro ev hev _
      simp only [ttWorld, List.mem_singleton] at hev
      rw [hev]; rfl
    · intro S a e b h _ hp f hf hpf
      have h1 : e ∈ (ttWorld.ossl l S).evs := by rw [h]; simp
      have h2 : f ∈ (ttWorld.ossl l S).evs := by rw [h]; simp [hf]
      simp only [ttWorld, List.mem_singleton] at h1 h2
      rw [h1, ← h2, hpf] at hp
      cases hp
    · intro S h
      have := h _ (List.mem_singleton.mpr rfl)
      simpa [ttWorld, ttChains] using this
    · intro S c hc
      simp only [ttWorld, List.mem_singleton] at hc
      rw [hc]
      exact exCert_readable _ (Nat.mod_lt _ (by decide)) _ _ (by simp)
  osslPeer a l S := ⟨rfl, List.mem_singleton.mpr rfl⟩
  mbed l := by
    refine ⟨?_, ?_, ?_⟩
    · intro S
      refine ⟨by simp [ttWorld], rfl, ?_⟩
      intro ev hev
      simp only [ttWorld, List.nil_append, List.mem_singleton] at hev
      rw [hev]
      simp only
      split <;> rfl
    · intro S h
      have := h _ (List.mem_append_right _ (List.mem_singleton.mpr rfl))
      simp only [ttWorld, ttChains] at this ⊢
      split at this
      · rename_i h1
        simpa using h1
      · cases this
    · intro S ev hev
      simp only [ttWorld, List.nil_append, List.mem_singleton] at hev
      rw [hev]
      exact exCert_readable _ (Nat.mod_lt _ (by decide)) _ _ (by simp)
  mbedPeer a l S := rfl

/-- A server with certificate and key 3, trusting certificate 11, whose clients are user 60. -/
def ttServer : Server where
  vals := tlsVals
  idVals := { idVals with pkey := fun _ p => some p, spki := allSpki }
  ks := ⟨[]⟩
  ts := ⟨[], []⟩
  own := ⟨⟨⟨.local, .num 0, some 4, 0, some 3, some 3⟩, ⟨.local, .certs [⟨1, some 11⟩], 1⟩, ConfTls.newGrp, 0⟩, [⟨1, none, 0, some 60⟩]⟩
  ref := none
  up := true
  userOk := fun _ => true

def ttData : ConfTls.TlsData := ⟨.inline none (some 4) 0 3 (some 3), some ⟨some (.inline [(1, 11)]), none⟩, []⟩

/-- The configuration, with and without the certificate of the server. -/
def ttConf (cert : Option Nat) : EndConf :=
  ⟨⟨.inline none (some 4) 0 3 cert, some ⟨some (.inline (ConfStore.upd (fun _ => none) 1 (some 11))), none⟩, fun _ => false⟩,
    ConfStore.upd (fun _ => none) 1 (some ⟨0, some 60, none⟩)⟩

theorem ttConf_ctn {cert : Option Nat} {i : Nat} {e : ConfTls.CtnConf} (h : (ttConf cert).ctn i = some e) : i = 1 ∧ e = ⟨0, some 60, none⟩ := by
  simp only [ttConf, ConfStore.upd] at h
  split at h
  · rename_i h1; cases h; exact ⟨h1, rfl⟩
  · cases h

theorem ttConf_fps (cert : Option Nat) : TlsLogin.FpsUsable tlsVals (ttConf cert :: (none : Option EndConf).toList) := by
  intro c hc i e hi
  simp only [Option.toList_none, List.mem_singleton] at hc
  subst hc
  obtain ⟨-, rfl⟩ := ttConf_ctn hi
  intro t ht
  simp [TlsLogin.entryConf] at ht

theorem ttServer_trust : Login.TsSetUp ttServer.ts TsConf.empty := ⟨⟨[], []⟩, ⟨[], []⟩, ⟨[], []⟩, [], TsConf.empty, rfl, rfl, by decide, rfl⟩

theorem ttServer_safe (ok : Text → Bool) : Safe { ttServer with userOk := ok } (fun _ => none) TsConf.empty (ttConf (some 3)) none where
  keys := ⟨⟨[]⟩, ⟨[]⟩, [], [], fun _ => none, rfl, rfl, by simp, rfl, rfl⟩
  trust := ttServer_trust
  own := by
    have hrun : ConfTls.run allSpki ttData.tree ([].map ConfTls.tlsTree) = .ok ttServer.own.tls := by decide +kernel
    have hctn : ConfTls.ctnNodes ([.create 1 ⟨0, some 60, none⟩].map ConfTls.ctnEdit) [] = some ttServer.own.ctn := by decide +kernel
    exact ⟨⟨ttData, [], _, rfl, rfl, hrun⟩, [.create 1 ⟨0, some 60, none⟩], by simp [ConfTls.onlyFingerprints], rfl, hctn⟩
  ref := trivial
  texts := tlsVals_differ
  fps := ttConf_fps _

theorem ttConf_cert {cert : Option Nat} {d : Nat} (h : TlsLogin.CertIn TsConf.empty ((ttConf cert).tls.auth.bind ConfTls.AuthConf.ca) d) : d = 11 := by
  obtain ⟨k, hk⟩ : ∃ k, (ConfStore.upd (fun _ => none) 1 (some 11) : Map Nat) k = some d := h
  simp only [ConfStore.upd] at hk
  split at hk
  · cases hk; rfl
  · cases hk

theorem ttConf_usable (cert : Option Nat) : TlsClientUsable tlsVals TsConf.empty (ttConf cert :: (none : Option EndConf).toList) where
  bags := by simp [ttConf, TlsLogin.BagThere]
  cas := by
    intro c hc d hd
    simp only [Option.toList_none, List.mem_singleton] at hc
    subst hc
    rw [ttConf_cert hd]
    exact ⟨_, rfl⟩
  ees := by
    intro c hc d hd
    simp only [Option.toList_none, List.mem_singleton] at hc
    subst hc
    exact hd.elim
  some := ⟨_, List.mem_cons_self, 11, .inl ⟨1, rfl⟩⟩

theorem ttConf_ca {cert : Option Nat} (x : TlsAuth.Cert) : CaConfigured tlsVals TsConf.empty [ttConf cert] x ↔ x = exCert 11 "/CN=c" [] := by
  constructor
  · rintro ⟨c, hc, d, hd, hx⟩
    rw [List.mem_singleton] at hc
    subst hc
    rw [ttConf_cert hd] at hx
    cases hx
    rfl
  · rintro rfl
    exact ⟨_, List.mem_singleton.mpr rfl, 11, ⟨1, rfl⟩, rfl⟩

theorem ttConf_name {cert : Option Nat} (y : TlsAuth.Cert) : NameByConf tlsVals [ttConf cert] [y] (tlsVals.text 60) := by
  refine ⟨[], _, [], 1, ⟨0, some 60, none⟩, rfl, rfl, by simp, ?_, [], y, [], rfl, by simp, .inl rfl, rfl⟩
  intro j f hj hf
  obtain ⟨rfl, -⟩ := ttConf_ctn hf
  omega

/-- The client asks for the host of the example, or expects it at a Call Home bind. -/
def ttWay (home : Bool) : Way := if home then .home (.tls (some "a.example".toList)) else .direct (some "a.example".toList)

theorem ttWay_wants (home : Bool) (t : Text) : (ttWay home).wants t ↔ t = "a.example".toList := by cases home <;> exact Iff.rfl

theorem tt_forEachOther (cl sl : Lib) (home : Bool) : ForEachOther cl sl ttWorld (ctLib ctNoGet) (ctDisk ctOwn [ctCa]) ctOpts (ttWay home) ttServer (fun _ => none) TsConf.empty
    (ttConf (some 3)) none ctOwn 3 (tlsVals.text 60) where
  real := ttWorld_ok.real
  lib := ctLib_ok _
  running := ⟨rfl, rfl, rfl, rfl, rfl, by simp [ttServer]⟩
  files := (ct_files _ _ _).1
  lists := ct_nolists (fun u hu => by
    have := (ct_point cl ctOwn [ctCa] u).1.1 hu
    simp [ctOwn, ctCa] at this)
  chain := by
    obtain ⟨rest, h1, h2⟩ := (ct_proper cl ctOwn ctCa ctSrv _ ctOpts (.inl rfl) rfl rfl rfl rfl (.inl (by simp [ctSrv] : "a.example".toList ∈ ctSrv.dns))).shown
    have : rest = [] := by simpa [ctPeer] using h1.symm
    subst this
    exact h2
  identity := ⟨0, 3, 3, _, .inline none (some 4) 0 3 3, rfl, rfl, rfl⟩
  tls := by
    cases home
    · trivial
    · exact ⟨_, rfl⟩
  name := ⟨_, fun t ht => (ttWay_wants home t).mp ht, .inl (by simp [ttWorld, ctSrv])⟩
  usable := ttConf_usable _
  user := rfl
  client := by
    intro S hS
    have h11 : S.any (fun c => c.id == 11) = true := List.any_eq_true.mpr ⟨_, (hS _).mpr ((ttConf_ca _).mpr rfl), rfl⟩
    cases sl with
    | openssl =>
      refine ⟨(ttWorld_ok.ossl _).reports S, (ttWorld_ok.ossl _).readable S, ttConf_name _, ?_⟩
      intro ev hev
      simp only [ttWorld, List.mem_singleton] at hev
      rw [hev]
      exact ⟨rfl, .inl h11⟩
    | mbedtls =>
      refine ⟨(ttWorld_ok.mbed _).reports S, ?_, ttConf_name _, by simp [ttWorld], .inl (if_pos h11)⟩
      intro ev hev
      refine ⟨(ttWorld_ok.mbed _).readable S ev hev, ?_⟩
      simp only [ttWorld, List.nil_append, List.mem_singleton] at hev
      rw [hev]

/-- **C243, an example.** The client gets in as user 60, with all versions and libraries, also if it is called by the server. -/
theorem tt_session (cl sl : Lib) (v13 home : Bool) : ∃ t, connect cl sl v13 ttWorld (ctLib ctNoGet) (ctDisk ctOwn [ctCa]) ctOpts (ttWay home) ttServer (true, true) =
    .ok (some ⟨ctOwn, 2, ctSrv⟩, some t) ∧ t.username = some (List.replicate 60 'u') :=
  tls_both_succeed_partial (ttServer_safe _) (tt_forEachOther cl sl home) (fun _ t ht => by rw [(ttWay_wants home t).mp ht]; simp [ttWorld, ctSrv])
    (fun _ t ht => by rw [(ttWay_wants home t).mp ht]; simp)

/-- **C242, an example.** If the hello of the server is lost, only the server has a session; its user is still the one configured, and certificate 11 is configured. -/
example (cl sl : Lib) (v13 home : Bool) (t : TlsAuth.Sess)
    (h : connect cl sl v13 ttWorld (ctLib ctNoGet) (ctDisk ctOwn [ctCa]) ctOpts (ttWay home) ttServer (false, true) = .ok (none, some t)) :
    t.username = some (List.replicate 60 'u') ∧ t.clientCert = some (exCert 2 "/CN=c" []) := by
  obtain ⟨c, t', -, h2, hm⟩ := tls_mutual_partial (ttServer_safe _) ttWorld_ok (ctLib_ok _) (by
    intro _ l S ev hev h0
    simp only [ttWorld, List.mem_singleton] at hev
    rw [hev] at h0
    exact absurd h0 (Nat.lt_irrefl 0)) (by cases home <;> simp [ttWay]) h (.inr rfl)
  obtain rfl := h2 t rfl
  obtain ⟨⟨f, items, g1, g2, g3⟩, -⟩ := hm.client
  obtain ⟨chain, -, u, k1, -, k2, k3, -⟩ := hm.user
  have hc : c.cert = ctOwn := by
    simp only [ctOpts, Option.some.injEq] at g1
    subst g1
    have : items = [.cert ctOwn] := by injection g2 with g2; exact g2.symm
    subst this
    have := ClientTls.firstCert_of g3
    injection this with this
    exact this.symm
  rw [hc] at k3
  refine ⟨?_, k3⟩
  obtain ⟨pre, e, post, i, f, q1, q2, -, -, cpre, x, cpost, -, -, -, q3⟩ := k2
  have he : e = ttConf (some 3) := by
    have : e ∈ pre ++ e :: post := by simp
    rw [← q1] at this
    simpa using this
  subst he
  obtain ⟨-, rfl⟩ := ttConf_ctn q2
  have q3 : some (tlsVals.text 60) = some u := q3
  rw [k1, ← q3]
  rfl

/-- Whatever a client connects with. -/
example (cl sl : Lib) (v13 : Bool) (x : ClientTls.Ext) (d : ClientTls.Disk) (o : ClientTls.Opts) (way : Way) (a : Option ClientTls.Sess) (b : Out)
    (h : layer cl sl v13 ttWorld x d o way ttServer = .ok (a, b)) : b ≠ .ub := tls_server_memory_partial (ttServer_safe _) h

/-! ## What fails -/

/-- **C242, false in general.** The certificate of the server is removed by a diff; a client and the server still make sessions with it (C225). -/
theorem tls_mutual_false (cl sl : Lib) : ¬ TlsMutual cl sl := by
  intro h
  obtain ⟨t, ht, -⟩ := tt_session cl sl true false
  have hrun : ConfTls.run allSpki ttData.tree ([idDiff (.leaves .keep .keep none none (.delete 3))].map ConfTls.tlsTree) = .ok ttServer.own.tls := by decide +kernel
  have hctn : ConfTls.ctnNodes ([.create 1 ⟨0, some 60, none⟩].map ConfTls.ctnEdit) [] = some ttServer.own.ctn := by decide +kernel
  obtain ⟨c, t', -, -, hm⟩ := h true ttWorld _ _ _ _ ttServer (true, true) (fun _ => none) TsConf.empty (ttConf none) none ttChains _ _
    ⟨⟨⟨[]⟩, ⟨[]⟩, [], [], fun _ => none, rfl, rfl, rfl, rfl⟩, ttServer_trust,
      ⟨⟨ttData, [idDiff (.leaves .keep .keep none none (.delete 3))], _, rfl, rfl, hrun⟩, [.create 1 ⟨0, some 60, none⟩], rfl, hctn⟩, trivial, tlsVals_differ, ttConf_fps _⟩
    ttWorld_ok (ctLib_ok _) ht (.inl rfl)
  obtain ⟨n, ⟨f, p, d, y, hid, -⟩, -⟩ := hm.server
  cases hid

/-- **C242, false in general.** With TLS 1.3 the client is done with the handshake though the server then refuses it. -/
theorem tls_layer_agree_false (cl sl : Lib) : ¬ TlsLayerAgree cl sl true := by
  intro h
  let s : Server := { ttServer with userOk := fun _ => false }
  have hf := tt_forEachOther cl sl false
  have hc : (ttWay false).client cl (ctLib ctNoGet) (ctDisk ctOwn [ctCa]) ctOpts (s.peer sl ttWorld) = .ok (some ⟨ctOwn, 2, ctSrv⟩) := by
    rw [peer_configured (sl := sl) (ttServer_safe fun _ => false) hf.real rfl hf.running.2.2.2.2.2 hf.usable hf.identity]
    exact tls_server_accepted_partial (host := some "a.example".toList) (leaf := ctSrv) hf.lib rfl rfl rfl rfl hf.files hf.lists ⟨rfl, ⟨_, rfl, hf.chain⟩, rfl, .inl (by simp [ctSrv, wanted])⟩
      (fun _ => by simp [ctSrv, wanted]) (fun _ => by simp [wanted])
  obtain ⟨b, hl⟩ : ∃ b, layer cl sl true ttWorld (ctLib ctNoGet) (ctDisk ctOwn [ctCa]) ctOpts (ttWay false) s = .ok (some ⟨ctOwn, 2, ctSrv⟩, b) := by
    simp only [layer, hc]
    split <;> exact ⟨_, rfl⟩
  obtain ⟨t, rfl⟩ := (h _ _ _ _ _ _ _ b hl).mp rfl
  rcases layer_cases hl with ⟨h1, -⟩ | ⟨c, -, ⟨t', -, -, -, hv⟩ | ⟨-, h1 | h1⟩⟩
  · cases h1
  · obtain ⟨chain, -, u, -, hu, -⟩ := verify_loggedIn (ttServer_safe fun _ => false) ttWorld_ok (by
      intro _ l S ev hev h0
      simp only [ttWorld, List.mem_singleton] at hev
      rw [hev] at h0
      exact absurd h0 (Nat.lt_irrefl 0)) hv
    cases hu
  · cases h1
  · cases h1

/-- **C243, false in general.** Trusted certificates are given instead of a bag of the truststore by a diff; the server uses memory that is no name before it shows its
certificate (C133). -/
theorem tls_both_succeed_false (cl sl : Lib) : ¬ TlsBothSucceed cl sl := by
  intro h
  let s : Server := { ttServer with
    own := ⟨⟨⟨.local, .num 0, some 4, 0, some 3, some 3⟩, ⟨.truststore, .null, 1⟩, ConfTls.newGrp, 0⟩, [⟨1, none, 0, some 60⟩]⟩ }
  have hrun : ConfTls.run allSpki (ConfTls.TlsData.mk (.inline none (some 4) 0 3 (some 3)) (some ⟨some (.bag 7), none⟩) []).tree
      ([caDiff (.toInline 7 [(1, 11)])].map ConfTls.tlsTree) = .ok s.own.tls := by decide +kernel
  have hctn : ConfTls.ctnNodes ([.create 1 ⟨0, some 60, none⟩].map ConfTls.ctnEdit) [] = some ttServer.own.ctn := by decide +kernel
  have hf := tt_forEachOther cl sl false
  obtain ⟨t, ht, -⟩ := h true ttWorld _ _ _ _ s (fun _ => none) TsConf.empty (ttConf (some 3)) none ctOwn 3 (tlsVals.text 60)
    ⟨⟨⟨[]⟩, ⟨[]⟩, [], [], fun _ => none, rfl, rfl, rfl, rfl⟩, ttServer_trust, ⟨⟨_, [caDiff (.toInline 7 [(1, 11)])], _, rfl, rfl, hrun⟩, [.create 1 ⟨0, some 60, none⟩], rfl, hctn⟩,
      trivial, tlsVals_differ, ttConf_fps _⟩
    ⟨hf.real, hf.lib, hf.running, hf.files, hf.lists, hf.chain, hf.identity, hf.tls, hf.name, hf.usable, hf.user, hf.client⟩
  obtain ⟨c, t', hl, -⟩ := connect_cases ht (.inl rfl)
  have hp : (s.peer sl ttWorld).shown = [] := by
    have hload : ServerId.loadServer s.idVals s.ks s.own.tls.id = .shown (exCert 3 "/CN=s" []) 3 := rfl
    have : s.ready sl ttWorld = none := by
      rw [Server.ready, hload]
      rfl
    simp [Server.peer, this]
  rcases layer_cases hl with ⟨h1, -⟩ | ⟨c', hc, -⟩
  · cases h1
  · have := (way_wanted (ctLib_ok _) (by simp [ttWay]) hc).1.1
    rw [hp] at this
    cases this

end Verif.Props
