import Verif.Lemmas.ClientTls

/-!
# Properties C233 to C236: servers of a TLS client
-/

namespace Verif.Props
open Verif.ClientTls
open Verif.TransCfg (Lib)

/-! ## Examples: a library, files and servers -/

open Classical in
/-- A library that finds a chain whenever there is one. -/
noncomputable def ctLib (get : Nat → Crl.Download) : Ext where
  path t leaf o := if h : ∃ p, Chain (· ∈ t) leaf (· ∈ o) p then some h.choose else none
  der b := if b = [] then none else some ⟨b.head!, b.tail, true⟩
  pem _ := none
  eaten _ := 0
  get := get
  newStore := true
  curlInit := true
  urisOk := true
  up := true

theorem ctLib_ok (get : Nat → Crl.Download) : LibOk (ctLib get) where
  sound t leaf o p h := by
    simp only [ctLib] at h
    split at h
    · rename_i hx
      injection h with h
      subst h
      exact hx.choose_spec
    · cases h
  complete t leaf o p h := by
    simp only [ctLib]
    rw [dif_pos ⟨p, h⟩]
    rfl

/-- Authority, certificate of the client, certificates of servers: for a name, for an address, by an intermediate authority. -/
def ctCa : Cert := ⟨1, 1, true, [], [], []⟩
def ctOwn : Cert := ⟨2, 1, true, [], [], []⟩
def ctSrv : Cert := ⟨3, 1, true, ["a.example".toList], [], []⟩
def ctAddr : Cert := ⟨4, 1, true, [], ["10.0.0.1".toList], []⟩
def ctMid : Cert := ⟨5, 1, true, [], [], []⟩
def ctSub : Cert := ⟨6, 5, true, ["a.example".toList], [], []⟩

/-- File 0 has the certificate of the client, file 1 its key, file 2 the given trusted certificates, directory 9 the file 2. -/
def ctDisk (own : Cert) (cas : List Cert) : Disk where
  file n := if n = 0 then some [.cert own] else if n = 1 then some [.key own.id] else if n = 2 then some (cas.map .cert) else none
  dir n := if n = 9 then some [(true, 2)] else none

def ctOpts : Opts := ⟨some 0, some 1, some 2, none⟩
def ctOptsDir : Opts := ⟨some 0, some 1, none, some 9⟩

def ctPeer (l : List Cert) : Peer := ⟨l, fun k => l.head?.any (fun c => c.id == k), true⟩

/-! ## C233: the server is the one that is wanted -/

/-- The chain of a session. -/
theorem ct_chain {lib : Lib} {x : Ext} {d : Disk} {o : Opts} {peer : Peer} {leaf : Cert} {rest p : List Cert} {st : Store} (hx : LibOk x)
    (hst : loadTrusted lib d o.caFile o.caDir = some st) (hs : peer.shown = leaf :: rest) (hp : x.path (anchors lib st) leaf (rest ++ st.mem ++ st.later) = some p) :
    Chain (Configured lib d o) leaf (fun c => c ∈ peer.shown ∨ Configured lib d o c) p := by
  refine (hx.sound _ _ _ _ hp).mono (fun c hc => (store_configured hst c).1 (anchors_mem hc)) ?_
  intro c hc
  rw [List.mem_append, List.mem_append] at hc
  rcases hc with (hc | hc) | hc
  · exact .inl (by rw [hs]; exact List.mem_cons_of_mem _ hc)
  · exact .inr ((store_configured hst c).1 (.inl hc))
  · exact .inr ((store_configured hst c).1 (.inr hc))

/-- What holds for every session. -/
theorem ct_authentic {lib : Lib} {x : Ext} {d : Disk} {o : Opts} {host : Option Text} {peer : Peer} {s : Sess} (hx : LibOk x)
    (h : sessionNew lib x d o host peer = .ok (some s)) : Authentic lib d o peer s.server ∧ nameOk lib host s.server = true := by
  obtain ⟨st, lists, rest, p, _, hst, _, _, hs, ho, hp, _, hn⟩ := sessionNew_cases h
  exact ⟨⟨by rw [hs]; rfl, ho, p, ct_chain hx hst hs hp⟩, hn⟩

/-- C233: a session made by `nc_connect_tls` is with a server that owns the key of the certificate it has shown, which is for the host asked for and was issued,
over certificates in their period, by an authority configured by the application. -/
theorem tls_server_wanted {lib : Lib} {x : Ext} {d : Disk} {o : Opts} {host : Option Text} {peer : Peer} {s : Sess} (hx : LibOk x)
    (h : connectTls lib x d o host peer = .ok (some s)) :
    Authentic lib d o peer s.server ∧ (wanted host ∈ s.server.dns ∨ wanted host ∈ s.server.ips) := by
  obtain ⟨h1, h2⟩ := ct_authentic hx (connectTls_session h)
  refine ⟨h1, ?_⟩
  have hw : wanted host ≠ [] := by
    match host with
    | none => decide
    | some [] => decide
    | some (a :: l) => simp [wanted]
  cases lib with
  | openssl =>
    simp only [nameOk, Bool.or_eq_true, List.contains_iff_mem] at h2
    rcases h2 with h2 | h2
    · exact absurd (by simpa using h2) hw
    · exact .inl h2
  | mbedtls => simpa only [nameOk, Bool.or_eq_true, List.contains_iff_mem] using h2

/-- C233, full statement for Call Home: with a name given for the bind the server is the one of that name. It is false, see `callhome_server_wanted_false`. -/
def CallHomeServer : Prop := ∀ (lib : Lib) (x : Ext) (d : Disk) (o : Opts) (host : Text) (peer : Peer) (s : Sess), LibOk x →
  acceptCallHome lib x d o (.tls (some host)) peer = .ok (some s) → Authentic lib d o peer s.server ∧ (host ∈ s.server.dns ∨ host ∈ s.server.ips)

/-- C233 (part): it holds for names that are not empty, and with Mbed TLS for all; without a name (src/session_client_ch.h:275) the server comes at least from a configured
authority. Missing: an empty name with OpenSSL. -/
theorem callhome_server_wanted_partial {lib : Lib} {x : Ext} {d : Disk} {o : Opts} {host : Option Text} {peer : Peer} {s : Sess} (hx : LibOk x)
    (h : acceptCallHome lib x d o (.tls host) peer = .ok (some s)) :
    Authentic lib d o peer s.server ∧ ∀ w, host = some w → (w ≠ [] ∨ lib = .mbedtls) → w ∈ s.server.dns ∨ w ∈ s.server.ips := by
  obtain ⟨h1, h2⟩ := ct_authentic hx (h : sessionNew lib x d o host peer = .ok (some s))
  refine ⟨h1, ?_⟩
  intro w hw hc
  subst hw
  cases lib with
  | openssl =>
    simp only [nameOk, Bool.or_eq_true, List.contains_iff_mem] at h2
    rcases h2 with h2 | h2
    · rcases hc with hc | hc
      · exact absurd (by simpa using h2) hc
      · cases hc
    · exact .inl h2
  | mbedtls => simpa only [nameOk, Bool.or_eq_true, List.contains_iff_mem] using h2

/-- Nothing but TLS binds gives TLS sessions. -/
theorem callhome_tls_only {lib : Lib} {x : Ext} {d : Disk} {o : Opts} {b : Bind} {peer : Peer} {s : Sess} (h : acceptCallHome lib x d o b peer = .ok (some s)) :
    ∃ host, b = .tls host := by
  cases b with
  | ssh => cases h
  | tls host => exact ⟨host, rfl⟩
  | other => cases h

/-! ## C234: proper servers are accepted -/

/-- C234, the case of a server in order, whose chain ends at a configured certificate, without revocation lists. -/
structure ProperCase (lib : Lib) (x : Ext) (d : Disk) (o : Opts) (own : Cert) (host : Option Text) (peer : Peer) (leaf : Cert) : Prop where
  path : LibOk x
  newStore : x.newStore = true
  curlInit : x.curlInit = true
  urisOk : x.urisOk = true
  up : x.up = true
  files : FilesOk d o own
  none : ∀ u, ¬ Point lib d o own u
  server : Proper lib d o (Configured lib d o) (wanted host) peer leaf

/-- C234, full statement: the client gets a session with each such server. It is false, see `tls_server_accepted_false`. -/
def TlsServerAccepted : Prop := ∀ (lib : Lib) (x : Ext) (d : Disk) (o : Opts) (own : Cert) (host : Option Text) (peer : Peer) (leaf : Cert),
  ProperCase lib x d o own host peer leaf → connectTls lib x d o host peer = .ok (some ⟨own, own.id, leaf⟩)

/-- Sessions with servers in order. -/
theorem ct_accepted {lib : Lib} {x : Ext} {d : Disk} {o : Opts} {own : Cert} {host : Option Text} {w : Text} {peer : Peer} {leaf : Cert} (hx : LibOk x)
    (h1 : x.newStore = true) (h2 : x.curlInit = true) (h3 : x.urisOk = true) (h4 : x.up = true) (hf : FilesOk d o own) (hl : ListsGood lib x d o own peer)
    (hp : Proper lib d o (Root lib d o) w peer leaf) (hname : nameOk lib host leaf = true) (hset : setHostname lib host = true) :
    sessionNew lib x d o host peer = .ok (some ⟨own, own.id, leaf⟩) := by
  obtain ⟨st, hst⟩ := loadTrusted_of lib hf
  have hck := loadCertKey_of (lib := lib) hf
  obtain ⟨lists, hfetch, hnone⟩ := fetchLists_good h1 h2 h3 hst hl.got
  obtain ⟨rest, hshown, p0, hc0⟩ := hp.shown
  have hcomp := hx.complete (anchors lib st) leaf (rest ++ st.mem ++ st.later) p0 (hc0.mono (by
      intro c hc
      have := (store_configured hst c).2 hc.1
      cases lib with
      | openssl => exact List.mem_filter.2 ⟨List.mem_append.2 this, by simp [hc.2 rfl]⟩
      | mbedtls => exact List.mem_append.2 this) (by
      intro c hc
      rw [List.mem_append, List.mem_append]
      rcases hc with hc | hc
      · exact .inl (.inl hc)
      · rcases (store_configured hst c).2 hc with h | h
        · exact .inl (.inr h)
        · exact .inr h))
  obtain ⟨p, hpath⟩ := Option.isSome_iff_exists.1 hcomp
  have hchain := hx.sound _ _ _ _ hpath
  have hknown : ∀ c ∈ p, c ∈ peer.shown ∨ Configured lib d o c := by
    intro c hc
    rcases hchain.known c hc with rfl | h
    · exact .inl (by rw [hshown]; simp)
    · rw [List.mem_append, List.mem_append] at h
      rcases h with (h | h) | h
      · exact .inl (by rw [hshown]; exact List.mem_cons_of_mem _ h)
      · exact .inr ((store_configured hst c).1 (.inl h))
      · exact .inr ((store_configured hst c).1 (.inr h))
  have hpl : listsOk lib lists p = true := by
    cases lists with
    | none => simp [listsOk]
    | some l =>
      have : ∃ u, Point lib d o own u := by
        apply Classical.byContradiction
        intro hne
        have := hnone.2 (fun u hu => hne ⟨u, hu⟩)
        cases this
      obtain ⟨u, hu⟩ := this
      obtain ⟨l', e, hmem⟩ := got_in_store hst hfetch h1 (fun v hv hno => by
        obtain ⟨r, hr⟩ := hl.got v hv
        rw [hr.1] at hno; cases hno) hu
      injection e with e; subst e
      refine listsOk_of ?_ ?_
      · intro c hc
        obtain ⟨v, r, hv, hr, hi⟩ := hl.all ⟨u, hu⟩ c (hknown c hc)
        exact ⟨r, (hmem r).2 ⟨v, hv, hr⟩, hi⟩
      · intro c hc r hr hi
        obtain ⟨v, hv, hg⟩ := (hmem r).1 hr
        exact hl.clean v r hv hg c (hknown c hc) hi
  have hver : verifyPeer lib x st lists host leaf rest = true := by
    unfold verifyPeer
    simp only [hpath, hpl, hname, Bool.and_self]
  have hfit : keyFits lib own own.id = true := by cases lib <;> simp [keyFits]
  have hhand : connectCheck (handshake lib x st lists host peer) = 1 := by
    unfold connectCheck handshake
    simp only [hshown, hp.owns, hp.up, hver, Bool.or_true, Bool.and_true, if_true]
  unfold sessionNew
  simp only [hck, hst, hfetch, hfit, hset, h4, hhand, ne_eq, not_true, if_false, Bool.true_eq_false, if_true]
  rw [hshown]; rfl

/-- C234 (part): it holds, also with revocation lists, for servers known by host name and authorities that are self-signed with OpenSSL, and names of at most 255
characters with Mbed TLS. Missing: with OpenSSL certificates for addresses and authorities that are not self-signed, longer names with Mbed TLS. -/
theorem tls_server_accepted_partial {lib : Lib} {x : Ext} {d : Disk} {o : Opts} {own : Cert} {host : Option Text} {peer : Peer} {leaf : Cert} (hx : LibOk x)
    (h1 : x.newStore = true) (h2 : x.curlInit = true) (h3 : x.urisOk = true) (h4 : x.up = true) (hf : FilesOk d o own) (hl : ListsGood lib x d o own peer)
    (hp : Proper lib d o (Root lib d o) (wanted host) peer leaf) (hossl : lib = .openssl → wanted host ∈ leaf.dns)
    (hmbed : lib = .mbedtls → (wanted host).length ≤ 255) : connectTls lib x d o host peer = .ok (some ⟨own, own.id, leaf⟩) := by
  have hname : nameOk lib (some (wanted host)) leaf = true := by
    cases lib with
    | openssl => simp [nameOk, hossl rfl]
    | mbedtls =>
      have := hp.name
      simpa only [nameOk, Bool.or_eq_true, List.contains_iff_mem] using this
  have hset : setHostname lib (some (wanted host)) = true := by
    cases lib with
    | openssl => rfl
    | mbedtls => simpa [setHostname] using hmbed rfl
  obtain ⟨cf, _, hcf, _⟩ := hf.cert
  rw [connectTls_eq (by rw [hcf]; simp) hf.any]
  exact ct_accepted hx h1 h2 h3 h4 hf hl hp hname hset

/-- The same for Call Home: a server is accepted if it is for the name of the bind, if there is one. -/
theorem callhome_server_accepted {lib : Lib} {x : Ext} {d : Disk} {o : Opts} {own : Cert} {host : Option Text} {w : Text} {peer : Peer} {leaf : Cert} (hx : LibOk x)
    (h1 : x.newStore = true) (h2 : x.curlInit = true) (h3 : x.urisOk = true) (h4 : x.up = true) (hf : FilesOk d o own) (hl : ListsGood lib x d o own peer)
    (hp : Proper lib d o (Root lib d o) w peer leaf) (hw : host = none ∨ host = some w ∧ (lib = .openssl → w ∈ leaf.dns) ∧ (lib = .mbedtls → w.length ≤ 255)) :
    acceptCallHome lib x d o (.tls host) peer = .ok (some ⟨own, own.id, leaf⟩) := by
  rcases hw with rfl | ⟨rfl, ho, hm⟩
  · exact ct_accepted hx h1 h2 h3 h4 hf hl hp (by cases lib <;> rfl) (by cases lib <;> rfl)
  · refine ct_accepted hx h1 h2 h3 h4 hf hl hp ?_ ?_
    · cases lib with
      | openssl => simp [nameOk, ho rfl]
      | mbedtls =>
        have := hp.name
        simpa only [nameOk, Bool.or_eq_true, List.contains_iff_mem] using this
    · cases lib with
      | openssl => rfl
      | mbedtls => simpa [setHostname] using hm rfl

/-! The examples. -/

theorem ct_files (own : Cert) (a : Cert) (cas : List Cert) : FilesOk (ctDisk own (a :: cas)) ctOpts own ∧ FilesOk (ctDisk own (a :: cas)) ctOptsDir own := by
  have hc : ∃ f items, (some 0 : Option Nat) = some f ∧ (ctDisk own (a :: cas)).file f = some items ∧ FirstCert items own ∧ GoodFile items :=
    ⟨0, [.cert own], rfl, rfl, ⟨[], [], rfl, nofun⟩, by simp, own, by simp⟩
  have hk : ∃ f items, (some 1 : Option Nat) = some f ∧ (ctDisk own (a :: cas)).file f = some items ∧ FirstKey items own.id :=
    ⟨1, [.key own.id], rfl, rfl, [], [], rfl, nofun⟩
  refine ⟨⟨hc, hk, .inl (by simp [ctOpts]), ?_, by simp [ctOpts]⟩, ⟨hc, hk, .inr (by simp [ctOptsDir]), by simp [ctOptsDir], ?_⟩⟩
  · intro f hf
    simp only [ctOpts, Option.some.injEq] at hf
    subst hf
    exact ⟨(a :: cas).map .cert, rfl, by simp, a, by simp⟩
  · intro p hp
    simp only [ctOptsDir, Option.some.injEq] at hp
    subst hp
    exact ⟨_, rfl⟩

theorem ct_configured (lib : Lib) (own : Cert) (cas : List Cert) (c : Cert) :
    (Configured lib (ctDisk own cas) ctOpts c ↔ c ∈ cas) ∧ (Configured lib (ctDisk own cas) ctOptsDir c ↔ c ∈ cas) := by
  have file2 : (ctDisk own cas).file 2 = some (cas.map .cert) := rfl
  constructor
  · constructor
    · rintro ⟨f, items, hf, hc, h | ⟨p, l, b, h, _⟩⟩
      · simp only [ctOpts, Option.some.injEq] at h
        subst h
        rw [file2] at hf; injection hf with hf; subst hf
        simpa using hc
      · cases h
    · intro h
      exact ⟨2, _, file2, by simpa using h, .inl rfl⟩
  · constructor
    · rintro ⟨f, items, hf, hc, h | ⟨p, l, b, h, h2, h3, _⟩⟩
      · cases h
      · simp only [ctOptsDir, Option.some.injEq] at h
        subst h
        have : l = [(true, 2)] := by injection h2 with h2; exact h2.symm
        subst this
        simp only [List.mem_singleton, Prod.mk.injEq] at h3
        obtain ⟨rfl, rfl⟩ := h3
        rw [file2] at hf; injection hf with hf; subst hf
        simpa using hc
    · intro h
      exact ⟨2, _, file2, by simpa using h, .inr ⟨9, _, true, rfl, rfl, by simp, fun _ => rfl⟩⟩

theorem ct_point (lib : Lib) (own : Cert) (cas : List Cert) (u : Nat) :
    (Point lib (ctDisk own cas) ctOpts own u ↔ u ∈ own.uris ∨ ∃ c ∈ cas, u ∈ c.uris) ∧ (Point .openssl (ctDisk own cas) ctOptsDir own u ↔ u ∈ own.uris) := by
  have file2 : (ctDisk own cas).file 2 = some (cas.map .cert) := rfl
  constructor
  · refine or_congr Iff.rfl ⟨?_, ?_⟩
    · rintro ⟨c, f, items, hu, hf, hc, h | ⟨_, p, l, b, h, _⟩⟩
      · simp only [ctOpts, Option.some.injEq] at h
        subst h
        rw [file2] at hf; injection hf with hf; subst hf
        exact ⟨c, by simpa using hc, hu⟩
      · cases h
    · rintro ⟨c, hc, hu⟩
      exact ⟨c, 2, _, hu, file2, by simpa using hc, .inl rfl⟩
  · refine ⟨?_, .inl⟩
    rintro (h | ⟨c, f, items, hu, hf, hc, h | ⟨h, _⟩⟩)
    · exact h
    · cases h
    · cases h

theorem ct_nolists {lib : Lib} {x : Ext} {d : Disk} {o : Opts} {own : Cert} {peer : Peer} (h : ∀ u, ¬ Point lib d o own u) : ListsGood lib x d o own peer where
  got u hu := absurd hu (h u)
  all := by rintro ⟨u, hu⟩; exact absurd hu (h u)
  clean u _ hu := absurd hu (h u)

/-- Downloads of the examples: nothing at all, or for each URI the list of authority 1 that revokes certificate 3. -/
def ctNoGet (_ : Nat) : Crl.Download := ⟨false, []⟩
def ctGet (_ : Nat) : Crl.Download := ⟨true, [[1, 3]]⟩

/-- A server with a certificate of the authority. -/
theorem ct_proper (lib : Lib) (own ca leaf : Cert) (w : Text) (o : Opts) (ho : o = ctOpts ∨ o = ctOptsDir) (h : leaf.signer = ca.id) (hca : ca.signer = ca.id)
    (hv : leaf.valid = true) (hvc : ca.valid = true) (hw : w ∈ leaf.dns ∨ w ∈ leaf.ips) :
    Proper lib (ctDisk own [ca]) o (Root lib (ctDisk own [ca]) o) w (ctPeer [leaf]) leaf := by
  have hconf : Configured lib (ctDisk own [ca]) o ca := by
    rcases ho with rfl | rfl
    · exact (ct_configured lib own [ca] ca).1.2 (by simp)
    · exact (ct_configured lib own [ca] ca).2.2 (by simp)
  refine ⟨rfl, ⟨[], rfl, [leaf, ca], rfl, ⟨h, trivial⟩, ?_, ⟨ca, rfl, hconf, fun _ => hca⟩, ?_⟩, by simp [ctPeer], hw⟩
  · intro c hc
    simp only [List.mem_cons, List.not_mem_nil, or_false] at hc
    rcases hc with rfl | rfl
    · exact hv
    · exact hvc
  · intro c hc
    simp only [List.mem_cons, List.not_mem_nil, or_false] at hc
    rcases hc with rfl | rfl
    · exact .inl rfl
    · exact .inr (.inr hconf)

/-- C234, an example: a client with both libraries and a server with a certificate of the configured authority. -/
example (lib : Lib) : connectTls lib (ctLib ctNoGet) (ctDisk ctOwn [ctCa]) ctOpts (some "a.example".toList) (ctPeer [ctSrv]) = .ok (some ⟨ctOwn, 2, ctSrv⟩) :=
  tls_server_accepted_partial (ctLib_ok _) rfl rfl rfl rfl (ct_files _ _ _).1 (ct_nolists (fun u hu => by
    have := (ct_point lib ctOwn [ctCa] u).1.1 hu
    simp [ctOwn, ctCa] at this)) (ct_proper lib ctOwn ctCa ctSrv _ ctOpts (.inl rfl) rfl rfl rfl rfl (.inl (by simp [ctSrv, wanted]))) (fun _ => by simp [ctSrv, wanted])
    (fun _ => by simp [wanted])

/-- C234, an example with lists: of the authority, in order. -/
example (lib : Lib) : ∃ s, connectTls lib (ctLib (fun _ => ⟨true, [[1, 7]]⟩)) (ctDisk ctOwn [{ ctCa with uris := [0] }]) ctOpts (some "a.example".toList) (ctPeer [ctSrv]) = .ok (some s) :=
  ⟨_, tls_server_accepted_partial (ctLib_ok _) rfl rfl rfl rfl (ct_files _ _ _).1 (by
    have hg : ∀ u, Got lib (ctLib (fun _ => ⟨true, [[1, 7]]⟩)) u ⟨1, [7], true⟩ := fun u => ⟨rfl, by simp [ctLib], .inl rfl⟩
    have hu : ∀ u r, Got lib (ctLib (fun _ => ⟨true, [[1, 7]]⟩)) u r → r = ⟨1, [7], true⟩ := by
      rintro u r ⟨_, _, h | ⟨_, h, _⟩⟩
      · injection h with h; exact h.symm
      · cases h
    have hsig : ∀ c, c ∈ (ctPeer [ctSrv]).shown ∨ Configured lib (ctDisk ctOwn [{ ctCa with uris := [0] }]) ctOpts c → c.signer = 1 ∧ c.id ≠ 7 := by
      rintro c (hc | hc)
      · rw [List.mem_singleton.1 hc]; decide
      · rw [List.mem_singleton.1 ((ct_configured lib ctOwn _ c).1.1 hc)]; decide
    refine ⟨fun u _ => ⟨_, hg u⟩, ?_, ?_⟩
    · rintro ⟨u, hp⟩ c hc
      exact ⟨u, _, hp, hg u, (hsig c hc).1.symm⟩
    · intro u r _ hr c hc _
      rw [hu u r hr]
      exact ⟨rfl, by simpa using (hsig c hc).2⟩) (ct_proper lib ctOwn { ctCa with uris := [0] } ctSrv _ ctOpts (.inl rfl) rfl rfl rfl rfl (.inl (by simp [ctSrv, wanted])))
    (fun _ => by simp [ctSrv, wanted]) (fun _ => by simp [wanted])⟩

/-- C234, negation: with OpenSSL, a server whose certificate is for its address is never accepted by that address, nor one whose chain ends at a configured certificate that is
not self-signed. -/
theorem tls_server_accepted_false :
    (∃ x d o own peer leaf, ProperCase .openssl x d o own (some "10.0.0.1".toList) peer leaf ∧
      ∀ s, connectTls .openssl x d o (some "10.0.0.1".toList) peer ≠ .ok (some s)) ∧
    (∃ x d o own peer leaf, ProperCase .openssl x d o own (some "a.example".toList) peer leaf ∧ "a.example".toList ∈ leaf.dns ∧
      ∀ s, connectTls .openssl x d o (some "a.example".toList) peer ≠ .ok (some s)) ∧ ¬ TlsServerAccepted := by
  have a : ∃ x d o own peer leaf, ProperCase .openssl x d o own (some "10.0.0.1".toList) peer leaf ∧
      ∀ s, connectTls .openssl x d o (some "10.0.0.1".toList) peer ≠ .ok (some s) := by
    refine ⟨ctLib ctNoGet, ctDisk ctOwn [ctCa], ctOpts, ctOwn, ctPeer [ctAddr], ctAddr, ?_, ?_⟩
    · have := ct_proper .openssl ctOwn ctCa ctAddr "10.0.0.1".toList ctOpts (.inl rfl) rfl rfl rfl rfl (.inr (by simp [ctAddr]))
      refine ⟨ctLib_ok _, rfl, rfl, rfl, rfl, (ct_files _ _ _).1, ?_, ⟨this.up, ?_, this.owns, by simpa [wanted] using this.name⟩⟩
      · intro u hu
        have := (ct_point .openssl ctOwn [ctCa] u).1.1 hu
        simp [ctOwn, ctCa] at this
      · obtain ⟨rest, h1, p, h2⟩ := this.shown
        exact ⟨rest, h1, p, h2.mono (fun c hc => hc.1) (fun c hc => hc)⟩
    · intro s hs
      obtain ⟨⟨h1, _⟩, h2⟩ := ct_authentic (ctLib_ok _) (connectTls_session hs)
      have : s.server = ctAddr := by simpa [ctPeer] using h1.symm
      rw [this] at h2
      revert h2
      decide
  refine ⟨a, ?_, ?_⟩
  · refine ⟨ctLib ctNoGet, ctDisk ctOwn [ctMid], ctOpts, ctOwn, ctPeer [ctSub], ctSub, ?_, by simp [ctSub], ?_⟩
    · have hconf := (ct_configured .openssl ctOwn [ctMid] ctMid).1.2 (by simp)
      refine ⟨ctLib_ok _, rfl, rfl, rfl, rfl, (ct_files _ _ _).1, ?_, ⟨rfl, ⟨[], rfl, [ctSub, ctMid], rfl, ⟨rfl, trivial⟩, ?_, ⟨ctMid, rfl, hconf⟩, ?_⟩, by simp [ctPeer],
        .inl (by simp [wanted, ctSub])⟩⟩
      · intro u hu
        have := (ct_point .openssl ctOwn [ctMid] u).1.1 hu
        simp [ctOwn, ctMid] at this
      · intro c hc
        simp only [List.mem_cons, List.not_mem_nil, or_false] at hc
        rcases hc with rfl | rfl <;> rfl
      · intro c hc
        simp only [List.mem_cons, List.not_mem_nil, or_false] at hc
        rcases hc with rfl | rfl
        · exact .inl rfl
        · exact .inr (.inr hconf)
    · intro s hs
      obtain ⟨st, lists, rest, p, _, hst, _, _, _, _, hp, _⟩ := sessionNew_cases (connectTls_session hs)
      obtain ⟨c, _, hc⟩ := ((ctLib_ok ctNoGet).sound _ _ _ _ hp).last
      have hm := List.mem_filter.1 hc
      have hcm : c = ctMid := by simpa using (ct_configured .openssl ctOwn [ctMid] c).1.1 ((store_configured hst c).1 (List.mem_append.1 hm.1))
      rw [hcm] at hm
      exact absurd hm.2 (by decide)
  · intro h
    obtain ⟨x, d, o, own, peer, leaf, h1, h2⟩ := a
    exact h2 _ (h _ _ _ _ _ _ _ _ h1)

/-- C233, negation: with OpenSSL, a bind with an empty name is not checked. -/
theorem callhome_server_wanted_false : ¬ CallHomeServer := by
  intro h
  have hs : acceptCallHome .openssl (ctLib ctNoGet) (ctDisk ctOwn [ctCa]) ctOpts (.tls (some [])) (ctPeer [ctSrv]) = .ok (some ⟨ctOwn, 2, ctSrv⟩) :=
    ct_accepted (ctLib_ok _) rfl rfl rfl rfl (ct_files _ _ _).1 (ct_nolists (fun u hu => by
      have := (ct_point .openssl ctOwn [ctCa] u).1.1 hu
      simp [ctOwn, ctCa] at this)) (ct_proper .openssl ctOwn ctCa ctSrv "a.example".toList ctOpts (.inl rfl) rfl rfl rfl rfl (.inl (by simp [ctSrv]))) rfl rfl
  have := (h _ _ _ _ _ _ _ (ctLib_ok _) hs).2
  revert this
  decide

/-- C233, examples: a session exists, and a server of another name is refused. -/
example (s : Sess) (h : connectTls .openssl (ctLib ctNoGet) (ctDisk ctOwn [ctCa]) ctOpts none (ctPeer [ctSrv]) = .ok (some s)) : False := by
  obtain ⟨⟨h1, _⟩, h2⟩ := tls_server_wanted (ctLib_ok _) h
  have : s.server = ctSrv := by simpa [ctPeer] using h1.symm
  rw [this] at h2
  revert h2
  decide

/-! ## C235: revoked servers -/

/-- C235, full statement: a session is never with a server that a revocation list that can be fetched says is revoked, whether the list is named by a configured
authority or by the certificate of the server. It is false, see `tls_revoked_refused_false`. -/
def TlsRevokedRefused (own : Bool) : Prop := ∀ (lib : Lib) (x : Ext) (d : Disk) (o : Opts) (host : Option Text) (peer : Peer) (s : Sess) (u : Nat) (r : RevList),
  LibOk x → x.newStore = true → connectTls lib x d o host peer = .ok (some s) →
  (if own then u ∈ s.server.uris else ∃ c, Configured lib d o c ∧ u ∈ c.uris) → Got lib x u r → r.valid = true → r.issuer = s.server.signer →
  ¬ Configured lib d o s.server → s.server.id ∉ r.revoked

/-- C235 (part): it holds for lists named by the own certificate or by authorities in the file (Mbed TLS: also in the directory), provided that failing downloads give no
data and, with OpenSSL, that there is one list of the issuer; the same for all intermediate certificates of the chain. Missing: lists named only by the certificates
shown, by authorities in the directory with OpenSSL, and several lists of an issuer with OpenSSL. -/
theorem tls_revoked_refused_partial {lib : Lib} {x : Ext} {d : Disk} {o : Opts} {host : Option Text} {peer : Peer} {s : Sess} (hx : LibOk x) (hnew : x.newStore = true)
    (hfail : ∀ u, Point lib d o s.cert u → (x.get u).ok = false → (x.get u).chunks.flatten = [])
    (h : connectTls lib x d o host peer = .ok (some s) ∨ acceptCallHome lib x d o (.tls host) peer = .ok (some s)) :
    ∃ p, Chain (Configured lib d o) s.server (fun c => c ∈ peer.shown ∨ Configured lib d o c) p ∧
      ∀ u r, Point lib d o s.cert u → Got lib x u r →
        (lib = .openssl → ∀ v r', Point lib d o s.cert v → Got lib x v r' → r'.issuer = r.issuer → r' = r) →
        ∀ c ∈ p.dropLast, r.issuer = c.signer → r.valid = true ∧ c.id ∉ r.revoked := by
  have : ∃ w, sessionNew lib x d o w peer = .ok (some s) := by
    rcases h with h | h
    · exact ⟨_, connectTls_session h⟩
    · exact ⟨_, h⟩
  obtain ⟨w, hw⟩ := this
  obtain ⟨st, lists, rest, p, _, hst, hfetch, _, hs, ho, hp, hlo, _⟩ := sessionNew_cases hw
  refine ⟨p, ct_chain hx hst hs hp, ?_⟩
  intro u r hu hg huniq
  obtain ⟨l, rfl, hmem⟩ := got_in_store hst hfetch hnew hfail hu
  refine listsOk_spec hlo ((hmem r).2 ⟨u, hu, hg⟩) ?_
  intro hl r' hr' hi
  obtain ⟨v, hv, hg'⟩ := (hmem r').1 hr'
  exact huniq hl v r' hv hg' hi

/-- C235, negation: a list named only by the certificate of the server is not fetched; nor is, with OpenSSL, one named by an authority in the directory. -/
theorem tls_revoked_refused_false : (∀ lib, ∃ x d o host peer s u r, LibOk x ∧ x.newStore = true ∧ connectTls lib x d o host peer = .ok (some s) ∧ u ∈ s.server.uris ∧
      Got lib x u r ∧ r.valid = true ∧ r.issuer = s.server.signer ∧ s.server.id ∈ r.revoked) ∧ ¬ TlsRevokedRefused true ∧ ¬ TlsRevokedRefused false := by
  have hgot : ∀ lib u, Got lib (ctLib ctGet) u ⟨1, [3], true⟩ := fun lib u => ⟨rfl, by simp [ctLib, ctGet], .inl rfl⟩
  have a : ∀ lib, connectTls lib (ctLib ctGet) (ctDisk ctOwn [ctCa]) ctOpts (some "a.example".toList) (ctPeer [{ ctSrv with uris := [0] }]) =
      .ok (some ⟨ctOwn, 2, { ctSrv with uris := [0] }⟩) := fun lib =>
    tls_server_accepted_partial (ctLib_ok _) rfl rfl rfl rfl (ct_files _ _ _).1 (ct_nolists (fun u hu => by
      have := (ct_point lib ctOwn [ctCa] u).1.1 hu
      simp [ctOwn, ctCa] at this)) (ct_proper lib ctOwn ctCa { ctSrv with uris := [0] } _ ctOpts (.inl rfl) rfl rfl rfl rfl (.inl (by simp [ctSrv, wanted])))
      (fun _ => by simp [ctSrv, wanted]) (fun _ => by simp [wanted])
  have b : connectTls .openssl (ctLib ctGet) (ctDisk ctOwn [{ ctCa with uris := [0] }]) ctOptsDir (some "a.example".toList) (ctPeer [ctSrv]) = .ok (some ⟨ctOwn, 2, ctSrv⟩) :=
    tls_server_accepted_partial (ctLib_ok _) rfl rfl rfl rfl (ct_files _ _ _).2 (ct_nolists (fun u hu => by
      have := (ct_point .openssl ctOwn [{ ctCa with uris := [0] }] u).2.1 hu
      simp [ctOwn] at this)) (ct_proper .openssl ctOwn { ctCa with uris := [0] } ctSrv _ ctOptsDir (.inr rfl) rfl rfl rfl rfl (.inl (by simp [ctSrv, wanted])))
      (fun _ => by simp [ctSrv, wanted]) (fun _ => by simp [wanted])
  refine ⟨fun lib => ⟨_, _, _, _, _, _, 0, _, ctLib_ok _, rfl, a lib, by simp, hgot lib 0, rfl, rfl, by simp [ctSrv]⟩, ?_, ?_⟩
  · intro h
    refine h _ _ _ _ _ _ _ 0 _ (ctLib_ok _) rfl (a .openssl) (by simp) (hgot _ 0) rfl rfl ?_ (by simp [ctSrv])
    intro hc
    have := (ct_configured .openssl ctOwn [ctCa] _).1.1 hc
    revert this
    decide
  · intro h
    refine h _ _ _ _ _ _ _ 0 _ (ctLib_ok _) rfl b ?_ (hgot _ 0) rfl rfl ?_ (by simp [ctSrv])
    · exact ⟨{ ctCa with uris := [0] }, (ct_configured .openssl ctOwn [{ ctCa with uris := [0] }] _).2.2 (by simp), by simp⟩
    · intro hc
      have := (ct_configured .openssl ctOwn [{ ctCa with uris := [0] }] _).2.1 hc
      revert this
      decide

/-- C235, an example: the authority in the file names the list, the server is refused. -/
example (s : Sess) (h : connectTls .openssl (ctLib ctGet) (ctDisk ctOwn [{ ctCa with uris := [0] }]) ctOpts (some "a.example".toList) (ctPeer [ctSrv]) = .ok (some s)) : False := by
  have hw := ct_authentic (ctLib_ok _) (connectTls_session h)
  have hsrv : s.server = ctSrv := by simpa [ctPeer] using hw.1.1.symm
  obtain ⟨p, hp, hr⟩ := tls_revoked_refused_partial (ctLib_ok _) rfl (fun u _ hno => by cases hno) (.inl h)
  have hpt : Point .openssl (ctDisk ctOwn [{ ctCa with uris := [0] }]) ctOpts s.cert 0 :=
    .inr ⟨{ ctCa with uris := [0] }, 2, _, by simp, rfl, by simp, .inl rfl⟩
  have := hr 0 ⟨1, [3], true⟩ hpt ⟨rfl, by simp [ctLib, ctGet], .inl rfl⟩ (by
    rintro _ v r' _ ⟨_, _, h | ⟨_, h, _⟩⟩ _
    · injection h with h; exact h.symm
    · cases h)
  -- the chain has more than the certificate of the server, which is not an authority
  have hmem : ctSrv ∈ p.dropLast := by
    have hf := hp.first
    obtain ⟨c, hl, hc⟩ := hp.last
    have hc' := List.mem_singleton.1 ((ct_configured .openssl ctOwn [{ ctCa with uris := [0] }] c).1.1 hc)
    rw [hsrv] at hf
    match p, hf, hl with
    | [y], hf, hl =>
      simp only [List.head?_cons, Option.some.injEq, List.getLast?_singleton] at hf hl
      rw [← hl, hf] at hc'
      exact absurd hc' (by decide)
    | y :: z :: q, hf, _ =>
      simp only [List.head?_cons, Option.some.injEq] at hf
      rw [hf]
      simp
  have := (this ctSrv hmem rfl).2
  revert this
  decide

/-! ## C236: the identity of the client -/

/-- C236, full statement: the client shows the first certificate of the certificate file and uses the first key of the key file, or of the certificate file if no key file is set
(src/session_client.h:418). It is false, see `tls_client_identity_false`. -/
def TlsClientIdentity : Prop := ∀ (lib : Lib) (x : Ext) (d : Disk) (o : Opts) (host : Option Text) (peer : Peer), LibOk x → o.keyPath = none →
  (∃ f items c, o.certPath = some f ∧ d.file f = some items ∧ FirstCert items c ∧ FirstKey items c.id ∧ GoodFile items) →
  (∃ kp s, connectTls lib x d { o with keyPath := some kp } host peer = .ok (some s)) → ∃ s, connectTls lib x d o host peer = .ok (some s)

/-- C236 (part): a session has the first certificate of the certificate file and the first key of the key file, with OpenSSL that of the certificate. Missing: the
documented use of the certificate file for the key. -/
theorem tls_client_identity_partial {lib : Lib} {x : Ext} {d : Disk} {o : Opts} {host : Option Text} {peer : Peer} {s : Sess}
    (h : connectTls lib x d o host peer = .ok (some s) ∨ acceptCallHome lib x d o (.tls host) peer = .ok (some s)) :
    (∃ f items, o.certPath = some f ∧ d.file f = some items ∧ FirstCert items s.cert) ∧
    (∃ g items, o.keyPath = some g ∧ d.file g = some items ∧ FirstKey items s.key) ∧ (lib = .openssl → s.key = s.cert.id) := by
  have : ∃ w, sessionNew lib x d o w peer = .ok (some s) := by
    rcases h with h | h
    · exact ⟨_, connectTls_session h⟩
    · exact ⟨_, h⟩
  obtain ⟨w, hw⟩ := this
  obtain ⟨st, lists, rest, p, hck, _, _, hfit, _⟩ := sessionNew_cases hw
  obtain ⟨f, items, g, kitems, h1, h2, h3, h4, h5, h6⟩ := loadCertKey_spec hck
  refine ⟨⟨f, items, h1, h2, h3⟩, ⟨g, kitems, h4, h5, h6⟩, ?_⟩
  intro hl
  subst hl
  have : (s.cert.id == s.key) = true := hfit
  exact (by simpa using this : s.cert.id = s.key).symm

/-- C236, an example: the identity of the session. -/
example (lib : Lib) (s : Sess) (h : connectTls lib (ctLib ctNoGet) (ctDisk ctOwn [ctCa]) ctOpts (some "a.example".toList) (ctPeer [ctSrv]) = .ok (some s)) : s.cert = ctOwn := by
  obtain ⟨⟨f, items, h1, h2, h3⟩, _⟩ := tls_client_identity_partial (.inl h)
  simp only [ctOpts, Option.some.injEq] at h1
  subst h1
  have : items = [.cert ctOwn] := by injection h2 with h2; exact h2.symm
  subst this
  have := firstCert_of h3
  injection this with this
  exact this.symm

/-- C236, negation: without a key file there is never a session, though it is documented. -/
theorem tls_client_identity_false :
    (∀ (lib : Lib) (x : Ext) (d : Disk) (o : Opts) (host : Option Text) (peer : Peer) (s : Sess), o.keyPath = none → connectTls lib x d o host peer ≠ .ok (some s)) ∧
    ¬ TlsClientIdentity := by
  have a : ∀ (lib : Lib) (x : Ext) (d : Disk) (o : Opts) (host : Option Text) (peer : Peer) (s : Sess), o.keyPath = none → connectTls lib x d o host peer ≠ .ok (some s) := by
    intro lib x d o host peer s hk h
    obtain ⟨_, ⟨g, _, h1, _⟩, _⟩ := tls_client_identity_partial (.inl h)
    rw [hk] at h1; cases h1
  refine ⟨a, ?_⟩
  intro h
  let d : Disk := ⟨fun n => if n = 0 then some [.cert ctOwn, .key 2] else if n = 2 then some [.cert ctCa] else none, fun _ => none⟩
  let o : Opts := ⟨some 0, none, some 2, none⟩
  have hfiles : FilesOk d { o with keyPath := some 0 } ctOwn := by
    refine ⟨⟨0, _, rfl, rfl, ⟨[], [.key 2], rfl, nofun⟩, by simp, ctOwn, by simp⟩, ⟨0, _, rfl, rfl, [.cert ctOwn], [], rfl, by simp⟩, .inl (by simp [o]), ?_, nofun⟩
    intro f hf
    injection hf with hf; subst hf
    exact ⟨_, rfl, by simp, ctCa, by simp⟩
  have hpt : ∀ u, ¬ Point .openssl d { o with keyPath := some 0 } ctOwn u := by
    rintro u (hu | ⟨c, f, items, hu, hf, hc, hh | ⟨hh, _⟩⟩)
    · cases hu
    · injection hh with hh; subst hh
      injection hf with hf; subst hf
      simp only [List.mem_singleton, Item.cert.injEq] at hc
      subst hc
      cases hu
    · cases hh
  have hconf : Configured .openssl d { o with keyPath := some 0 } ctCa := ⟨2, _, rfl, by simp, .inl rfl⟩
  obtain ⟨s, hs⟩ := h .openssl (ctLib ctNoGet) d o (some "a.example".toList) (ctPeer [ctSrv]) (ctLib_ok _) rfl
    ⟨0, _, ctOwn, rfl, rfl, ⟨[], [.key 2], rfl, nofun⟩, ⟨[.cert ctOwn], [], rfl, by simp⟩, by simp, ctOwn, by simp⟩
    ⟨0, _, tls_server_accepted_partial (leaf := ctSrv) (ctLib_ok _) rfl rfl rfl rfl hfiles (ct_nolists hpt)
      ⟨rfl, ⟨[], rfl, [ctSrv, ctCa], rfl, ⟨rfl, trivial⟩, by simp [ctSrv, ctCa], ⟨ctCa, rfl, hconf, fun _ => rfl⟩, by
        intro c hc
        simp only [List.mem_cons, List.not_mem_nil, or_false] at hc
        rcases hc with rfl | rfl
        · exact .inl rfl
        · exact .inr (.inr hconf)⟩, by simp [ctPeer], .inl (by simp [ctSrv, wanted])⟩ (fun _ => by simp [ctSrv, wanted]) nofun⟩
  exact a _ _ _ _ _ _ _ rfl hs

end Verif.Props
