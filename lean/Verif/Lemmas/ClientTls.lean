import Verif.Spec.ClientTls
import Verif.Props.Crl

/-! # Lemmas for TLS clients -/

namespace Verif.ClientTls
open Verif.TransCfg (Lib)

/-! ## Files -/

theorem firstCert_spec {l : List Item} {c : Cert} (h : firstCert l = some c) : FirstCert l c := by
  induction l with
  | nil => cases h
  | cons i l ih =>
    cases i with
    | cert c' => simp only [firstCert, Option.some.injEq] at h; subst h; exact ⟨[], l, rfl, by simp⟩
    | badCert => cases h
    | key k =>
      obtain ⟨pre, post, e, hp⟩ := ih h
      refine ⟨.key k :: pre, post, by rw [e]; rfl, ?_⟩
      intro i hi
      rcases List.mem_cons.1 hi with rfl | hi
      · exact ⟨k, rfl⟩
      · exact hp i hi

theorem firstCert_of {l : List Item} {c : Cert} (h : FirstCert l c) : firstCert l = some c := by
  obtain ⟨pre, post, rfl, hp⟩ := h
  induction pre with
  | nil => rfl
  | cons i pre ih =>
    obtain ⟨k, rfl⟩ := hp i (by simp)
    exact ih (fun i hi => hp i (List.mem_cons_of_mem _ hi))

theorem firstKey_spec {l : List Item} {k : Nat} (h : firstKey l = some k) : FirstKey l k := by
  induction l with
  | nil => cases h
  | cons i l ih =>
    cases i with
    | key k' => simp only [firstKey, Option.some.injEq] at h; subst h; exact ⟨[], l, rfl, by simp⟩
    | cert c =>
      obtain ⟨pre, post, e, hp⟩ := ih h
      refine ⟨.cert c :: pre, post, by rw [e]; rfl, ?_⟩
      intro i hi k'
      rcases List.mem_cons.1 hi with rfl | hi
      · nofun
      · exact hp i hi k'
    | badCert =>
      obtain ⟨pre, post, e, hp⟩ := ih h
      refine ⟨.badCert :: pre, post, by rw [e]; rfl, ?_⟩
      intro i hi k'
      rcases List.mem_cons.1 hi with rfl | hi
      · nofun
      · exact hp i hi k'

theorem firstKey_of {l : List Item} {k : Nat} (h : FirstKey l k) : firstKey l = some k := by
  obtain ⟨pre, post, rfl, hp⟩ := h
  induction pre with
  | nil => rfl
  | cons i pre ih =>
    have h1 := ih (fun i hi => hp i (List.mem_cons_of_mem _ hi))
    cases i with
    | key k' => exact absurd rfl (hp (.key k') (by simp) k')
    | cert c => exact h1
    | badCert => exact h1

theorem mem_allCerts {l : List Item} {c : Cert} : c ∈ allCerts l ↔ Item.cert c ∈ l := by
  unfold allCerts
  rw [List.mem_filterMap]
  constructor
  · rintro ⟨i, hi, h⟩
    cases i with
    | cert c' => simp only [Option.some.injEq] at h; subst h; exact hi
    | badCert => cases h
    | key k => cases h
  · intro h; exact ⟨_, h, rfl⟩

theorem head_allCerts {l : List Item} {c : Cert} (hb : Item.badCert ∉ l) : (allCerts l).head? = some c ↔ FirstCert l c := by
  constructor
  · intro h
    apply firstCert_spec
    induction l with
    | nil => cases h
    | cons i l ih =>
      cases i with
      | cert c' => simpa [allCerts, firstCert] using h
      | badCert => exact absurd (by simp) hb
      | key k => exact ih (fun hm => hb (List.mem_cons_of_mem _ hm)) (by simpa [allCerts] using h)
  · intro h
    have := firstCert_of h
    clear h
    induction l with
    | nil => cases this
    | cons i l ih =>
      cases i with
      | cert c' => simpa [allCerts, firstCert] using this
      | badCert => cases this
      | key k => simpa [allCerts] using ih (fun hm => hb (List.mem_cons_of_mem _ hm)) this

theorem anyBad_iff {l : List Item} : anyBad l = true ↔ Item.badCert ∈ l := by
  unfold anyBad; simp

theorem loadCertKey_spec {lib : Lib} {d : Disk} {o : Opts} {c : Cert} {k : Nat} (h : loadCertKey lib d o.certPath o.keyPath = some (c, k)) :
    ∃ f items g kitems, o.certPath = some f ∧ d.file f = some items ∧ FirstCert items c ∧ o.keyPath = some g ∧ d.file g = some kitems ∧ FirstKey kitems k := by
  unfold loadCertKey at h
  split at h
  · rename_i f g hf hg
    split at h
    · cases h
    · rename_i ci hci
      cases lib with
      | openssl =>
        simp only at h
        split at h
        · cases h
        · rename_i c' hc'
          split at h
          · cases h
          · rename_i ki hki
            obtain ⟨k', hk', e⟩ := Option.map_eq_some_iff.1 h
            injection e with e1 e2; subst e1; subst e2
            exact ⟨f, ci, g, ki, hf, hci, firstCert_spec hc', hg, hki, firstKey_spec hk'⟩
      | mbedtls =>
        simp only at h
        split at h
        · cases h
        · rename_i hb
          rw [anyBad_iff] at hb
          split at h
          · cases h
          · rename_i c' hc'
            split at h
            · cases h
            · rename_i ki hki
              obtain ⟨k', hk', e⟩ := Option.map_eq_some_iff.1 h
              injection e with e1 e2; subst e1; subst e2
              exact ⟨f, ci, g, ki, hf, hci, (head_allCerts hb).1 hc', hg, hki, firstKey_spec hk'⟩
  · cases h

theorem loadCertKey_of {lib : Lib} {d : Disk} {o : Opts} {c : Cert} (h : FilesOk d o c) : loadCertKey lib d o.certPath o.keyPath = some (c, c.id) := by
  obtain ⟨f, items, hf, hi, hc, hg⟩ := h.cert
  obtain ⟨g, kitems, hk, hki, hkey⟩ := h.key
  have hb : anyBad items = false := by
    cases hx : anyBad items with
    | false => rfl
    | true => exact absurd (anyBad_iff.1 hx) hg.1
  unfold loadCertKey
  cases lib with
  | openssl => simp only [hf, hk, hi, firstCert_of hc, hki, firstKey_of hkey, Option.map_some]
  | mbedtls => simp only [hf, hk, hi, hb, Bool.false_eq_true, if_false, (head_allCerts hg.1).2 hc, hki, firstKey_of hkey, Option.map_some]

theorem mem_dirCerts {d : Disk} {b : Bool} {l : List (Bool × Nat)} {c : Cert} :
    c ∈ dirCerts d b l ↔ ∃ h f items, (h, f) ∈ l ∧ d.file f = some items ∧ Item.cert c ∈ items ∧ (b = true → h = true) := by
  unfold dirCerts
  rw [List.mem_flatMap]
  constructor
  · rintro ⟨⟨h, f⟩, hm, hc⟩
    simp only at hc
    split at hc
    · cases hc
    · rename_i hb
      cases hf : d.file f with
      | none => rw [hf] at hc; cases hc
      | some i =>
        rw [hf] at hc
        refine ⟨h, f, i, hm, hf, mem_allCerts.1 hc, fun hbt => ?_⟩
        subst hbt
        cases h
        · exact absurd rfl hb
        · rfl
  · rintro ⟨h, f, i, hm, hf, hc, hb⟩
    refine ⟨(h, f), hm, ?_⟩
    have : ¬ (b && !h) = true := by
      cases b
      · simp
      · simp [hb rfl]
    simp only [this, Bool.false_eq_true, if_false, hf]
    exact mem_allCerts.2 hc

/-- The certificates of a store are the configured ones. -/
theorem store_configured {lib : Lib} {d : Disk} {o : Opts} {st : Store} (h : loadTrusted lib d o.caFile o.caDir = some st) (c : Cert) :
    (c ∈ st.mem ∨ c ∈ st.later) ↔ Configured lib d o c := by
  unfold Configured
  cases lib with
  | openssl =>
    simp only [loadTrusted, loadTrustedOpenssl] at h
    split at h
    · cases h
    · have hlater : (c ∈ laterCerts d o.caDir) ↔
          ∃ f items, d.file f = some items ∧ Item.cert c ∈ items ∧ ∃ p l h, o.caDir = some p ∧ d.dir p = some l ∧ (h, f) ∈ l ∧ h = true := by
        cases hd : o.caDir with
        | none => simp [laterCerts]
        | some p =>
          simp only [laterCerts, mem_dirCerts]
          constructor
          · rintro ⟨b, f, i, hm, hf, hc, hb⟩
            cases hl : d.dir p with
            | none => rw [hl] at hm; cases hm
            | some l => rw [hl] at hm; exact ⟨f, i, hf, hc, p, l, b, rfl, hl, hm, by simpa using hb⟩
          · rintro ⟨f, i, hf, hc, p', l, b, hp, hl, hm, hb⟩
            injection hp with hp; subst hp
            exact ⟨b, f, i, by rw [hl]; exact hm, hf, hc, fun _ => hb⟩
      split at h
      · rename_i hfile
        injection h with h; subst h
        simp only [List.not_mem_nil, false_or]
        rw [hlater]
        constructor
        · rintro ⟨f, i, hf, hc, p, l, b, h1, h2, h3, h4⟩
          exact ⟨f, i, hf, hc, .inr ⟨p, l, b, h1, h2, h3, fun _ => h4⟩⟩
        · rintro ⟨f, i, hf, hc, h1 | ⟨p, l, b, h1, h2, h3, h4⟩⟩
          · rw [hfile] at h1; cases h1
          · exact ⟨f, i, hf, hc, p, l, b, h1, h2, h3, by simpa using h4⟩
      · rename_i p0 hfile
        split at h
        · cases h
        · rename_i i0 hi0
          split at h
          · cases h
          · injection h with h; subst h
            simp only
            rw [hlater, mem_allCerts]
            constructor
            · rintro (hm | ⟨f, i, hf, hc, p, l, b, h1, h2, h3, h4⟩)
              · exact ⟨p0, i0, hi0, hm, .inl hfile⟩
              · exact ⟨f, i, hf, hc, .inr ⟨p, l, b, h1, h2, h3, fun _ => h4⟩⟩
            · rintro ⟨f, i, hf, hc, h1 | ⟨p, l, b, h1, h2, h3, h4⟩⟩
              · rw [hfile] at h1; injection h1 with h1; subst h1
                rw [hi0] at hf; injection hf with hf; subst hf
                exact .inl hc
              · exact .inr ⟨f, i, hf, hc, p, l, b, h1, h2, h3, by simpa using h4⟩
  | mbedtls =>
    simp only [loadTrusted, loadTrustedMbedtls] at h
    split at h
    · cases h
    · rename_i l hfile
      have hl : c ∈ l ↔ ∃ f items, d.file f = some items ∧ Item.cert c ∈ items ∧ o.caFile = some f := by
        split at hfile
        · rename_i hn
          injection hfile with hfile; subst hfile
          simp [hn]
        · rename_i p0 hp0
          split at hfile
          · cases hfile
          · rename_i i0 hi0
            split at hfile
            · cases hfile
            · injection hfile with hfile; subst hfile
              rw [mem_allCerts]
              constructor
              · intro hc; exact ⟨p0, i0, hi0, hc, hp0⟩
              · rintro ⟨f, i, hf, hc, h1⟩
                rw [hp0] at h1; injection h1 with h1; subst h1
                rw [hi0] at hf; injection hf with hf; subst hf
                exact hc
      split at h
      · rename_i hdir
        injection h with h; subst h
        simp only [List.not_mem_nil, or_false]
        rw [hl]
        constructor
        · rintro ⟨f, i, hf, hc, h1⟩; exact ⟨f, i, hf, hc, .inl h1⟩
        · rintro ⟨f, i, hf, hc, h1 | ⟨p, l, b, h1, h2, h3, h4⟩⟩
          · exact ⟨f, i, hf, hc, h1⟩
          · rw [hdir] at h1; cases h1
      · rename_i p0 hdir
        split at h
        · cases h
        · rename_i fs hfs
          injection h with h; subst h
          simp only [List.not_mem_nil, or_false, List.mem_append]
          rw [hl, mem_dirCerts]
          constructor
          · rintro (⟨f, i, hf, hc, h1⟩ | ⟨b, f, i, hm, hf, hc, _⟩)
            · exact ⟨f, i, hf, hc, .inl h1⟩
            · exact ⟨f, i, hf, hc, .inr ⟨p0, fs, b, hdir, hfs, hm, nofun⟩⟩
          · rintro ⟨f, i, hf, hc, h1 | ⟨p, l', b, h1, h2, h3, h4⟩⟩
            · exact .inl ⟨f, i, hf, hc, h1⟩
            · rw [hdir] at h1; injection h1 with h1; subst h1
              rw [hfs] at h2; injection h2 with h2; subst h2
              exact .inr ⟨b, f, i, h3, hf, hc, nofun⟩

/-- The certificates in memory are those whose distribution points are used. -/
theorem store_points {lib : Lib} {d : Disk} {o : Opts} {st : Store} (h : loadTrusted lib d o.caFile o.caDir = some st) (own : Cert) (u : Nat) :
    u ∈ ((own :: st.mem).flatMap (·.uris)) ↔ Point lib d o own u := by
  have hconf := store_configured h
  rw [List.flatMap_cons, List.mem_append, List.mem_flatMap]
  unfold Point
  refine or_congr Iff.rfl ?_
  cases lib with
  | mbedtls =>
    have hl : st.later = [] := by
      simp only [loadTrusted, loadTrustedMbedtls] at h
      split at h
      · cases h
      · split at h
        · injection h with h; subst h; rfl
        · split at h
          · cases h
          · injection h with h; subst h; rfl
    constructor
    · rintro ⟨c, hc, hu⟩
      obtain ⟨f, i, hf, hi, hh⟩ := (hconf c).1 (.inl hc)
      refine ⟨c, f, i, hu, hf, hi, ?_⟩
      rcases hh with hh | ⟨p, l, b, h1, h2, h3, _⟩
      · exact .inl hh
      · exact .inr ⟨rfl, p, l, b, h1, h2, h3⟩
    · rintro ⟨c, f, i, hu, hf, hi, hh⟩
      refine ⟨c, ?_, hu⟩
      have : Configured .mbedtls d o c := by
        refine ⟨f, i, hf, hi, ?_⟩
        rcases hh with hh | ⟨_, p, l, b, h1, h2, h3⟩
        · exact .inl hh
        · exact .inr ⟨p, l, b, h1, h2, h3, nofun⟩
      rcases (hconf c).2 this with h1 | h1
      · exact h1
      · rw [hl] at h1; cases h1
  | openssl =>
    have hmem : ∀ c, c ∈ st.mem ↔ ∃ f items, d.file f = some items ∧ Item.cert c ∈ items ∧ o.caFile = some f := by
      intro c
      simp only [loadTrusted, loadTrustedOpenssl] at h
      split at h
      · cases h
      · split at h
        · rename_i hn
          injection h with h; subst h
          simp [hn]
        · rename_i p0 hp0
          split at h
          · cases h
          · rename_i i0 hi0
            split at h
            · cases h
            · injection h with h; subst h
              simp only
              rw [mem_allCerts]
              constructor
              · intro hc; exact ⟨p0, i0, hi0, hc, hp0⟩
              · rintro ⟨f, i, hf, hc, h1⟩
                rw [hp0] at h1; injection h1 with h1; subst h1
                rw [hi0] at hf; injection hf with hf; subst hf
                exact hc
    constructor
    · rintro ⟨c, hc, hu⟩
      obtain ⟨f, i, hf, hi, hh⟩ := (hmem c).1 hc
      exact ⟨c, f, i, hu, hf, hi, .inl hh⟩
    · rintro ⟨c, f, i, hu, hf, hi, hh | ⟨hh, _⟩⟩
      · exact ⟨c, (hmem c).2 ⟨f, i, hf, hi, hh⟩, hu⟩
      · cases hh

theorem loadTrusted_of {d : Disk} {o : Opts} {c : Cert} (lib : Lib) (h : FilesOk d o c) : ∃ st, loadTrusted lib d o.caFile o.caDir = some st := by
  have good : ∀ items, GoodFile items → anyBad items = false ∧ (allCerts items).isEmpty = false := by
    intro items hg
    constructor
    · cases hx : anyBad items with
      | false => rfl
      | true => exact absurd (anyBad_iff.1 hx) hg.1
    · obtain ⟨c, hc⟩ := hg.2
      have := mem_allCerts.2 hc
      cases ha : allCerts items with
      | nil => rw [ha] at this; cases this
      | cons a l => rfl
  cases lib with
  | openssl =>
    simp only [loadTrusted, loadTrustedOpenssl]
    rw [if_neg (by rintro ⟨h1, h2⟩; rcases h.any with h3 | h3 <;> contradiction)]
    cases hf : o.caFile with
    | none => exact ⟨_, rfl⟩
    | some f =>
      obtain ⟨items, hi, hg⟩ := h.file f hf
      obtain ⟨g1, g2⟩ := good items hg
      simp only [hi, g1, g2, Bool.or_false, Bool.false_eq_true, if_false]
      exact ⟨_, rfl⟩
  | mbedtls =>
    simp only [loadTrusted, loadTrustedMbedtls]
    cases hf : o.caFile with
    | none =>
      cases hd : o.caDir with
      | none => exact ⟨_, rfl⟩
      | some p =>
        obtain ⟨fs, hfs⟩ := h.dir p hd
        simp only [hfs]
        exact ⟨_, rfl⟩
    | some f =>
      obtain ⟨items, hi, hg⟩ := h.file f hf
      obtain ⟨_, g2⟩ := good items hg
      simp only [hi, g2, Bool.false_eq_true, if_false]
      cases hd : o.caDir with
      | none => exact ⟨_, rfl⟩
      | some p =>
        obtain ⟨fs, hfs⟩ := h.dir p hd
        simp only [hfs]
        exact ⟨_, rfl⟩

/-! ## Handshake -/

theorem clientCfg_verify (lib : Lib) : (TransCfg.clientCfg lib).verify = true := by cases lib <;> rfl

theorem handshake_one {lib : Lib} {x : Ext} {st : Store} {lists : Option (List RevList)} {host : Option Text} {peer : Peer}
    (h : connectCheck (handshake lib x st lists host peer) = 1) :
    ∃ leaf rest, peer.shown = leaf :: rest ∧ peer.owns leaf.id = true ∧ verifyPeer lib x st lists host leaf rest = true := by
  unfold connectCheck handshake at h
  split at h
  · cases h
  · rename_i leaf rest hs
    split at h
    · rename_i hc
      simp only [clientCfg_verify, Bool.not_true, Bool.false_or, Bool.and_eq_true] at hc
      exact ⟨leaf, rest, hs, hc.1.1, hc.2⟩
    · cases h

/-- What a session means. -/
theorem sessionNew_cases {lib : Lib} {x : Ext} {d : Disk} {o : Opts} {host : Option Text} {peer : Peer} {s : Sess}
    (h : sessionNew lib x d o host peer = .ok (some s)) :
    ∃ st lists rest p, loadCertKey lib d o.certPath o.keyPath = some (s.cert, s.key) ∧ loadTrusted lib d o.caFile o.caDir = some st ∧
      fetchLists lib x s.cert st = .ok (0, lists) ∧ keyFits lib s.cert s.key = true ∧ peer.shown = s.server :: rest ∧ peer.owns s.server.id = true ∧
      x.path (anchors lib st) s.server (rest ++ st.mem ++ st.later) = some p ∧ listsOk lib lists p = true ∧ nameOk lib host s.server = true := by
  unfold sessionNew at h
  split at h
  · cases h
  · rename_i c k hck
    split at h
    · cases h
    · rename_i st hst
      split at h
      · cases h
      · rename_i ret lists hf
        split at h
        · cases h
        · rename_i hret
          split at h
          · cases h
          · rename_i hk
            split at h
            · cases h
            · split at h
              · cases h
              · split at h
                · rename_i hh
                  obtain ⟨leaf, rest, hs, ho, hv⟩ := handshake_one hh
                  rw [hs] at h
                  simp only [List.head?_cons, Option.map_some, Except.ok.injEq, Option.some.injEq] at h
                  subst h
                  unfold verifyPeer at hv
                  split at hv
                  · cases hv
                  · rename_i p hp
                    rw [Bool.and_eq_true] at hv
                    have hret' : ret = 0 := by simpa using hret
                    subst hret'
                    exact ⟨st, lists, rest, p, hck, hst, hf, by simpa using hk, hs, ho, hp, hv.1, hv.2⟩
                · cases h

theorem anchors_mem {lib : Lib} {st : Store} {c : Cert} (h : c ∈ anchors lib st) : c ∈ st.mem ∨ c ∈ st.later := by
  cases lib with
  | openssl => exact List.mem_append.1 (List.mem_filter.1 h).1
  | mbedtls => exact List.mem_append.1 h

theorem Chain.mono {t t' : Cert → Prop} {leaf : Cert} {o o' : Cert → Prop} {p : List Cert} (h : Chain t leaf o p) (ht : ∀ c, t c → t' c)
    (ho : ∀ c, o c → o' c) : Chain t' leaf o' p where
  first := h.first
  linked := h.linked
  valid := h.valid
  last := by obtain ⟨c, h1, h2⟩ := h.last; exact ⟨c, h1, ht c h2⟩
  known c hc := by
    rcases h.known c hc with h1 | h1
    · exact .inl h1
    · exact .inr (ho c h1)

theorem connectTls_eq {lib : Lib} {x : Ext} {d : Disk} {o : Opts} {host : Option Text} {peer : Peer} (h1 : o.certPath ≠ none) (h2 : o.caFile ≠ none ∨ o.caDir ≠ none) :
    connectTls lib x d o host peer = sessionNew lib x d o (some (wanted host)) peer := by
  unfold connectTls
  rw [if_neg h1, if_neg (by rintro ⟨a, b⟩; rcases h2 with h | h <;> contradiction)]
  match host with
  | none => simp only [wanted]
  | some [] => simp only [wanted, if_true]
  | some (a :: l) => simp only [wanted, reduceCtorEq, if_false]

theorem connectTls_session {lib : Lib} {x : Ext} {d : Disk} {o : Opts} {host : Option Text} {peer : Peer} {s : Sess}
    (h : connectTls lib x d o host peer = .ok (some s)) : sessionNew lib x d o (some (wanted host)) peer = .ok (some s) := by
  by_cases h1 : o.certPath = none
  · unfold connectTls at h; rw [if_pos h1] at h; cases h
  · by_cases h2 : o.caFile = none ∧ o.caDir = none
    · unfold connectTls at h; rw [if_neg h1, if_pos h2] at h; cases h
    · rwa [connectTls_eq h1 (Classical.not_and_iff_not_or_not.1 h2)] at h

/-! ## Lists -/

theorem curlData_flatten (cs : List (List Nat)) : ∀ buf : List Nat, Crl.curlData buf cs = buf ++ cs.flatten := by
  induction cs with
  | nil => intro buf; simp [Crl.curlData]
  | cons c cs ih =>
    intro buf
    have : Crl.curlData buf (c :: cs) = Crl.curlData (buf ++ c) cs := rfl
    rw [this, ih]; simp

theorem fetchLoop_mem {C : Type} {add : List Nat → Except Crl.Fault (Option C)} :
    ∀ (ds : List Crl.Download) (store : List C) (ret r : Nat) (st : List C), (∀ x ∈ ds, x.ok = false → x.chunks.flatten = []) →
      Crl.fetchLoop add ds [] store ret = .ok (r, false, st) →
      (∀ k ∈ store, k ∈ st) ∧ (∀ d ∈ ds, d.ok = true → ∃ k ∈ st, add d.chunks.flatten = .ok (some k)) ∧
      ∀ k ∈ st, k ∈ store ∨ ∃ d ∈ ds, d.ok = true ∧ add d.chunks.flatten = .ok (some k) := by
  intro ds
  induction ds with
  | nil =>
    intro store ret r st _ h
    simp only [Crl.fetchLoop, Except.ok.injEq, Prod.mk.injEq] at h
    obtain ⟨_, _, rfl⟩ := h
    exact ⟨fun _ hk => hk, nofun, fun _ hk => .inl hk⟩
  | cons d ds ih =>
    intro store ret r st hfail h
    rw [Crl.fetchLoop] at h
    simp only [curlData_flatten, List.nil_append] at h
    have hfail' : ∀ x ∈ ds, x.ok = false → x.chunks.flatten = [] := fun x hx => hfail x (List.mem_cons_of_mem _ hx)
    cases hd : d.ok with
    | false =>
      rw [if_pos hd, hfail d (by simp) hd] at h
      obtain ⟨h1, h2, h3⟩ := ih _ _ _ _ hfail' h
      refine ⟨h1, ?_, ?_⟩
      · intro y hy hyo
        rcases List.mem_cons.1 hy with rfl | hy
        · rw [hd] at hyo; cases hyo
        · exact h2 y hy hyo
      · intro k hk
        rcases h3 k hk with h | ⟨y, hy, h⟩
        · exact .inl h
        · exact .inr ⟨y, List.mem_cons_of_mem _ hy, h⟩
    | true =>
      rw [if_neg (by simp [hd])] at h
      split at h
      · cases h
      · cases h
      · rename_i c hc
        obtain ⟨h1, h2, h3⟩ := ih _ _ _ _ hfail' h
        refine ⟨fun k hk => h1 k (List.mem_append_left _ hk), ?_, ?_⟩
        · intro y hy hyo
          rcases List.mem_cons.1 hy with rfl | hy
          · exact ⟨c, h1 c (by simp), hc⟩
          · exact h2 y hy hyo
        · intro k hk
          rcases h3 k hk with h | ⟨y, hy, h⟩
          · rcases List.mem_append.1 h with h | h
            · exact .inl h
            · rw [List.mem_singleton.1 h]; exact .inr ⟨d, by simp, hd, hc⟩
          · exact .inr ⟨y, List.mem_cons_of_mem _ hy, h⟩

theorem fetch_mem {C : Type} {add : List Nat → Except Crl.Fault (Option C)} {init urisOk : Bool} {ds : List Crl.Download} {r : Nat} {st : Option (List C)}
    (hfail : ∀ x ∈ ds, x.ok = false → x.chunks.flatten = []) (h : Crl.fetch add true init urisOk ds = .ok (r, st)) (hr : r = 0) :
    (ds = [] ∧ st = none) ∨ ∃ l, st = some l ∧ (∀ d ∈ ds, d.ok = true → ∃ k ∈ l, add d.chunks.flatten = .ok (some k)) ∧
      ∀ k ∈ l, ∃ d ∈ ds, d.ok = true ∧ add d.chunks.flatten = .ok (some k) := by
  subst hr
  have hs := (Verif.Props.crl_success add true init urisOk ds 0 st h).1 rfl
  rcases hs with hs | ⟨h1, h2, h3, h4⟩
  · cases hs
  · subst h1; subst h2
    unfold Crl.fetch at h
    simp only [Bool.true_eq_false, if_false] at h
    split at h
    · rename_i hds
      simp only [Except.ok.injEq, Prod.mk.injEq] at h
      exact .inl ⟨hds, h.2.symm⟩
    · rename_i hds
      split at h
      · cases h
      · rename_i hl
        simp only [Except.ok.injEq, Prod.mk.injEq] at h
        obtain ⟨_, h⟩ := h
        subst h
        have := h4 hds
        cases this
      · rename_i ret store hl
        simp only [Except.ok.injEq, Prod.mk.injEq] at h
        obtain ⟨rfl, rfl⟩ := h
        obtain ⟨_, a, b⟩ := fetchLoop_mem ds [] 0 _ _ hfail hl
        refine .inr ⟨store, rfl, a, fun k hk => ?_⟩
        rcases b k hk with h | h
        · cases h
        · exact h

theorem addList_iff {lib : Lib} {x : Ext} {u : Nat} {r : RevList} :
    ((x.get u).ok = true ∧ addList lib x (x.get u).chunks.flatten = .ok (some r)) ↔ Got lib x u r := by
  unfold Got addList
  cases lib with
  | openssl =>
    simp only [Crl.addOssl]
    constructor
    · rintro ⟨h1, h2⟩
      refine ⟨h1, ?_⟩
      split at h2
      · cases h2
      · rename_i hne
        refine ⟨hne, ?_⟩
        split at h2
        · rename_i c hc
          injection h2 with h2; injection h2 with h2; subst h2
          exact .inl hc
        · rename_i hc
          injection h2 with h2
          exact .inr ⟨by simp, hc, h2⟩
    · rintro ⟨h1, h2, h3 | ⟨_, h3, h4⟩⟩
      · simp only [h1, h2, h3, if_false, true_and]
      · simp only [h1, h2, h3, h4, if_false, true_and]
  | mbedtls =>
    simp only [Crl.addMbed]
    constructor
    · rintro ⟨h1, h2⟩
      refine ⟨h1, ?_⟩
      split at h2
      · cases h2
      · rename_i hne
        refine ⟨hne, ?_⟩
        split at h2
        · rename_i c hc
          injection h2 with h2; injection h2 with h2; subst h2
          exact .inl hc
        · cases h2
    · rintro ⟨h1, h2, h3 | ⟨h3, _⟩⟩
      · simp only [h1, h2, h3, if_false, true_and]
      · cases h3

/-- The library gets exactly the lists that were downloaded. -/
theorem got_in_store {lib : Lib} {x : Ext} {d : Disk} {o : Opts} {own : Cert} {st : Store} {lists : Option (List RevList)} {u : Nat}
    (hst : loadTrusted lib d o.caFile o.caDir = some st) (hf : fetchLists lib x own st = .ok (0, lists)) (hnew : x.newStore = true)
    (hfail : ∀ u, Point lib d o own u → (x.get u).ok = false → (x.get u).chunks.flatten = []) (hu : Point lib d o own u) :
    ∃ l, lists = some l ∧ ∀ r, r ∈ l ↔ ∃ v, Point lib d o own v ∧ Got lib x v r := by
  unfold fetchLists at hf
  rw [hnew] at hf
  have hmem : ∀ v, Point lib d o own v → x.get v ∈ ((own :: st.mem).flatMap (·.uris)).map x.get :=
    fun v hv => List.mem_map.2 ⟨v, (store_points hst own v).2 hv, rfl⟩
  rcases fetch_mem (by
      intro y hy
      obtain ⟨v, hv, rfl⟩ := List.mem_map.1 hy
      exact hfail v ((store_points hst own v).1 hv)) hf rfl with ⟨h1, _⟩ | ⟨l, h1, h2, h3⟩
  · have := hmem u hu; rw [h1] at this; cases this
  · refine ⟨l, h1, fun r => ⟨?_, ?_⟩⟩
    · intro hr
      obtain ⟨y, hy, h4⟩ := h3 r hr
      obtain ⟨v, hv, rfl⟩ := List.mem_map.1 hy
      exact ⟨v, (store_points hst own v).1 hv, addList_iff.1 h4⟩
    · rintro ⟨v, hv, hg⟩
      obtain ⟨k, hk, he⟩ := h2 _ (hmem v hv) hg.1
      rw [(addList_iff.2 hg).2] at he
      injection he with he; injection he with he
      exact he ▸ hk

theorem fetchLoop_good {add : List Nat → Except Crl.Fault (Option RevList)} :
    ∀ (ds : List Crl.Download) (store : List RevList) (ret : Nat), (∀ d ∈ ds, d.ok = true ∧ ∃ r, add d.chunks.flatten = .ok (some r)) →
      ∃ ret' st, Crl.fetchLoop add ds [] store ret = .ok (ret', false, st) ∧ (ds = [] → ret' = ret) ∧ (ds ≠ [] → ret' = 0) := by
  intro ds
  induction ds with
  | nil => intro store ret _; exact ⟨ret, store, rfl, fun _ => rfl, fun h => absurd rfl h⟩
  | cons d ds ih =>
    intro store ret hd
    obtain ⟨h1, r, h2⟩ := hd d (by simp)
    obtain ⟨ret', st, e, e1, e2⟩ := ih (store ++ [r]) 0 (fun y hy => hd y (List.mem_cons_of_mem _ hy))
    refine ⟨ret', st, ?_, nofun, ?_⟩
    · rw [Crl.fetchLoop]
      simp only [curlData_flatten, List.nil_append, h1, Bool.true_eq_false, if_false, h2]
      exact e
    · intro _
      by_cases hds : ds = []
      · exact e1 hds
      · exact e2 hds

/-- Fetching good lists succeeds. -/
theorem fetchLists_good {lib : Lib} {x : Ext} {d : Disk} {o : Opts} {own : Cert} {st : Store} (h1 : x.newStore = true) (h2 : x.curlInit = true) (h3 : x.urisOk = true)
    (hst : loadTrusted lib d o.caFile o.caDir = some st) (hg : ∀ u, Point lib d o own u → ∃ r, Got lib x u r) :
    ∃ lists, fetchLists lib x own st = .ok (0, lists) ∧ (lists = none ↔ ∀ u, ¬ Point lib d o own u) := by
  unfold fetchLists
  rw [h1, h2, h3]
  by_cases hnil : ((own :: st.mem).flatMap (·.uris)) = []
  · refine ⟨none, by rw [hnil]; simp [Crl.fetch], fun _ u hu => ?_, fun _ => rfl⟩
    have := (store_points hst own u).2 hu
    rw [hnil] at this; cases this
  · obtain ⟨ret, store, e, _, e2⟩ := fetchLoop_good (add := addList lib x) (((own :: st.mem).flatMap (·.uris)).map x.get) [] 0 (by
      intro y hy
      obtain ⟨u, hu, rfl⟩ := List.mem_map.1 hy
      obtain ⟨r, hr⟩ := hg u ((store_points hst own u).1 hu)
      exact ⟨hr.1, r, (addList_iff.2 hr).2⟩)
    have hne : ((own :: st.mem).flatMap (·.uris)).map x.get ≠ [] := fun hh => hnil (List.map_eq_nil_iff.1 hh)
    have hret := e2 hne
    subst hret
    refine ⟨some store, ?_, ?_⟩
    · unfold Crl.fetch
      simp only [Bool.true_eq_false, if_false, hne]
      rw [e]
    · obtain ⟨u0, hu0⟩ := List.exists_mem_of_ne_nil _ hnil
      constructor
      · nofun
      · intro h; exact absurd ((store_points hst own u0).1 hu0) (h u0)

/-- A chain without revoked certificates passes. -/
theorem listsOk_of {lib : Lib} {l : List RevList} {p : List Cert} (has : ∀ c ∈ p, ∃ r ∈ l, r.issuer = c.signer)
    (clean : ∀ c ∈ p, ∀ r ∈ l, r.issuer = c.signer → r.valid = true ∧ c.id ∉ r.revoked) : listsOk lib (some l) p = true := by
  cases lib with
  | openssl =>
    simp only [listsOk, List.all_eq_true]
    intro c hc
    cases hfind : l.find? (fun r => r.issuer == c.signer) with
    | none =>
      obtain ⟨r, hr, hi⟩ := has c hc
      have := List.find?_eq_none.1 hfind r hr
      simp [hi] at this
    | some r =>
      have hi : r.issuer = c.signer := by simpa using List.find?_some hfind
      obtain ⟨v, nr⟩ := clean c hc r (List.mem_of_find?_eq_some hfind) hi
      simp [v, nr]
  | mbedtls =>
    simp only [listsOk, List.all_eq_true, Bool.or_eq_true, bne_iff_ne, ne_eq]
    intro c hc r hr
    by_cases hi : r.issuer = c.signer
    · obtain ⟨v, nr⟩ := clean c (List.dropLast_subset _ hc) r hr hi
      exact .inr (by simp [v, nr])
    · exact .inl hi

/-- A chain that passed has no revoked certificates. -/
theorem listsOk_spec {lib : Lib} {l : List RevList} {p : List Cert} (h : listsOk lib (some l) p = true) {r : RevList} (hr : r ∈ l)
    (uniq : lib = .openssl → ∀ r' ∈ l, r'.issuer = r.issuer → r' = r) : ∀ c ∈ p.dropLast, r.issuer = c.signer → r.valid = true ∧ c.id ∉ r.revoked := by
  intro c hc hi
  cases lib with
  | openssl =>
    simp only [listsOk, List.all_eq_true] at h
    have := h c (List.dropLast_subset _ hc)
    split at this
    · cases this
    · rename_i r' hfind
      have hi' : r'.issuer = c.signer := by simpa using List.find?_some hfind
      have e := uniq rfl r' (List.mem_of_find?_eq_some hfind) (hi'.trans hi.symm)
      subst e
      simpa using this
  | mbedtls =>
    simp only [listsOk, List.all_eq_true] at h
    have := h c hc r hr
    simpa [hi] using this

end Verif.ClientTls
