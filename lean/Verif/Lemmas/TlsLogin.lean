import Verif.Spec.TlsLogin
import Verif.Lemmas.Login
import Verif.Props.ConfTls
import Verif.Props.TlsAuth

/-!
# Lemmas: TLS clients by the configuration
-/

namespace Verif.TlsLogin
open Verif.ConfStore (Map TsConf Ts HoldsTs HoldsCerts OptRel Holds)
open Verif.ConfTls (TlsConf CtnConf CertsConf AuthConf TlsAs TrustAs CtnsAs Trust Grp)
open Verif.TlsAuth (Cert MapType Text Yields Readable FpUsable FirstYield Endpt Opts allEntries Configured)
open Verif.Login (holds_mem holds_find)

/-! ## Certificates -/

theorem mem_certs (v : Vals) (l : List ConfStore.Cert) (m : Map Nat) (h : HoldsCerts l m) (o : Option Cert) :
    o ∈ l.map (fun c => c.data.bind v.cert) ↔ ∃ k d, m k = some d ∧ v.cert d = o := by
  constructor
  · intro ho
    obtain ⟨c, hc, rfl⟩ := List.mem_map.mp ho
    obtain ⟨d, h1, h2⟩ := holds_mem _ _ _ _ h c hc
    have h2 : c.data = some d := h2
    exact ⟨c.name, d, h1, by simp [h2]⟩
  · rintro ⟨k, d, hk, rfl⟩
    obtain ⟨c, hc, -, -, h2⟩ := holds_find _ _ _ _ h k d hk
    have h2 : c.data = some d := h2
    exact List.mem_map.mpr ⟨c, hc, by simp [h2]⟩

theorem certsOf_as (v : Vals) (hv : ∀ a b, v.text a = v.text b → a = b) (ts : Ts) (tc : TsConf) (ht : HoldsTs ts tc) (g : Grp) (cc : Option CertsConf)
    (h : TrustAs g.trust cc) : ∃ r, certsOf v ts g = some r ∧ (r = none ↔ ¬ BagThere tc cc) ∧
      ∀ l, r = some l → ∀ o, o ∈ l ↔ ∃ d, CertIn tc cc d ∧ v.cert d = o := by
  cases cc with
  | none =>
    have h : g.trust = some (.certs []) := h
    refine ⟨some [], by simp [certsOf, h], by simp [BagThere], ?_⟩
    intro l hl o
    cases hl
    simp [CertIn]
  | some c =>
    cases c with
    | inline m =>
      obtain ⟨l, hl, h⟩ := h
      refine ⟨some (l.map (fun c => c.data.bind v.cert)), by simp [certsOf, h], by simp [BagThere], ?_⟩
      intro l' hl' o
      cases hl'
      rw [mem_certs v l m hl o]
      constructor
      · rintro ⟨k, d, h1, h2⟩; exact ⟨d, ⟨k, h1⟩, h2⟩
      · rintro ⟨d, ⟨k, h1⟩, h2⟩; exact ⟨k, d, h1, h2⟩
    | bag n =>
      have h : g.trust = some (.bag n) := h
      have hfind : ts.certBags.find? (fun b => decide (v.text b.name = v.text n)) = ts.certBags.find? (fun b => b.name == n) := by
        congr 1
        funext b
        by_cases hb : b.name = n
        · simp [hb]
        · have : v.text b.name ≠ v.text n := fun he => hb (hv _ _ he)
          simp [hb, this]
      refine ⟨_, by simp only [certsOf, h]; rw [hfind], ?_, ?_⟩
      · have := ht.1.2 n
        cases hf : ts.certBags.find? (fun b => b.name == n) with
        | none =>
          rw [hf] at this
          cases hm : tc.certBags n with
          | none => simp [BagThere, hm]
          | some m => rw [hm] at this; exact this.elim
        | some b =>
          rw [hf] at this
          cases hm : tc.certBags n with
          | none => rw [hm] at this; exact this.elim
          | some m => simp [BagThere, hm]
      · intro l hl o
        have := ht.1.2 n
        cases hf : ts.certBags.find? (fun b => b.name == n) with
        | none => rw [hf] at hl; cases hl
        | some b =>
          rw [hf] at hl this
          cases hm : tc.certBags n with
          | none => rw [hm] at this; exact this.elim
          | some m =>
            rw [hm] at this
            have this : HoldsCerts b.certs m := this
            cases hl
            simp only
            rw [mem_certs v b.certs m this o]
            constructor
            · rintro ⟨k, d, h1, h2⟩; exact ⟨d, ⟨m, k, hm, h1⟩, h2⟩
            · rintro ⟨d, ⟨m', k, h0, h1⟩, h2⟩
              rw [hm] at h0
              cases h0
              exact ⟨k, d, h1, h2⟩

theorem allCerts_some (l : List (Option Cert)) (m : List Cert) (h : allCerts l = some m) : l = m.map some := by
  induction l generalizing m with
  | nil => cases h; rfl
  | cons o l ih =>
    cases o with
    | none => cases h
    | some c =>
      simp only [allCerts, Option.map_eq_some_iff] at h
      obtain ⟨m', h1, rfl⟩ := h
      simp [ih m' h1]

theorem allCerts_none (l : List (Option Cert)) : allCerts l = none ↔ none ∈ l := by
  induction l with
  | nil => simp [allCerts]
  | cons o l ih =>
    cases o with
    | none => simp [allCerts]
    | some c => simp [allCerts, ih]

/-! ## Names -/

theorem mapType_eq (n : Nat) : mapTypes.getD n .unknown = mapType n := by
  match n with
  | 0 | 1 | 2 | 3 | 4 | 5 => rfl
  | n + 6 => simp [mapTypes, mapType]

/-- The entry is the configured one. -/
def EntryAs (a : Ctn.Ctn) (e : CtnConf) : Prop := a.mapType = e.mapType ∧ a.name = e.name ∧ a.fingerprint = e.fingerprint

theorem entry_conf (v : Vals) (a : Ctn.Ctn) (e : CtnConf) (h : EntryAs a e) : entry v a = entryConf v e := by
  obtain ⟨h1, h2, h3⟩ := h
  simp only [entry, entryConf, h1, h2, h3, mapType_eq]

theorem ctns_mem (l : List Ctn.Ctn) (m : Map CtnConf) (h : CtnsAs l m) (a : Ctn.Ctn) (ha : a ∈ l) : ∃ e, m a.id = some e ∧ EntryAs a e := by
  have h1 := h.2 a.id
  have hn : (l.map Ctn.Ctn.id).Nodup := by
    rw [List.Nodup, List.pairwise_map]
    exact h.1.imp (fun h => Nat.ne_of_lt h)
  rw [Login.nodup_find Ctn.Ctn.id l hn a ha] at h1
  cases hm : m a.id with
  | none => rw [hm] at h1; exact h1.elim
  | some e => rw [hm] at h1; exact ⟨e, rfl, h1⟩

theorem ctns_find (l : List Ctn.Ctn) (m : Map CtnConf) (h : CtnsAs l m) (i : Nat) (e : CtnConf) (he : m i = some e) : ∃ a ∈ l, a.id = i ∧ EntryAs a e := by
  have h1 := h.2 i
  rw [he] at h1
  cases hf : l.find? (fun c => c.id == i) with
  | none => rw [hf] at h1; exact h1.elim
  | some a => rw [hf] at h1; exact ⟨a, List.mem_of_find?_eq_some hf, by simpa using List.find?_some hf, h1⟩

/-- Nothing of the list gives a name. -/
def NoName (l : List TlsAuth.Ctn) (chain : List Cert) : Prop := ∀ e ∈ l, ∀ x ∈ chain, ∀ w, ¬ Yields e x w

theorem noName_iff (v : Vals) (l : List Ctn.Ctn) (m : Map CtnConf) (h : CtnsAs l m) (chain : List Cert) :
    NoName (l.map (entry v)) chain ↔ ∀ j f, m j = some f → ∀ x ∈ chain, ∀ w, ¬ Yields (entryConf v f) x w := by
  constructor
  · intro hn j f hf
    obtain ⟨a, ha, -, he⟩ := ctns_find l m h j f hf
    have := hn (entry v a) (List.mem_map.mpr ⟨a, ha, rfl⟩)
    rwa [entry_conf v a f he] at this
  · intro hn e he
    obtain ⟨a, ha, rfl⟩ := List.mem_map.mp he
    obtain ⟨f, hf, hE⟩ := ctns_mem l m h a ha
    rw [entry_conf v a f hE]
    exact hn a.id f hf

theorem firstYield_one (v : Vals) (l : List Ctn.Ctn) (c : EndConf) (h : CtnsAs l c.ctn) (chain : List Cert) (u : Text) :
    FirstYield (l.map (entry v)) chain u ↔ NameByConf v [c] chain u := by
  constructor
  · rintro ⟨pre, e, post, h1, h2, h3⟩
    obtain ⟨p, q, rfl, hp, hq⟩ := List.map_eq_append_iff.mp h1
    obtain ⟨a, q', rfl, rfl, -⟩ := List.map_eq_cons_iff.mp hq
    obtain ⟨e, he, hE⟩ := ctns_mem _ _ h a (by simp)
    rw [entry_conf v a e hE] at h3
    refine ⟨[], c, [], a.id, e, rfl, he, by simp, ?_, h3⟩
    intro j f hj hf
    obtain ⟨b, hb, hbj, hF⟩ := ctns_find _ _ h j f hf
    have hs := h.1
    rw [List.pairwise_append] at hs
    have hb' : b ∈ p := by
      rcases List.mem_append.mp hb with hb | hb
      · exact hb
      · rcases List.mem_cons.mp hb with rfl | hb
        · omega
        · have := (List.pairwise_cons.mp hs.2.1).1 b hb
          omega
    rw [← entry_conf v b f hF]
    exact h2 _ (hp ▸ List.mem_map.mpr ⟨b, hb', rfl⟩)
  · rintro ⟨pre, c', post, i, e, h1, h2, -, h4, h5⟩
    have hc : pre = [] ∧ c = c' := by
      cases pre with
      | nil => simp at h1; exact ⟨rfl, h1.1⟩
      | cons x pre => simp at h1
    obtain ⟨rfl, rfl⟩ := hc
    obtain ⟨a, ha, rfl, hE⟩ := ctns_find _ _ h i e h2
    obtain ⟨p, q, rfl⟩ := List.append_of_mem ha
    refine ⟨p.map (entry v), entry v a, q.map (entry v), by simp, ?_, ?_⟩
    · intro x hx
      obtain ⟨b, hb, rfl⟩ := List.mem_map.mp hx
      obtain ⟨f, hf, hF⟩ := ctns_mem _ _ h b (by simp [hb])
      have hs := h.1
      rw [List.pairwise_append] at hs
      rw [entry_conf v b f hF]
      exact h4 b.id f (hs.2.2 b hb a (by simp)) hf
    · rw [entry_conf v a e hE]
      exact h5

theorem firstYield_append (A B : List TlsAuth.Ctn) (chain : List Cert) (u : Text) :
    FirstYield (A ++ B) chain u ↔ FirstYield A chain u ∨ (NoName A chain ∧ FirstYield B chain u) := by
  constructor
  · rintro ⟨pre, e, post, h1, h2, h3⟩
    rcases List.append_eq_append_iff.mp h1 with ⟨x, h4, h5⟩ | ⟨x, h4, h5⟩
    · refine .inr ⟨fun y hy => h2 y (by rw [h4]; simp [hy]), ⟨x, e, post, h5, fun y hy => h2 y (by rw [h4]; simp [hy]), h3⟩⟩
    · cases x with
      | nil =>
        simp only [List.append_nil] at h4
        simp only [List.nil_append] at h5
        subst h4
        exact .inr ⟨h2, ⟨[], e, post, h5.symm, by simp, h3⟩⟩
      | cons y x =>
        simp only [List.cons_append, List.cons.injEq] at h5
        obtain ⟨rfl, h5⟩ := h5
        exact .inl ⟨pre, e, x, h4, h2, h3⟩
  · rintro (h | ⟨h1, h2⟩)
    · exact Props.firstYield_append_left h
    · exact Props.firstYield_append_right h1 h2

theorem nameByConf_cons (v : Vals) (c : EndConf) (cs : List EndConf) (chain : List Cert) (u : Text) :
    NameByConf v (c :: cs) chain u ↔ NameByConf v [c] chain u ∨
      ((∀ j f, c.ctn j = some f → ∀ x ∈ chain, ∀ w, ¬ Yields (entryConf v f) x w) ∧ NameByConf v cs chain u) := by
  constructor
  · rintro ⟨pre, c', post, i, e, h1, h2, h3, h4, h5⟩
    cases pre with
    | nil =>
      simp only [List.nil_append, List.cons.injEq] at h1
      obtain ⟨rfl, rfl⟩ := h1
      exact .inl ⟨[], c, [], i, e, rfl, h2, by simp, h4, h5⟩
    | cons d pre =>
      simp only [List.cons_append, List.cons.injEq] at h1
      obtain ⟨rfl, rfl⟩ := h1
      exact .inr ⟨h3 c List.mem_cons_self, ⟨pre, c', post, i, e, rfl, h2, fun d hd => h3 d (List.mem_cons_of_mem _ hd), h4, h5⟩⟩
  · rintro (⟨pre, c', post, i, e, h1, h2, -, h4, h5⟩ | ⟨h0, pre, c', post, i, e, rfl, h2, h3, h4, h5⟩)
    · have hc : c = c' := by
        cases pre with
        | nil => simp at h1; exact h1.1
        | cons x pre => simp at h1
      subst hc
      exact ⟨[], c, cs, i, e, rfl, h2, by simp, h4, h5⟩
    · refine ⟨c :: pre, c', post, i, e, rfl, h2, ?_, h4, h5⟩
      intro d hd
      rcases List.mem_cons.mp hd with rfl | hd
      · exact h0
      · exact h3 d hd

/-! ## Endpoints -/

/-- The endpoint works as configured. -/
def EndAs (x : End) (c : EndConf) : Prop := TlsAs x.tls c.tls ∧ CtnsAs x.ctn c.ctn

theorem endSafe_as (spki : Nat → Bool) (x : End) (c : EndConf) (h : EndSafe spki x c) : EndAs x c := by
  obtain ⟨⟨d, ds, c0, h1, h2, h3⟩, es, h4, h5, h6⟩ := h
  constructor
  · obtain ⟨s, g1, g2⟩ := Props.tls_follows_diffs_partial spki d ds c0 c.tls h1 h2
    rw [h3] at g1
    cases g1
    exact g2
  · obtain ⟨l, g1, g2⟩ := Props.ctn_follows_diffs_partial es c.ctn h4 h5
    rw [h6] at g1
    cases g1
    exact g2

theorem refAs_imp {P Q : End → EndConf → Prop} (h : ∀ x c, P x c → Q x c) (ref : Option (Option End)) (rc : Option EndConf) (hr : RefAs P ref rc) : RefAs Q ref rc := by
  match ref, rc with
  | none, none => trivial
  | some none, none => trivial
  | some (some r), some c => exact h _ _ hr
  | some (some r), none => exact hr.elim
  | none, some c => exact hr.elim
  | some none, some c => exact hr.elim

theorem endOpts_as (v : Vals) (hv : ∀ a b, v.text a = v.text b → a = b) (ts : Ts) (tc : TsConf) (ht : HoldsTs ts tc) (x : End) (c : EndConf) (h : EndAs x c) :
    ∃ o, endOpts v ts x = some o ∧ o.ctn = x.ctn.map (entry v) ∧ (o.ee = none ↔ ¬ BagThere tc (c.tls.auth.bind AuthConf.ee)) ∧
      ∀ l, o.ee = some l → ∀ y, y ∈ l ↔ ∃ d, CertIn tc (c.tls.auth.bind AuthConf.ee) d ∧ v.cert d = y := by
  obtain ⟨r, h1, h2, h3⟩ := certsOf_as v hv ts tc ht x.tls.ee _ h.1.2.2.1
  exact ⟨⟨r, x.ctn.map (entry v)⟩, by simp [endOpts, h1], rfl, h2, h3⟩

theorem loadTrusted_as (v : Vals) (hv : ∀ a b, v.text a = v.text b → a = b) (ts : Ts) (tc : TsConf) (ht : HoldsTs ts tc) (x : End) (c : EndConf) (h : EndAs x c) :
    ∃ r, loadTrusted v ts x.tls.ca = some r ∧
      (r = none ↔ ¬ (BagThere tc (c.tls.auth.bind AuthConf.ca) ∧ ∀ d, CertIn tc (c.tls.auth.bind AuthConf.ca) d → ∃ y, v.cert d = some y)) ∧
      ∀ l, r = some l → ∀ y, y ∈ l ↔ ∃ d, CertIn tc (c.tls.auth.bind AuthConf.ca) d ∧ v.cert d = some y := by
  obtain ⟨r, h1, h2, h3⟩ := certsOf_as v hv ts tc ht x.tls.ca _ h.1.2.1
  cases r with
  | none =>
    refine ⟨none, by simp [loadTrusted, h1], ?_, by simp⟩
    have := h2.mp rfl
    simp [this]
  | some l =>
    have hb : BagThere tc (c.tls.auth.bind AuthConf.ca) := by
      by_cases hb : BagThere tc (c.tls.auth.bind AuthConf.ca)
      · exact hb
      · cases h2.mpr hb
    refine ⟨allCerts l, by simp [loadTrusted, h1], ?_, ?_⟩
    · rw [allCerts_none, h3 l rfl none]
      constructor
      · rintro ⟨d, hd, hn⟩ ⟨-, hall⟩
        obtain ⟨y, hy⟩ := hall d hd
        rw [hn] at hy; cases hy
      · intro hn
        by_cases hx : ∃ d, CertIn tc (c.tls.auth.bind AuthConf.ca) d ∧ v.cert d = none
        · exact hx
        · refine absurd ⟨hb, ?_⟩ hn
          intro d hd
          cases hy : v.cert d with
          | none => exact absurd ⟨d, hd, hy⟩ hx
          | some y => exact ⟨y, rfl⟩
    · intro m hm y
      have := allCerts_some l m hm
      rw [← h3 l rfl (some y), this]
      simp

/-- What the handshake is done with. -/
structure PrepAs (v : Vals) (tc : TsConf) (cs : List EndConf) (S : List Cert) (o : Endpt) : Prop where
  ca : ∀ x, x ∈ S ↔ CaConfigured v tc cs x
  ee : ∀ peer, Configured o peer ↔ EeConfigured v tc cs peer
  eeNull : ∀ l, (o.own.ee = some l ∨ ∃ r, o.ref = some (some r) ∧ r.ee = some l) → none ∈ l → ∃ c ∈ cs, ∃ d, CertIn tc (c.tls.auth.bind AuthConf.ee) d ∧ v.cert d = none
  name : ∀ chain u, FirstYield (allEntries o) chain u ↔ NameByConf v cs chain u
  fps : FpsUsable v cs → ∀ e ∈ allEntries o, FpUsable e
  ref : o.ref ≠ some none

theorem entries_usable (v : Vals) (x : End) (c : EndConf) (h : EndAs x c) (hf : ∀ i e, c.ctn i = some e → FpUsable (entryConf v e)) :
    ∀ e ∈ x.ctn.map (entry v), FpUsable e := by
  intro e he
  obtain ⟨a, ha, rfl⟩ := List.mem_map.mp he
  obtain ⟨f, g1, g2⟩ := ctns_mem _ _ h.2 a ha
  rw [entry_conf v a f g2]
  exact hf _ _ g1

theorem prepare_as (v : Vals) (hv : ∀ a b, v.text a = v.text b → a = b) (ts : Ts) (tc : TsConf) (ht : HoldsTs ts tc) (own : End) (oc : EndConf) (ho : EndAs own oc)
    (ref : Option (Option End)) (rc : Option EndConf) (hr : RefAs EndAs ref rc) (up : Bool) :
    ∃ p, prepare v ts own ref up = some p ∧ (∀ S o, p = some (S, o) → PrepAs v tc (oc :: rc.toList) S o) ∧
      (up = true → ref ≠ some none →
        (∀ c ∈ oc :: rc.toList, BagThere tc (c.tls.auth.bind AuthConf.ca) ∧ ∀ d, CertIn tc (c.tls.auth.bind AuthConf.ca) d → ∃ y, v.cert d = some y) →
        (∃ c ∈ oc :: rc.toList, ∃ d, CertIn tc (c.tls.auth.bind AuthConf.ca) d ∨ CertIn tc (c.tls.auth.bind AuthConf.ee) d) → p ≠ none) := by
  obtain ⟨o, o1, o2, o3, o4⟩ := endOpts_as v hv ts tc ht own oc ho
  obtain ⟨l, l1, l2, l3⟩ := loadTrusted_as v hv ts tc ht own oc ho
  -- when the store was loaded
  have fin : ∀ (S : List Cert) (e : Endpt), store v ts own ref = some (some S) → endpt v ts own ref = some e → PrepAs v tc (oc :: rc.toList) S e →
      ((∃ c ∈ oc :: rc.toList, ∃ d, CertIn tc (c.tls.auth.bind AuthConf.ca) d ∨ CertIn tc (c.tls.auth.bind AuthConf.ee) d) →
        (∀ c ∈ oc :: rc.toList, ∀ d, CertIn tc (c.tls.auth.bind AuthConf.ca) d → ∃ y, v.cert d = some y) → S.length + numEe e ≠ 0) →
      ∃ p, prepare v ts own ref up = some p ∧ (∀ S o, p = some (S, o) → PrepAs v tc (oc :: rc.toList) S o) ∧
      (up = true → ref ≠ some none →
        (∀ c ∈ oc :: rc.toList, BagThere tc (c.tls.auth.bind AuthConf.ca) ∧ ∀ d, CertIn tc (c.tls.auth.bind AuthConf.ca) d → ∃ y, v.cert d = some y) →
        (∃ c ∈ oc :: rc.toList, ∃ d, CertIn tc (c.tls.auth.bind AuthConf.ca) d ∨ CertIn tc (c.tls.auth.bind AuthConf.ee) d) → p ≠ none) := by
    intro S e hS he hP hcount
    by_cases hz : S.length + numEe e = 0
    · refine ⟨none, by simp only [prepare, hS, he, hz, if_true], by simp, ?_⟩
      intro _ _ h1 h2
      exact absurd hz (hcount h2 (fun c hc => (h1 c hc).2))
    · cases up with
      | false => exact ⟨none, by simp only [prepare, hS, he, if_neg hz, Bool.false_eq_true, if_false], by simp, by simp⟩
      | true =>
        refine ⟨some (S, e), by simp only [prepare, hS, he, if_neg hz, if_true], ?_, by simp⟩
        intro S' o' h
        cases h
        exact hP
  have len : ∀ (o : Opts) (c : EndConf), (∀ l, o.ee = some l → ∀ y, y ∈ l ↔ ∃ d, CertIn tc (c.tls.auth.bind AuthConf.ee) d ∧ v.cert d = y) →
      (∃ d, CertIn tc (c.tls.auth.bind AuthConf.ee) d) → numCerts o.ee ≠ 0 := by
    rintro o c h ⟨d, hd⟩
    cases he : o.ee with
    | none => simp [numCerts]
    | some l =>
      have : v.cert d ∈ l := (h l he _).mpr ⟨d, hd, rfl⟩
      have := List.length_pos_of_mem this
      simp only [numCerts]
      omega
  cases l with
  | none =>
    refine ⟨none, by simp [prepare, store, l1], by simp, ?_⟩
    intro _ _ hall
    exact absurd (hall oc List.mem_cons_self) (l2.mp rfl)
  | some l =>
    have hl := l3 l rfl
    match ref, rc with
    | none, none =>
      refine fin l ⟨o, none⟩ (by simp [store, l1]) (by simp [endpt, o1]) ?_ ?_
      · constructor
        · intro x; rw [hl]; simp [CaConfigured]
        · intro peer
          constructor
          · rintro ⟨l', c, h1, h2, h3 | ⟨r, h3, -⟩⟩
            · obtain ⟨d, h4, h5⟩ := (o4 l' h3 _).mp h1
              exact ⟨oc, List.mem_cons_self, d, c, h4, h5, h2⟩
            · cases h3
          · rintro ⟨c, hc, d, x, h1, h2, h3⟩
            simp at hc; subst hc
            cases he : o.ee with
            | none =>
              have := o3.mp he
              exfalso
              revert this h1
              cases c.tls.auth.bind AuthConf.ee with
              | none => simp [BagThere]
              | some y => cases y with
                | inline m => simp [BagThere]
                | bag n => intro h1 h2; obtain ⟨m, k, h1, -⟩ := h1; exact h2 ⟨m, h1⟩
            | some l' => exact ⟨l', x, (o4 l' he _).mpr ⟨d, h1, h2⟩, h3, .inl he⟩
        · rintro l' (h3 | ⟨r, h3, -⟩) hn
          · exact ⟨oc, List.mem_cons_self, (o4 l' h3 _).mp hn⟩
          · cases h3
        · intro chain u
          simp only [allEntries, List.append_nil, o2]
          exact firstYield_one v own.ctn oc ho.2 chain u
        · intro hf e he
          simp only [allEntries, List.append_nil, o2] at he
          exact entries_usable v own oc ho (hf oc (by simp)) e he
        · simp
      · rintro ⟨c, hc, d, h1⟩ hall
        simp at hc; subst hc
        rcases h1 with h1 | h1
        · obtain ⟨y, hy⟩ := hall c (by simp) d h1
          have := List.length_pos_of_mem ((hl y).mpr ⟨d, h1, hy⟩)
          omega
        · have := len o c o4 ⟨d, h1⟩
          simp only [numEe]
          omega
    | some none, none => exact ⟨none, by simp [prepare, store, l1], by simp, by simp⟩
    | some (some r), some rc =>
      obtain ⟨p, p1, p2, p3, p4⟩ := endOpts_as v hv ts tc ht r rc hr
      obtain ⟨m, m1, m2, m3⟩ := loadTrusted_as v hv ts tc ht r rc hr
      cases m with
      | none =>
        refine ⟨none, by simp [prepare, store, l1, m1], by simp, ?_⟩
        intro _ _ hall
        exact absurd (hall rc (by simp)) (m2.mp rfl)
      | some m =>
        have hm := m3 m rfl
        have there : ∀ (q : Opts) (c : EndConf) (d : Nat), (q.ee = none ↔ ¬ BagThere tc (c.tls.auth.bind AuthConf.ee)) → CertIn tc (c.tls.auth.bind AuthConf.ee) d → q.ee ≠ none := by
          intro q c d hq h1 hn
          have := hq.mp hn
          revert this h1
          cases c.tls.auth.bind AuthConf.ee with
          | none => simp [BagThere]
          | some y => cases y with
            | inline m => simp [BagThere]
            | bag n => intro h1 h2; obtain ⟨m, k, h1, -⟩ := h1; exact h2 ⟨m, h1⟩
        refine fin (l ++ m) ⟨o, some (some p)⟩ (by simp [store, l1, m1]) (by simp [endpt, o1, p1]) ?_ ?_
        · constructor
          · intro x; rw [List.mem_append, hl, hm]; simp [CaConfigured]
          · intro peer
            constructor
            · rintro ⟨l', c, h1, h2, h3 | ⟨r, h3, h4⟩⟩
              · obtain ⟨d, h4, h5⟩ := (o4 l' h3 _).mp h1
                exact ⟨oc, List.mem_cons_self, d, c, h4, h5, h2⟩
              · cases h3
                obtain ⟨d, h4, h5⟩ := (p4 l' h4 _).mp h1
                exact ⟨rc, by simp, d, c, h4, h5, h2⟩
            · rintro ⟨c, hc, d, x, h1, h2, h3⟩
              simp at hc
              rcases hc with rfl | rfl
              · cases he : o.ee with
                | none => exact absurd he (there o c d o3 h1)
                | some l' => exact ⟨l', x, (o4 l' he _).mpr ⟨d, h1, h2⟩, h3, .inl he⟩
              · cases he : p.ee with
                | none => exact absurd he (there p c d p3 h1)
                | some l' => exact ⟨l', x, (p4 l' he _).mpr ⟨d, h1, h2⟩, h3, .inr ⟨p, rfl, he⟩⟩
          · rintro l' (h3 | ⟨r, h3, h4⟩) hn
            · exact ⟨oc, List.mem_cons_self, (o4 l' h3 _).mp hn⟩
            · cases h3
              exact ⟨rc, by simp, (p4 l' h4 _).mp hn⟩
          · intro chain u
            simp only [allEntries, o2, p2, Option.toList_some]
            rw [firstYield_append, firstYield_one v own.ctn oc ho.2, firstYield_one v r.ctn rc hr.2, noName_iff v own.ctn oc.ctn ho.2, nameByConf_cons v oc [rc]]
          · intro hf e he
            simp only [allEntries, o2, p2, List.mem_append] at he
            rcases he with he | he
            · exact entries_usable v own oc ho (hf oc (by simp)) e he
            · exact entries_usable v r rc hr (hf rc (by simp)) e he
          · simp
        · rintro ⟨c, hc, d, h1⟩ hall
          simp at hc
          simp only [List.length_append, numEe]
          rcases hc with rfl | rfl
          · rcases h1 with h1 | h1
            · obtain ⟨y, hy⟩ := hall c (by simp) d h1
              have := List.length_pos_of_mem ((hl y).mpr ⟨d, h1, hy⟩)
              omega
            · have := len o c o4 ⟨d, h1⟩
              omega
          · rcases h1 with h1 | h1
            · obtain ⟨y, hy⟩ := hall c (by simp) d h1
              have := List.length_pos_of_mem ((hm y).mpr ⟨d, h1, hy⟩)
              omega
            · have := len p c p4 ⟨d, h1⟩
              omega
    | some (some r), none => exact hr.elim
    | none, some c => exact hr.elim
    | some none, some c => exact hr.elim

/-! ## Accepted clients -/

open Verif.TlsAuth

theorem eeLoop_in (lib : Lib) (peer c : Cert) (l : List (Option Cert)) (hn : none ∉ l) (hc : some c ∈ l) (hid : c.id = peer.id) : eeLoop lib peer l = .ok := by
  induction l with
  | nil => cases hc
  | cons o l ih =>
    cases o with
    | none => exact absurd List.mem_cons_self hn
    | some x =>
      simp only [eeLoop]
      split
      · rfl
      · rename_i hx
        rcases List.mem_cons.mp hc with h | h
        · cases h; exact absurd hid.symm hx
        · exact ih (fun h => hn (List.mem_cons_of_mem _ h)) h

theorem eeLoop_notNull (lib : Lib) (peer : Cert) (l : List (Option Cert)) (hn : none ∉ l) : eeLoop lib peer l = .ok ∨ eeLoop lib peer l = .fail := by
  induction l with
  | nil => exact .inr rfl
  | cons o l ih =>
    cases o with
    | none => exact absurd List.mem_cons_self hn
    | some x =>
      simp only [eeLoop]
      split
      · exact .inl rfl
      · exact ih (fun h => hn (List.mem_cons_of_mem _ h))

theorem verifyPeer_in (lib : Lib) (peer : Cert) (o : Endpt) (h : Configured o peer)
    (hn : ∀ l, (o.own.ee = some l ∨ ∃ r, o.ref = some (some r) ∧ r.ee = some l) → none ∉ l) : verifyPeer lib peer o = .ok := by
  obtain ⟨l, c, h1, h2, h3 | ⟨r, h3, h4⟩⟩ := h
  · have : peerIn lib peer o.own = .ok := by
      simp only [peerIn, h3]
      exact eeLoop_in lib peer c l (hn l (.inl h3)) h1 h2
    simp [verifyPeer, this]
  · have h5 : peerIn lib peer r = .ok := by
      simp only [peerIn, h4]
      exact eeLoop_in lib peer c l (hn l (.inr ⟨r, h3, h4⟩)) h1 h2
    cases he : o.own.ee with
    | none => simp [verifyPeer, peerIn, he, h3, h4] at h5 ⊢; rw [h5]
    | some l' =>
      rcases eeLoop_notNull lib peer l' (hn l' (.inl he)) with h6 | h6
      · simp [verifyPeer, peerIn, he, h6]
      · simp [verifyPeer, peerIn, he, h6, h3, h4] at h5 ⊢
        rw [h5]

theorem run_accepts (o : Endpt) (userOk : Text → Bool) (chain : List Cert) (peer : Cert) (u : Text) (hu : endptName o chain = .name u) (hk : userOk u = true)
    (configured : Prop) (hc : configured → verifyPeer .openssl peer o = .ok) (evs : List Ev) : ∀ s : Sess, (s.username = none ∨ s.username = some u) →
    (∀ ev ∈ evs, ev.depth = 0 → ev.cert = peer) → (∀ ev ∈ evs, GoodEv configured ev) → ∃ s', TlsAuth.run o userOk chain peer s evs = some s' := by
  induction evs with
  | nil => intro s _ _ _; exact ⟨s, rfl⟩
  | cons ev evs ih =>
    intro s hs hpeer hgood
    obtain ⟨hn, hg⟩ := hgood ev List.mem_cons_self
    have hp := hpeer ev List.mem_cons_self
    have hv : ∃ s1, cbVerify o userOk chain peer s ev = (s1, .ok) ∧ (s1.username = none ∨ s1.username = some u) := by
      have key : ∀ t, (ev.depth = 0 → t = true ∨ verifyPeer .openssl ev.cert o = .ok) →
          ∃ s1, verifyCert .openssl o userOk chain s ev.cert ev.depth ev.names t = (s1, .ok) ∧ (s1.username = none ∨ s1.username = some u) := by
        intro t ht
        unfold verifyCert
        rcases hs with hs | hs
        · simp only [hs, Option.isSome_none, Bool.false_eq_true, if_false, hn, Bool.true_eq_false]
          by_cases h0 : ev.depth = 0
          · simp only [h0, if_true]
            rcases ht h0 with rfl | hvp
            · simp [hu, hk]
            · simp [hvp, hu, hk]
          · rw [if_neg h0]
            exact ⟨s, rfl, .inl hs⟩
        · simp only [hs, Option.isSome_some, if_true]
          exact ⟨s, rfl, .inr hs⟩
      unfold cbVerify
      rcases hg with hg | ⟨h0, hcf, herr⟩
      · rw [if_pos hg]
        exact key true (fun _ => .inl rfl)
      · have hk2 := key false (fun _ => .inr (by rw [hp h0]; exact hc hcf))
        by_cases hpv : ev.preverify = true
        · rw [if_pos hpv]; exact key true (fun _ => .inl rfl)
        · rw [if_neg hpv]
          split
          · exact hk2
          · rename_i hx
            rcases herr with h | h | h | h
            · exact absurd ⟨h0, .inl h⟩ hx
            · exact absurd ⟨h0, .inr h⟩ hx
            · rw [if_pos (.inl h)]; exact hk2
            · rw [if_pos (.inr h)]; exact hk2
    obtain ⟨s1, h1, h2⟩ := hv
    simp only [TlsAuth.run, callback, h1]
    apply ih
    · split <;> exact h2
    · exact fun ev h => hpeer ev (List.mem_cons_of_mem _ h)
    · exact fun ev h => hgood ev (List.mem_cons_of_mem _ h)

theorem mRun_accepts (o : Endpt) (userOk : Text → Bool) (last : MEv) (u : Text) (hk : userOk u = true) (h0 : last.depth = 0) (hn : last.names = true)
    (hf : last.flags = noFlags ∨ (last.flags = ⟨true, false, false⟩ ∧ verifyPeer .mbedtls last.cert o = .ok)) (pre : List MEv) : ∀ chain : List Cert,
    (∀ ev ∈ pre, ev.depth > 0 ∧ ev.flags = noFlags ∧ ev.names = true) → endptName o (chain ++ (pre ++ [last]).map (·.cert)) = .name u →
    ∃ s, mRun o userOk chain ⟨none, none⟩ (pre ++ [last]) = some s := by
  induction pre with
  | nil =>
    intro chain _ hu
    have hu : endptName o (chain ++ [last.cert]) = .name u := hu
    simp only [List.nil_append, mRun]
    rcases hf with hf | ⟨hf, hv⟩
    · simp [mCallback, hf, verifyCert, hn, h0, hu, hk]
    · simp [mCallback, hf, verifyCert, hn, h0, hu, hk, hv, noFlags]
  | cons ev pre ih =>
    intro chain hpre hu
    obtain ⟨h1, h2, h3⟩ := hpre ev List.mem_cons_self
    have hne : ev.depth ≠ 0 := by omega
    have : mCallback o userOk (chain ++ [ev.cert]) ⟨none, none⟩ ev = some (⟨none, none⟩, noFlags) := by
      simp [mCallback, h2, verifyCert, h3, hne]
    simp only [List.cons_append, mRun, this, if_true]
    exact ih (chain ++ [ev.cert]) (fun e he => hpre e (List.mem_cons_of_mem _ he)) (by simpa using hu)

end Verif.TlsLogin
