import Verif.Spec.ServerId
import Verif.Lemmas.Login
import Verif.Props.ConfStore
import Verif.Props.ConfTls
import Verif.Props.HostKeys

/-! # Lemmas about the identity of the server -/

namespace Verif.ServerId
open Verif.ConfStore
open Verif.ConfTls (IdConf Ident TlsConf TlsAs ShownAs)
open Verif.ConfUsers (HostConf HostAs SshAs SshConf Ssh)
open Verif.Login (holds_mem holds_find)

theorem ksSafe_as (s : Ks) (c : Map KeyConf) (h : KsSafe s c) : HoldsKs s c := by
  obtain ⟨s0, s1, l, ds, c0, h1, h2, hno, h3, h4⟩ := h
  obtain ⟨s1', g1, g2⟩ := Props.keystore_setup s0 l c0 h1
  rw [h3] at g1
  cases g1
  obtain ⟨s2, k1, k2⟩ := Props.keystore_follows_diffs_partial s1 c0 ds c g2 hno h2
  rw [h4] at k1
  cases k1
  exact k2

theorem tlsSafe_as (spki : Nat → Bool) (s : ConfTls.Tls) (c : TlsConf) (h : TlsSafe spki s c) : TlsAs s c := by
  obtain ⟨d, ds, c0, h1, h2, h3⟩ := h
  obtain ⟨s', g1, g2⟩ := Props.tls_follows_diffs_partial spki d ds c0 c h1 h2
  rw [h3] at g1
  cases g1
  exact g2

theorem sshSafe_as (spki : Nat → Bool) (s : Ssh) (c : SshConf) (h : SshSafe spki s c) : SshAs s c := by
  obtain ⟨d, ds, c0, h1, h2, h3⟩ := h
  obtain ⟨s', g1, g2⟩ := Props.ssh_follows_diffs_partial spki d ds c0 c h1 h2
  rw [h3] at g1
  cases g1
  exact g2

/-- The key and certificate found in the keystore are the configured ones. -/
theorem ksCertKey_as (ks : Ks) (kc : Map KeyConf) (h : HoldsKs ks kc) (k c : Nat) (t : Nat) (p d : Option Nat) :
    ksCertKey ks k c = some (t, p, d) ↔ ∃ pd dd, p = some pd ∧ d = some dd ∧ TlsIdIs kc (.ref k c) t pd dd := by
  unfold ksCertKey
  have hk := h.2 k
  cases hf : ks.keys.find? (fun a => a.name == k) with
  | none =>
    rw [hf] at hk
    cases hm : kc k with
    | some y => rw [hm] at hk; exact hk.elim
    | none =>
      constructor
      · intro h; cases h
      · rintro ⟨pd, dd, -, -, hh⟩
        cases hh with
        | ref _ _ _ key hk' hc => rw [hm] at hk'; cases hk'
  | some a =>
    rw [hf] at hk
    cases hm : kc k with
    | none => rw [hm] at hk; exact hk.elim
    | some key =>
      rw [hm] at hk
      obtain ⟨-, -, h1, h2, h3⟩ := hk
      have hc := h3.2 c
      dsimp only
      cases hg : a.certs.find? (fun x => x.name == c) with
      | none =>
        rw [hg] at hc
        cases hn : key.certs c with
        | some y => rw [hn] at hc; exact hc.elim
        | none =>
          constructor
          · intro h; cases h
          · rintro ⟨pd, dd, -, -, hh⟩
            cases hh with
            | ref _ _ _ key' hk' hc' => rw [hm] at hk'; cases hk'; rw [hn] at hc'; cases hc'
      | some x =>
        rw [hg] at hc
        cases hn : key.certs c with
        | none => rw [hn] at hc; exact hc.elim
        | some dd =>
          rw [hn] at hc
          have hc : x.data = some dd := hc
          constructor
          · intro h
            simp only [Option.some.injEq, Prod.mk.injEq] at h
            obtain ⟨rfl, rfl, rfl⟩ := h
            exact ⟨key.priv, dd, h2, hc, h1 ▸ .ref k c dd key hm hn⟩
          · rintro ⟨pd, dd', rfl, rfl, hh⟩
            cases hh with
            | ref _ _ _ key' hk' hc' =>
              rw [hm] at hk'
              cases hk'
              rw [hn] at hc'
              cases hc'
              simp [h1, h2, hc]

theorem load_shown (v : Vals) (t : Nat) (p d : Option Nat) (x : TlsAuth.Cert) (k : Nat) :
    load v t p d = .shown x k ↔ ∃ pd dd, p = some pd ∧ d = some dd ∧ v.cert dd = some x ∧ v.pkey t pd = some k := by
  unfold load
  cases d with
  | none => simp
  | some dd =>
    cases p with
    | none => simp
    | some pd =>
      dsimp only
      cases hc : v.cert dd with
      | none => simp [hc]
      | some y =>
        cases hk : v.pkey t pd with
        | none => simp [hc, hk]
        | some q => simp [hc, hk]

theorem load_ub (v : Vals) (t : Nat) (p d : Option Nat) : load v t p d ≠ .ub := by
  unfold load
  repeat' split
  all_goals exact Out.noConfusion

theorem loadServer_as (v : Vals) (ks : Ks) (kc : Map KeyConf) (h : HoldsKs ks kc) (i : Ident) (ic : IdConf) (hi : ShownAs i.shown ic) :
    loadServer v ks i ≠ .ub ∧ ∀ x k, loadServer v ks i = .shown x k ↔ ∃ f p d, TlsIdIs kc ic f p d ∧ v.cert d = some x ∧ v.pkey f p = some k := by
  unfold loadServer
  cases ic with
  | inline f p pf pd c =>
    have hi : i.shown = some (.own pf (some pd) c) := hi
    rw [hi]
    refine ⟨load_ub _ _ _ _, fun x k => ?_⟩
    dsimp only
    rw [load_shown]
    constructor
    · rintro ⟨pd', dd, h1, rfl, h3, h4⟩
      cases h1
      exact ⟨pf, pd, dd, .inline f p pf pd dd, h3, h4⟩
    · rintro ⟨_, _, _, hh, h3, h4⟩
      cases hh
      exact ⟨_, _, rfl, rfl, h3, h4⟩
  | ref a b =>
    have hi : i.shown = some (.ref a b) := hi
    rw [hi]
    dsimp only
    cases hg : ksCertKey ks a b with
    | none =>
      refine ⟨Out.noConfusion, fun x k => ⟨fun h => (Out.noConfusion h), ?_⟩⟩
      rintro ⟨f, p, d, hh, -, -⟩
      have := (ksCertKey_as ks kc h a b f (some p) (some d)).2 ⟨p, d, rfl, rfl, hh⟩
      rw [hg] at this
      cases this
    | some q =>
      obtain ⟨t, p, d⟩ := q
      obtain ⟨pd, dd, rfl, rfl, hid⟩ := (ksCertKey_as ks kc h a b t p d).1 hg
      refine ⟨load_ub _ _ _ _, fun x k => ?_⟩
      dsimp only
      rw [load_shown]
      constructor
      · rintro ⟨pd', dd', h1, h2, h3, h4⟩
        cases h1
        cases h2
        exact ⟨t, pd, dd, hid, h3, h4⟩
      · rintro ⟨f, p, d, hh, h3, h4⟩
        have := (ksCertKey_as ks kc h a b f (some p) (some d)).2 ⟨p, d, rfl, rfl, hh⟩
        rw [hg] at this
        cases this
        exact ⟨_, _, rfl, rfl, h3, h4⟩

/-! ## SSH -/

/-- The private key of a host key in memory is the configured one. -/
theorem privOf_as (v : Vals) (ks : Ks) (kc : Map KeyConf) (h : HoldsKs ks kc) (hk : ConfUsers.HostKey) (hc : HostConf) (ha : HostAs hk hc) :
    ∃ g, hostKey v hk = some g ∧ ∀ k, HostKeys.privOf (storeKeys v ks) g = some (some k) ↔ ∃ f p, HostIs v kc hc f p ∧ k = v.file f p := by
  cases hc with
  | inline f p pf pd =>
    have ha : hk.priv = some (.inl (pf, some pd)) := ha
    refine ⟨.stored (some (v.file pf pd)), by simp [hostKey, ha], fun k => ?_⟩
    simp only [HostKeys.privOf, Option.some.injEq]
    constructor
    · rintro rfl; exact ⟨pf, pd, .inline f p pf pd, rfl⟩
    · rintro ⟨f', p', hh, rfl⟩; cases hh; rfl
  | ref n =>
    have ha : hk.priv = some (.inr n) := ha
    refine ⟨.ref n, by simp [hostKey, ha], fun k => ?_⟩
    have hn := h.2 n
    have hfind : (storeKeys v ks).find? (fun x => x.name == n) =
        (ks.keys.find? (fun a => a.name == n)).map fun a => ⟨a.name, a.privData.map (v.file a.privType), a.pubData.any v.spki⟩ := by
      unfold storeKeys
      rw [List.find?_map]
      rfl
    simp only [HostKeys.privOf, HostKeys.storeKey, hfind]
    cases hf : ks.keys.find? (fun a => a.name == n) with
    | none =>
      rw [hf] at hn
      cases hm : kc n with
      | some y => rw [hm] at hn; exact hn.elim
      | none =>
        constructor
        · intro h; cases h
        · rintro ⟨f, p, hh, -⟩
          cases hh with
          | ref _ key hk' _ => rw [hm] at hk'; cases hk'
    | some a =>
      rw [hf] at hn
      cases hm : kc n with
      | none => rw [hm] at hn; exact hn.elim
      | some key =>
        rw [hm] at hn
        obtain ⟨-, h0, h1, h2, -⟩ := hn
        simp only [Option.map_some, h0, h1, h2]
        by_cases hs : key.pub.any v.spki = true
        · rw [if_pos hs]
          constructor
          · intro h; cases h
          · rintro ⟨f, p, hh, -⟩
            cases hh with
            | ref _ key' hk' hsp =>
              rw [hm] at hk'
              cases hk'
              cases hp : key.pub with
              | none => rw [hp] at hs; cases hs
              | some d => rw [hp] at hs; have := hsp d hp; simp [this] at hs
        · rw [if_neg hs]
          simp only [Option.map_some, Option.some.injEq]
          constructor
          · rintro rfl
            refine ⟨_, _, .ref n key hm (fun d hd => ?_), rfl⟩
            rw [hd] at hs
            simpa using hs
          · rintro ⟨f, p, hh, rfl⟩
            cases hh with
            | ref _ key' hk' hsp => rw [hm] at hk'; cases hk'; rfl

/-- Nothing but the known names is used, so the keys are given to libssh one after the other. -/
theorem bind_eq (v : Vals) (ks : Ks) (e : Nat → HostKeys.Env) (g : ConfUsers.HostKey → HostKeys.HostKey) : ∀ (hs : List ConfUsers.HostKey) (i : Nat) (s : HostKeys.St),
    (∀ h ∈ hs, hostKey v h = some (g h)) → bind v ks e i hs s = some (HostKeys.addKeys v.host (storeKeys v ks) e i (hs.map g) s)
  | [], i, s, _ => rfl
  | h :: hs, i, s, hg => by
    rw [bind, hg h (by simp), List.map_cons, HostKeys.addKeys]
    dsimp only
    cases ho : HostKeys.addOne v.host (storeKeys v ks) (e i) (g h) s with
    | mk b s1 =>
      cases b
      · rfl
      · exact bind_eq v ks e g hs (i + 1) s1 (fun x hx => hg x (by simp [hx]))

theorem mem_privKeys (typeOf : Nat → Option Nat) (ks : List HostKeys.StoreKey) : ∀ (hs : List HostKeys.HostKey) (l : List Nat),
    Props.privKeys typeOf ks hs = some l → (∀ k, k ∈ l ↔ ∃ h ∈ hs, HostKeys.privOf ks h = some (some k)) ∧
      ∀ h ∈ hs, ∃ k t, HostKeys.privOf ks h = some (some k) ∧ typeOf k = some t
  | [], l, h => by
    cases h
    exact ⟨fun k => by simp, fun h hh => by cases hh⟩
  | h :: hs, l, hl => by
    obtain ⟨k, t, l', h1, h2, h3, rfl⟩ := Props.privKeys_uncons typeOf ks h hs l hl
    obtain ⟨a, b⟩ := mem_privKeys typeOf ks hs l' h3
    refine ⟨fun x => ?_, fun x hx => ?_⟩
    · simp only [List.mem_cons, a x]
      constructor
      · rintro (rfl | ⟨y, hy, hp⟩)
        · exact ⟨h, .inl rfl, h1⟩
        · exact ⟨y, .inr hy, hp⟩
      · rintro ⟨y, rfl | hy, hp⟩
        · rw [h1] at hp; cases hp; exact .inl rfl
        · exact .inr ⟨y, hy, hp⟩
    · rcases List.mem_cons.1 hx with rfl | hx
      · exact ⟨k, t, h1, h2⟩
      · exact b x hx

theorem privKeys_all (typeOf : Nat → Option Nat) (ks : List HostKeys.StoreKey) : ∀ (hs : List HostKeys.HostKey),
    (∀ h ∈ hs, ∃ k t, HostKeys.privOf ks h = some (some k) ∧ typeOf k = some t) → ∃ l, Props.privKeys typeOf ks hs = some l
  | [], _ => ⟨[], rfl⟩
  | h :: hs, hh => by
    obtain ⟨k, t, h1, h2⟩ := hh h (by simp)
    obtain ⟨l, hl⟩ := privKeys_all typeOf ks hs (fun x hx => hh x (by simp [hx]))
    exact ⟨k :: l, by rw [Props.privKeys_cons typeOf ks h hs k h1 (by simp [h2]), hl]; rfl⟩

end Verif.ServerId
