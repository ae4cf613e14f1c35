import Verif.Lemmas.ServerId
import Verif.Props.TlsAuth

/-!
# Properties: the identity a client is shown, by the configuration (C225, C226)

The callbacks of the configuration for endpoints and the keystore, and what is done for every new connection, together.
-/

namespace Verif.Props
open Verif.ServerId
open Verif.ConfStore (Ks Map KeyConf upd)
open Verif.ConfTls (TlsConf TlsData Tls)
open Verif.ConfUsers (SshConf SshData HostConf Ssh)

/-! ## C225: TLS -/

/-- **C225.** Full statement (false, see `tls_identity_false`): after any data and diffs of the keystore and of an endpoint, TLS clients are shown exactly the
certificate and the key that the configuration has then, and are refused if it has none that can be read; invalid memory is never used. -/
def TlsIdentity (v : Vals) : Prop :=
  ∀ (ks : Ks) (kc : Map KeyConf) (s : Tls) (c : TlsConf), KsSetUp ks kc → TlsSetUp v.spki s c → loadServer v ks s.id ≠ .ub ∧
    ∀ x k, loadServer v ks s.id = .shown x k ↔ ∃ f p d, TlsIdIs kc c.id f p d ∧ v.cert d = some x ∧ v.pkey f p = some k

/-- **C225.** Proved for diffs without the changes that are not followed. -/
theorem tls_identity_partial (v : Vals) (ks : Ks) (kc : Map KeyConf) (s : Tls) (c : TlsConf) (hk : KsSafe ks kc) (hs : TlsSafe v.spki s c) :
    loadServer v ks s.id ≠ .ub ∧
    ∀ x k, loadServer v ks s.id = .shown x k ↔ ∃ f p d, TlsIdIs kc c.id f p d ∧ v.cert d = some x ∧ v.pkey f p = some k :=
  loadServer_as v ks kc (ksSafe_as ks kc hk) s.id c.id (tlsSafe_as v.spki s c hs).1

/-- Base64 texts below 256 are certificates and keys, in every format; files are texts of a key with its format; the type of an SSH key is the last digit. -/
def idVals : Vals := ⟨fun d => if d < 256 then some (exCert d "/CN=s" []) else none, fun f p => if p < 256 then some (10 * p + f) else none, fun f p => 10 * p + f,
  fun k => if k < 2560 then some (k % 10) else none, fun d => d == 99⟩

/-- The certificate and the key shown. -/
def shownOf : Out → Option (Nat × Nat)
  | .shown x k => some (x.id, k)
  | _ => none

/-- What is shown after data and diffs of the keystore and an endpoint. -/
def idAfter (l : List (Nat × ConfStore.KeyData)) (kds : List ConfStore.KsDiff) (d : TlsData) (ds : List ConfTls.TlsDiff) : Option (Nat × Nat) :=
  match ConfStore.setupKs (some (ConfStore.ksDataTree l)) ⟨[]⟩ with
  | .ok s1 =>
    match ConfStore.diffsKs (kds.map ConfStore.ksTree) s1, ConfTls.run idVals.spki d.tree (ds.map ConfTls.tlsTree) with
    | .ok ks, .ok s => shownOf (loadServer idVals ks s.id)
    | _, _ => none
  | _ => none

/-- A key of the keystore with two certificates. -/
def idKeys : List (Nat × ConfStore.KeyData) := [(1, ⟨some 1, some 99, 2, 40, [(7, 41), (8, 42)]⟩)]

example : idAfter idKeys [] (oneId (.ref 1 8)) [] = some (42, 402) := by decide +kernel

/-- The private key is replaced in the keystore; the endpoint shows the new one. -/
example : idAfter idKeys [.edit [.change 1 ⟨.keep, .keep, none, some 50, []⟩]] (oneId (.ref 1 8)) [] = some (42, 502) := by decide +kernel

/-- The certificate is removed from the keystore: clients are refused. -/
example : idAfter idKeys [.edit [.change 1 ⟨.keep, .keep, none, none, [.delete 8 []]⟩]] (oneId (.ref 1 8)) [] = none := by decide +kernel

/-- Another certificate of the key is chosen. -/
example : idAfter idKeys [] (oneId (.ref 1 8)) [idDiff (.reref none (some 7))] = some (41, 402) := by decide +kernel

/-- **C225, false in general.** The certificate of the endpoint is removed by a diff; clients are still shown it. -/
theorem tls_identity_false : ¬ TlsIdentity { idVals with spki := allSpki } := by
  intro h
  have hrun : ConfTls.run allSpki (oneId (.inline none (some 4) 0 5 (some 6))).tree
      ([idDiff (.leaves .keep .keep none none (.delete 6))].map ConfTls.tlsTree) = .ok ⟨⟨.local, .num 0, some 4, 0, some 5, some 6⟩, ConfTls.newGrp, ConfTls.newGrp, 0⟩ := by
    decide +kernel
  have hs : TlsSetUp allSpki ⟨⟨.local, .num 0, some 4, 0, some 5, some 6⟩, ConfTls.newGrp, ConfTls.newGrp, 0⟩ ⟨.inline none (some 4) 0 5 none, none, fun _ => false⟩ :=
    ⟨oneId (.inline none (some 4) 0 5 (some 6)), [idDiff (.leaves .keep .keep none none (.delete 6))], _, rfl, rfl, hrun⟩
  have hk : KsSetUp ⟨[]⟩ (fun _ => none) := ⟨⟨[]⟩, ⟨[]⟩, [], [], fun _ => none, rfl, rfl, rfl, rfl⟩
  obtain ⟨f, p, d, hh, -⟩ := ((h _ _ _ _ hk hs).2 (exCert 6 "/CN=s" []) 50).1 rfl
  cases hh

/-! ## C226: SSH -/

/-- **C226.** Full statement (false, see `ssh_identity_false` and `ssh_identity_ub`): after any data and diffs of the keystore and of an endpoint, an SSH client is
shown configured host keys only, and all of them, each under its type; invalid memory is never used. -/
def SshIdentity (v : Vals) : Prop :=
  ∀ (ks : Ks) (kc : Map KeyConf) (s : Ssh) (c : SshConf) (e : Nat → HostKeys.Env) (fs : List HostKeys.File) (um : BitVec 9), KsSetUp ks kc → SshSetUp v.spki s c →
    ∃ ok s', bind v ks e 0 s.hostKeys ⟨fs, um, fun _ => none⟩ = some (ok, s') ∧
      (ok = true → ∀ t k, s'.slots t = some k ↔ ∃ n hc f p, c.hosts n = some hc ∧ HostIs v kc hc f p ∧ k = v.file f p ∧ v.host k = some t) ∧
      (EnvGood e → (∀ n hc, c.hosts n = some hc → ∃ f p t, HostIs v kc hc f p ∧ v.host (v.file f p) = some t) → ok = true)

/-- **C226.** Proved for diffs without the changes that are not followed: an SSH client is shown configured host keys only; for every host key one of its type is
shown, and it is itself if no other has its type; clients are refused exactly if a host key cannot be used or a temporary file cannot be written. -/
theorem ssh_identity_partial (v : Vals) (ks : Ks) (kc : Map KeyConf) (s : Ssh) (c : SshConf) (e : Nat → HostKeys.Env) (fs : List HostKeys.File) (um : BitVec 9)
    (hk : KsSafe ks kc) (hs : SshSafe v.spki s c) :
    ∃ ok s', bind v ks e 0 s.hostKeys ⟨fs, um, fun _ => none⟩ = some (ok, s') ∧
      (ok = true → ∀ t k, s'.slots t = some k → ∃ n hc f p, c.hosts n = some hc ∧ HostIs v kc hc f p ∧ k = v.file f p ∧ v.host k = some t) ∧
      (ok = true → ∀ n hc, c.hosts n = some hc → ∃ f p t k, HostIs v kc hc f p ∧ v.host (v.file f p) = some t ∧ s'.slots t = some k ∧
        ((∀ m hm f' p', c.hosts m = some hm → HostIs v kc hm f' p' → v.host (v.file f' p') = some t → v.file f' p' = v.file f p) → k = v.file f p)) ∧
      (EnvGood e → (∀ n hc, c.hosts n = some hc → ∃ f p t, HostIs v kc hc f p ∧ v.host (v.file f p) = some t) → ok = true) := by
  have hK := ksSafe_as ks kc hk
  have hH := (sshSafe_as v.spki s c hs).1
  have key : ∀ h ∈ s.hostKeys, ∃ hc g, c.hosts h.name = some hc ∧ hostKey v h = some g ∧
      ∀ k, HostKeys.privOf (storeKeys v ks) g = some (some k) ↔ ∃ f p, HostIs v kc hc f p ∧ k = v.file f p := by
    intro h hh
    obtain ⟨hc, h1, h2⟩ := Login.holds_mem _ _ _ _ hH h hh
    obtain ⟨g, h3, h4⟩ := privOf_as v ks kc hK h hc h2
    exact ⟨hc, g, h1, h3, h4⟩
  have hg : ∀ h ∈ s.hostKeys, hostKey v h = some ((hostKey v h).getD (.stored none)) := by
    intro h hh
    obtain ⟨-, g, -, h3, -⟩ := key h hh
    rw [h3]; rfl
  have heq := bind_eq v ks e (fun h => (hostKey v h).getD (.stored none)) s.hostKeys 0 ⟨fs, um, fun _ => none⟩ hg
  refine ⟨_, _, heq, fun hok t k hsl => ?_, fun hok n hc hn => ?_, fun he hu => ?_⟩
  · obtain ⟨l, hl, hl2⟩ := hostkeys_set_partial v.host (storeKeys v ks) e _ 0 _ _ (Prod.ext hok rfl)
    rw [hl2 t] at hsl
    simp only [Option.or_none] at hsl
    have hm := List.mem_of_getLast? hsl
    rw [List.mem_filter] at hm
    obtain ⟨g, hgm, hp⟩ := ((mem_privKeys v.host (storeKeys v ks) _ l hl).1 k).1 hm.1
    obtain ⟨h, hh, rfl⟩ := List.mem_map.1 hgm
    obtain ⟨hc, g', h1, h2, h3⟩ := key h hh
    rw [h2] at hp
    obtain ⟨f, p, h4, h5⟩ := (h3 k).1 hp
    exact ⟨h.name, hc, f, p, h1, h4, h5, by simpa using hm.2⟩
  · obtain ⟨l, hl, hl2⟩ := hostkeys_set_partial v.host (storeKeys v ks) e _ 0 _ _ (Prod.ext hok rfl)
    obtain ⟨h, hh, hname, -, -⟩ := Login.holds_find _ _ _ _ hH n hc hn
    obtain ⟨hc', g, h1, h2, h3⟩ := key h hh
    rw [hname, hn] at h1
    cases h1
    have hmem : g ∈ s.hostKeys.map (fun h => (hostKey v h).getD (.stored none)) := List.mem_map.2 ⟨h, hh, by rw [h2]; rfl⟩
    obtain ⟨m1, m2⟩ := mem_privKeys v.host (storeKeys v ks) _ l hl
    obtain ⟨k, t, hp, ht⟩ := m2 g hmem
    obtain ⟨f, p, hf, rfl⟩ := (h3 k).1 hp
    have hkl : v.file f p ∈ l.filter (fun k => v.host k == some t) := List.mem_filter.2 ⟨(m1 _).2 ⟨g, hmem, hp⟩, by simp [ht]⟩
    cases hgl : (l.filter (fun k => v.host k == some t)).getLast? with
    | none => rw [List.getLast?_eq_none_iff] at hgl; rw [hgl] at hkl; cases hkl
    | some k' =>
      refine ⟨f, p, t, k', hf, ht, by rw [hl2 t, hgl]; rfl, fun huniq => ?_⟩
      have hk' := List.mem_of_getLast? hgl
      rw [List.mem_filter] at hk'
      obtain ⟨g', hg', hp'⟩ := (m1 k').1 hk'.1
      obtain ⟨h', hh', rfl⟩ := List.mem_map.1 hg'
      obtain ⟨hc', g2, q1, q2, q3⟩ := key h' hh'
      rw [q2] at hp'
      obtain ⟨f', p', q4, rfl⟩ := (q3 k').1 hp'
      exact huniq _ _ _ _ q1 q4 (by simpa using hk'.2)
  · obtain ⟨l, hl⟩ := privKeys_all v.host (storeKeys v ks) (s.hostKeys.map (fun h => (hostKey v h).getD (.stored none))) (fun g hgm => by
      obtain ⟨h, hh, rfl⟩ := List.mem_map.1 hgm
      obtain ⟨hc, g', h1, h2, h3⟩ := key h hh
      obtain ⟨f, p, t, u1, u2⟩ := hu _ _ h1
      rw [h2]
      exact ⟨_, t, (h3 _).2 ⟨f, p, u1, rfl⟩, u2⟩)
    exact hostkeys_accepted v.host (storeKeys v ks) e he _ 0 _ l hl

/-- The keys of types 0, 1 and 2 shown to SSH clients after data and diffs of the keystore and an endpoint. -/
def keysAfter (l : List (Nat × ConfStore.KeyData)) (kds : List ConfStore.KsDiff) (d : SshData) (ds : List ConfUsers.SshDiff) : Option (Bool × List (Option Nat)) :=
  match ConfStore.setupKs (some (ConfStore.ksDataTree l)) ⟨[]⟩ with
  | .ok s1 =>
    match ConfStore.diffsKs (kds.map ConfStore.ksTree) s1, ConfUsers.run idVals.spki d.tree (ds.map ConfUsers.sshTree) with
    | .ok ks, .ok s => (bind idVals ks keysGood 0 s.hostKeys ⟨[], 0o22#9, fun _ => none⟩).map fun r => (r.1, [r.2.slots 0, r.2.slots 1, r.2.slots 2])
    | _, _ => none
  | _ => none

/-- A host key of its own and one of the keystore. -/
def idHosts : SshData := ⟨[(1, .inline none none 0 30), (2, .ref 1)], []⟩

example : keysAfter [(1, ⟨none, none, 2, 40, []⟩)] [] idHosts [] = some (true, [some 300, none, some 402]) := by decide +kernel

/-- The keystore gets another key, the endpoint loses its own one. -/
example : keysAfter [(1, ⟨none, none, 2, 40, []⟩)] [.edit [.change 1 ⟨.keep, .keep, some 1, some 50, []⟩]] idHosts [⟨[.delete 1 []], []⟩] =
    some (true, [none, some 501, none]) := by decide +kernel

/-- The key of the keystore is for TLS only, or it was removed: clients are refused. -/
example : [keysAfter idKeys [] idHosts [], keysAfter idKeys [.clearKeys []] idHosts []].map (Option.map Prod.fst) = [some false, some false] := by decide +kernel

/-- **C226, false in general.** Of two configured host keys of one type only one is shown. -/
theorem ssh_identity_false : ¬ SshIdentity { idVals with spki := noSpki } := by
  intro h
  let d : SshData := ⟨[(1, .inline none none 0 30), (2, .inline none none 0 31)], []⟩
  have hrun : ConfUsers.run noSpki d.tree [] = .ok ⟨[⟨1, .local, none, 0, none, 0, some 30⟩, ⟨2, .local, none, 0, none, 0, some 31⟩], []⟩ := by decide +kernel
  have hs : SshSetUp noSpki ⟨[⟨1, .local, none, 0, none, 0, some 30⟩, ⟨2, .local, none, 0, none, 0, some 31⟩], []⟩
      ⟨upd (upd (fun _ => none) 1 (some (.inline none none 0 30))) 2 (some (.inline none none 0 31)), fun _ => none⟩ := ⟨d, [], _, rfl, rfl, hrun⟩
  have hk : KsSetUp ⟨[]⟩ (fun _ => none) := ⟨⟨[]⟩, ⟨[]⟩, [], [], fun _ => none, rfl, rfl, rfl, rfl⟩
  obtain ⟨ok, s', h1, h2, -⟩ := h _ _ _ _ keysGood [] 0o22#9 hk hs
  have h0 : (bind { idVals with spki := noSpki } ⟨[]⟩ keysGood 0 [⟨1, .local, none, 0, none, 0, some 30⟩, ⟨2, .local, none, 0, none, 0, some 31⟩]
      ⟨[], 0o22#9, fun _ => none⟩).map (fun r => (r.1, r.2.slots 0)) = some (true, some 310) := by decide +kernel
  rw [h1] at h0
  simp only [Option.map_some, Option.some.injEq, Prod.mk.injEq] at h0
  have := (h2 h0.1 0 300).2 ⟨1, _, 0, 30, rfl, .inline none none 0 30, rfl, rfl⟩
  rw [h0.2] at this
  cases this

/-- **C226, false in general.** A key instead of a reference to the keystore, by a diff: `strcmp` is called with NULL for every connection from then on. -/
theorem ssh_identity_ub : ∃ (s : Ssh) (c : SshConf), SshSetUp noSpki s c ∧ c.hosts 1 = some (.inline none none 0 9) ∧
    ∀ (v : Vals) (ks : Ks) (e : Nat → HostKeys.Env) (st : HostKeys.St), bind v ks e 0 s.hostKeys st = none :=
  ⟨⟨[⟨1, .keystore, none, 0, none, 0, some 9⟩], []⟩, _, ⟨⟨[(1, .ref 5)], []⟩, [⟨[.change 1 (.toInline 5 none none 0 9)], []⟩], _, rfl, rfl, by decide +kernel⟩, rfl,
    fun _ _ _ _ => rfl⟩

end Verif.Props
