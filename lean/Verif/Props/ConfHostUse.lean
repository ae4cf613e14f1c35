import Verif.Lemmas.ConfHostUse
import Verif.Props.ConfStoreUse

/-!
# Properties: an SSH endpoint configured by functions, with its host keys, its users and the stores (C248)
-/

namespace Verif.Props
open Verif.ConfUtil (Text Schema Config)
open Verif.ConfHostUse
open Verif.ConfStoreUse (Store stores others fmtNo tsTreeOf ksTreeOf)
open Verif.ConfStore (Ts Ks setupTs setupKs)
open Verif.ConfTlsUse (privFormats)
open Verif.ServerId (EnvGood)

/-- The application configured the SSH endpoint `e` and the stores, by calls in any order that all succeeded; every key of the keystore was given, and each host
key has keys or a reference to the keystore. -/
structure SshMade (v : Login.Vals) (C : Text → Nat) (S : Schema) (e : Text) (cs : List (ConfStoreUse.Call ⊕ (Call ⊕ ConfUserUse.Call))) (cfg : Config) : Prop where
  texts : TextsDiffer v
  codes : ∀ t, v.text (C t) = t
  name : '\'' ∉ e
  good : (∀ c ∈ stores cs, c.good) ∧ ∀ c ∈ others cs, goodCall c
  files : HostsFromFiles v.spki C (forHosts (others cs)) ∧ ConfUserUse.SshKeys v C (forUsers (others cs)) ∧ ConfStoreUse.KeysFromFiles (stores cs)
  built : ConfStoreUse.build (run S e) S cs none = (true, cfg)
  ids : ∀ h w, wanted (forHosts (others cs)) h = some w → w.isSome
  paired : (ConfStoreUse.wanted (stores cs)).paired

theorem SshMade.back {v : Login.Vals} {C : Text → Nat} {S : Schema} {e : Text} {cs : List (ConfStoreUse.Call ⊕ (Call ⊕ ConfUserUse.Call))} {cfg : Config}
    (h : SshMade v C S e cs cfg) (n : Nat) : C (v.text n) = n := h.texts _ _ (h.codes _)

theorem SshMade.inv {v : Login.Vals} {C : Text → Nat} {S : Schema} {e : Text} {cs : List (ConfStoreUse.Call ⊕ (Call ⊕ ConfUserUse.Call))} {cfg : Config}
    (h : SshMade v C S e cs cfg) : ConfStoreUse.Inv (cfg.getD []) (ConfStoreUse.wanted (stores cs)) ∧ Both e (cfg.getD []) (others cs) :=
  ConfStoreUse.inv_build (off S e h.name) (kept S e h.name) S cs [] [] none cfg h.good.1 h.good.2 ConfStoreUse.inv_nil (both_nil e) h.built

theorem host_is {v : Login.Vals} {C : Text → Nat} (hC : ∀ t, v.text (C t) = t) (iv : ServerId.Vals) (st : Store) (w : Where) (f p : Nat) :
    ServerId.HostIs iv (st.ks C v.text) (confOf C w) f p ↔ ∃ sf sp, KeyIs iv.spki C st w sf sp ∧ f = fmtNo privFormats sf ∧ p = C sp := by
  cases w with
  | inline pub sfmt priv =>
    constructor
    · intro h
      cases h
      exact ⟨sfmt, priv, .inline _ _ _, rfl, rfl⟩
    · rintro ⟨sf, sp, h, rfl, rfl⟩
      cases h
      exact .inline _ _ _ _
  | keystore k =>
    constructor
    · intro h
      obtain - | ⟨_, key, hk, hs⟩ := h
      simp only [Store.ks, hC] at hk
      obtain ⟨y, hy, hy'⟩ := Option.bind_eq_some_iff.mp hk
      obtain ⟨pr, hpr, rfl⟩ := Option.map_eq_some_iff.mp hy'
      exact ⟨pr.sfmt, pr.priv, .stored k y pr hy hpr (hs _ rfl), rfl, rfl⟩
    · rintro ⟨sf, sp, h, rfl, rfl⟩
      obtain - | ⟨_, y, pr, hy, hpr, hs⟩ := h
      refine .ref (C k) ⟨some (fmtNo ConfStoreUse.pubFormats pr.pfmt), some (C pr.pub), fmtNo privFormats pr.sfmt, C pr.priv,
        fun c => (y.certs (v.text c)).map C⟩ ?_ ?_
      · simp only [Store.ks, hC, hy, hpr, Option.bind_some, Option.map_some]
      · intro d hd
        cases hd
        exact hs

/-- **C248.** Whatever host keys and users of an SSH endpoint and whatever keys and bags of the stores were added and deleted by the functions for them, in any
order: with the data the server is set up, and users log in as the calls say, also with the public keys given for the bags of the truststore that they refer to. -/
theorem ssh_functions_login (v : Login.Vals) (C : Text → Nat) (S : Schema) (e : Text) (cs : List (ConfStoreUse.Call ⊕ (Call ⊕ ConfUserUse.Call))) (cfg : Config)
    (h : SshMade v C S e cs cfg) (env : SshAuth.Env) (s0 : Ts) (k0 : Ks) :
    ∃ ts ks s o, setupTs (tsTreeOf C (cfg.getD [])) s0 = .ok ts ∧ setupKs (ksTreeOf C (cfg.getD [])) k0 = .ok ks ∧
      ConfUsers.run v.spki (sshTreeOf C e (cfg.getD [])) [] = .ok s ∧ Login.opts v ts [s] = some o ∧
      LogsInAsWanted v env ((ConfStoreUse.wanted (stores cs)).ts C v.text) C o (ConfUserUse.wanted (forUsers (others cs))) := by
  obtain ⟨h1, h2, h3⟩ := h.inv
  obtain ⟨ts, g1, g2⟩ := h1.tsSetUp h.codes h.back s0
  obtain ⟨ks, g3, -⟩ := h1.ksSetUp h.paired (ConfStoreUse.known_wanted (stores cs) [] known_nil h.files.2.2) h.codes h.back k0
  obtain ⟨l, g4, g5⟩ := h2.conf h.codes h.back h.files.1 h.ids
  obtain ⟨s, o, g6, g7, g8⟩ := users_login_data v h.texts C h.codes env ts _ g2 e _ (cfg.getD []) h3 h.files.2.1 l _ g5
  rw [g4] at g6
  exact ⟨ts, ks, s, o, g1, g3, g6, g7, g8⟩

/-- **C248.** Full statement (false, see `ssh_functions_identity_false`): SSH clients are shown exactly the host keys given by the calls. -/
def SshFunctionsIdentity (v : Login.Vals) (C : Text → Nat) (iv : ServerId.Vals) : Prop :=
  ∀ (S : Schema) (e : Text) (cs : List (ConfStoreUse.Call ⊕ (Call ⊕ ConfUserUse.Call))) (cfg : Config), SshMade v C S e cs cfg →
    ∀ (k0 ks : Ks) (s : ConfUsers.Ssh), setupKs (ksTreeOf C (cfg.getD [])) k0 = .ok ks → ConfUsers.run v.spki (sshTreeOf C e (cfg.getD [])) [] = .ok s →
    ∀ (env : Nat → HostKeys.Env) (fs : List HostKeys.File) (um : BitVec 9), ∃ ok s', ServerId.bind iv ks env 0 s.hostKeys ⟨fs, um, fun _ => none⟩ = some (ok, s') ∧
      (ok = true → ∀ t k, s'.slots t = some k ↔ ∃ h w f p, wanted (forHosts (others cs)) h = some (some w) ∧
        KeyIs v.spki C (ConfStoreUse.wanted (stores cs)) w f p ∧ k = iv.file (fmtNo privFormats f) (C p) ∧ iv.host k = some t) ∧
      (EnvGood env → (∀ h w, wanted (forHosts (others cs)) h = some (some w) → ∃ f p t, KeyIs v.spki C (ConfStoreUse.wanted (stores cs)) w f p ∧
        iv.host (iv.file (fmtNo privFormats f) (C p)) = some t) → ok = true)

/-- **C248.** SSH clients are shown only host keys that the calls say: the keys given last under that name, or those that the keystore has after all calls under
the name given last, whatever the order of the calls. For every host key one of its type is shown, and it is itself if no other has its type. Clients are
accepted if all can be used and temporary files can be written. -/
theorem ssh_functions_identity_partial (v : Login.Vals) (C : Text → Nat) (iv : ServerId.Vals) (hiv : iv.spki = v.spki) (S : Schema) (e : Text)
    (cs : List (ConfStoreUse.Call ⊕ (Call ⊕ ConfUserUse.Call))) (cfg : Config) (h : SshMade v C S e cs cfg) (k0 ks : Ks) (s : ConfUsers.Ssh)
    (hks : setupKs (ksTreeOf C (cfg.getD [])) k0 = .ok ks) (hs : ConfUsers.run v.spki (sshTreeOf C e (cfg.getD [])) [] = .ok s)
    (env : Nat → HostKeys.Env) (fs : List HostKeys.File) (um : BitVec 9) :
    ∃ ok s', ServerId.bind iv ks env 0 s.hostKeys ⟨fs, um, fun _ => none⟩ = some (ok, s') ∧
      (ok = true → ∀ t k, s'.slots t = some k → ∃ h w f p, wanted (forHosts (others cs)) h = some (some w) ∧
        KeyIs v.spki C (ConfStoreUse.wanted (stores cs)) w f p ∧ k = iv.file (fmtNo privFormats f) (C p) ∧ iv.host k = some t) ∧
      (ok = true → ∀ h w, wanted (forHosts (others cs)) h = some (some w) → ∃ f p t k, KeyIs v.spki C (ConfStoreUse.wanted (stores cs)) w f p ∧
        iv.host (iv.file (fmtNo privFormats f) (C p)) = some t ∧ s'.slots t = some k ∧
        ((∀ h' w' f' p', wanted (forHosts (others cs)) h' = some (some w') → KeyIs v.spki C (ConfStoreUse.wanted (stores cs)) w' f' p' →
          iv.host (iv.file (fmtNo privFormats f') (C p')) = some t → iv.file (fmtNo privFormats f') (C p') = iv.file (fmtNo privFormats f) (C p)) →
        k = iv.file (fmtNo privFormats f) (C p))) ∧
      (EnvGood env → (∀ h w, wanted (forHosts (others cs)) h = some (some w) → ∃ f p t, KeyIs v.spki C (ConfStoreUse.wanted (stores cs)) w f p ∧
        iv.host (iv.file (fmtNo privFormats f) (C p)) = some t) → ok = true) := by
  obtain ⟨h1, h2, h3⟩ := h.inv
  obtain ⟨ks', g1, g2⟩ := h1.ksSetUp h.paired (ConfStoreUse.known_wanted (stores cs) [] known_nil h.files.2.2) h.codes h.back k0
  rw [hks] at g1
  cases g1
  obtain ⟨l, g4, g5⟩ := h2.conf h.codes h.back h.files.1 h.ids
  obtain ⟨s', c, g6, g7, -, g8⟩ := ConfUserUse.setUp h.codes h.back h3 h.files.2.1 l g5
  rw [g4] at g6
  rw [show ConfUserUse.sshTree C e ((hosts e (cfg.getD [])).map (hostTreeOf C e (cfg.getD []))) (cfg.getD []) = sshTreeOf C e (cfg.getD []) from rfl, hs] at g6
  cases g6
  have hsafe : ServerId.SshSafe iv.spki s c := by rw [hiv]; exact g7
  have hto : ∀ n hc, c.hosts n = some hc → ∃ w, wanted (forHosts (others cs)) (v.text n) = some (some w) ∧ hc = confOf C w := by
    intro n hc hn
    rw [g8] at hn
    obtain ⟨x, hx, hx'⟩ := Option.bind_eq_some_iff.mp hn
    obtain ⟨w, rfl, rfl⟩ := Option.map_eq_some_iff.mp hx'
    exact ⟨w, hx, rfl⟩
  have hof : ∀ h' w, wanted (forHosts (others cs)) h' = some (some w) → c.hosts (C h') = some (confOf C w) := by
    intro h' w hw
    rw [g8]
    simp only [hostsConf, h.codes, hw, Option.bind_some, Option.map_some]
  rw [← hiv]
  obtain ⟨ok, st, k1, k2, k3, k4⟩ := ssh_identity_partial iv ks _ s c env fs um g2 hsafe
  refine ⟨ok, st, k1, fun hok t k hk => ?_, fun hok n w hw => ?_, fun he hu => ?_⟩
  · obtain ⟨n, hc, f, p, q1, q2, q3, q4⟩ := k2 hok t k hk
    obtain ⟨w, w1, rfl⟩ := hto n hc q1
    obtain ⟨sf, sp, w2, rfl, rfl⟩ := (host_is h.codes iv _ w f p).mp q2
    exact ⟨_, w, sf, sp, w1, w2, q3, q4⟩
  · obtain ⟨f, p, t, k, q1, q2, q3, q4⟩ := k3 hok _ _ (hof n w hw)
    obtain ⟨sf, sp, w2, rfl, rfl⟩ := (host_is h.codes iv _ w f p).mp q1
    refine ⟨sf, sp, t, k, w2, q2, q3, fun hq => q4 (fun n' hc f' p' r1 r2 r3 => ?_)⟩
    obtain ⟨w', x1, rfl⟩ := hto n' hc r1
    obtain ⟨sf', sp', x2, rfl, rfl⟩ := (host_is h.codes iv _ w' f' p').mp r2
    exact hq _ w' sf' sp' x1 x2 r3
  · refine k4 he (fun n hc hn => ?_)
    obtain ⟨w, w1, rfl⟩ := hto n hc hn
    obtain ⟨f, p, t, x1, x2⟩ := hu _ w w1
    exact ⟨_, _, t, (host_is h.codes iv _ w _ _).mpr ⟨f, p, x1, rfl, rfl⟩, x2⟩

/-- **C248.** After calls that succeeded, a function for host keys succeeds if and only if what it deletes is there, provided that libyang takes names and values. -/
theorem host_function_succeeds (S : Schema) (hS : ConfUserUse.Takes S) (e : Text) (he : '\'' ∉ e) (cs : List (ConfStoreUse.Call ⊕ (Call ⊕ ConfUserUse.Call)))
    (cfg : Config) (hg : (∀ c ∈ stores cs, c.good) ∧ ∀ c ∈ others cs, goodCall c) (h : ConfStoreUse.build (run S e) S cs none = (true, cfg)) (c : Call) (hc : c.good) :
    (∃ t, c.run S e cfg = (true, some t)) ↔ c.possible (wanted (forHosts (others cs)) c.host) :=
  call_iff hS he hc (ConfStoreUse.inv_build (off S e he) (kept S e he) S cs [] [] none cfg hg.1 hg.2 ConfStoreUse.inv_nil (both_nil e) h).2.1

/-- **C248.** And a function for the stores if and only if some function for the endpoint was called before and what it deletes is there. -/
theorem store_function_succeeds_host (S : Schema) (hS : ConfUserUse.Takes S) (e : Text) (he : '\'' ∉ e)
    (cs : List (ConfStoreUse.Call ⊕ (Call ⊕ ConfUserUse.Call))) (cfg : Config) (hg : (∀ c ∈ stores cs, c.good) ∧ ∀ c ∈ others cs, goodCall c)
    (h : ConfStoreUse.build (run S e) S cs none = (true, cfg)) (c : ConfStoreUse.Call) (hc : c.good) :
    (∃ t, c.run S cfg = (true, some t)) ↔ others cs ≠ [] ∧ (ConfStoreUse.wanted (stores cs)).possible c := by
  have hi := (ConfStoreUse.inv_build (off S e he) (kept S e he) S cs [] [] none cfg hg.1 hg.2 ConfStoreUse.inv_nil (both_nil e) h).1
  have ht : ConfStoreUse.TopIn cfg := ConfStoreUse.build_top (tops S e he) S cs none cfg hg.1 hg.2 (fun _ e => by cases e) h
  rw [← ConfStoreUse.build_some (off S e he) S cs cfg hg.1 hg.2 h]
  cases cfg with
  | none => exact ⟨fun ⟨t, e⟩ => absurd e (ConfStoreUse.call_none hc rfl), fun e => by cases e.1⟩
  | some t => exact (ConfStoreUse.call_iff hS hc hi (ht t rfl)).trans ⟨fun e => ⟨rfl, e⟩, fun e => e.2⟩

/-- **C248.** And a function for users if and only if what it deletes is there. -/
theorem user_function_succeeds_host (S : Schema) (hS : ConfUserUse.Takes S) (e : Text) (he : '\'' ∉ e)
    (cs : List (ConfStoreUse.Call ⊕ (Call ⊕ ConfUserUse.Call))) (cfg : Config) (hg : (∀ c ∈ stores cs, c.good) ∧ ∀ c ∈ others cs, goodCall c)
    (h : ConfStoreUse.build (run S e) S cs none = (true, cfg)) (c : ConfUserUse.Call) (hc : c.good) :
    (∃ t, c.run S e cfg = (true, some t)) ↔ c.possible (ConfUserUse.wanted (forUsers (others cs)) c.user) := by
  have hi := (ConfStoreUse.inv_build (off S e he) (kept S e he) S cs [] [] none cfg hg.1 hg.2 ConfStoreUse.inv_nil (both_nil e) h).2.2
  rw [ConfUserUse.possible_img]
  constructor
  · rintro ⟨t, ht⟩ r hr
    have := ConfUserUse.call_found he hc ht r hr
    rwa [ConfUserUse.view_found, hi.at] at this
  · intro hr
    refine ConfUserUse.call_some hS he hc hi.sound (fun r hr' => ?_)
    rw [ConfUserUse.view_found, hi.at]
    exact hr r hr'

/-! ## Examples -/

/-- Clients accepted, and the host keys of types 0 and 1 that they are shown, after the calls. -/
def hostsShown (cs : List (ConfStoreUse.Call ⊕ (Call ⊕ ConfUserUse.Call))) : Option (Bool × List (Option Nat)) :=
  match ConfStoreUse.build (run anySchema t!"m") anySchema cs none with
  | (true, some t) =>
    match setupKs (ksTreeOf textCode t) ⟨[]⟩, ConfUsers.run idVals.spki (sshTreeOf textCode t!"m" t) [] with
    | .ok ks, .ok s => (ServerId.bind idVals ks keysGood 0 s.hostKeys ⟨[], 0o22#9, fun _ => none⟩).map fun r => (r.1, [r.2.slots 0, r.2.slots 1])
    | _, _ => none
  | _ => none

def ecFmt : Text := t!"ietf-crypto-types:ec-private-key-format"
def sshPub : Text := t!"ietf-crypto-types:ssh-public-key-format"

/-- A host key that is replaced, and one of the keystore, given later. -/
example : hostsShown [.inr (.inl (.key t!"h" t!"P" rsaFmt t!"Q")), .inr (.inl (.ref t!"g" t!"k")), .inl (.key t!"k" sshPub t!"P" ecFmt t!"R"),
    .inr (.inl (.key t!"h" t!"P" rsaFmt t!"S"))] = some (true, [some 840, some 831]) := by decide +kernel

/-- Keys instead of a reference, and a host key that is deleted. -/
example : hostsShown [.inr (.inl (.ref t!"h" t!"k")), .inr (.inl (.key t!"h" t!"P" rsaFmt t!"Q")), .inr (.inl (.key t!"g" t!"P" ecFmt t!"R")),
    .inr (.inl (.delKey t!"g"))] = some (true, [some 820, none]) := by decide +kernel

/-- The key of the keystore is missing: clients are refused. -/
example : (hostsShown [.inr (.inl (.key t!"h" t!"P" rsaFmt t!"Q")), .inr (.inl (.ref t!"g" t!"k"))]).map Prod.fst = some false := by decide +kernel

/-- Deleting: what is not there cannot be deleted. -/
example : [[], [Sum.inr (Sum.inl (Call.delRef t!"h"))], [.inr (.inl (.delRef t!"h")), .inr (.inl (.delRef t!"h"))],
    [.inr (.inl (.delKey t!"h")), .inr (.inl (.delRef t!"h"))]].map (fun d =>
      (ConfStoreUse.build (run anySchema t!"m") anySchema (.inr (.inl (.ref t!"h" t!"k")) :: d) none).1) = [true, true, false, false] := by decide +kernel

/-- Two host keys, a user and a key of the keystore. -/
def mixedCalls : List (ConfStoreUse.Call ⊕ (Call ⊕ ConfUserUse.Call)) :=
  [.inr (.inl (.key t!"h" t!"P" rsaFmt t!"Q")), .inr (.inr (.password t!"ann" t!"$0$s")), .inr (.inl (.ref t!"g" t!"k")),
    .inl (.key t!"k" sshPub t!"P" rsaFmt t!"R")]

/-- Texts are numbered. -/
def numVals (f : Text ≃ Nat) : Login.Vals := ⟨f.symm, fun n => some n, fun _ => false⟩

theorem mixed_wanted (h : Text) : wanted (forHosts (others mixedCalls)) h =
    if h = t!"h" then some (some (.inline t!"P" rsaFmt t!"Q")) else if h = t!"g" then some (some (.keystore t!"k")) else none := by
  by_cases h1 : h = t!"h"
  · subst h1; rfl
  · by_cases h2 : h = t!"g"
    · subst h2; rfl
    · simp [wanted, forHosts, others, mixedCalls, Call.host, Ne.symm h1, Ne.symm h2, h1, h2]

theorem mixed_keys (k : Text) : (ConfStoreUse.wanted (stores mixedCalls)).keys k =
    if k = t!"k" then some ⟨some ⟨sshPub, t!"P", rsaFmt, t!"R"⟩, fun _ => none⟩ else none := by
  by_cases hk : k = t!"k"
  · subst hk; rfl
  · simp [ConfStoreUse.wanted, stores, mixedCalls, Store.apply, Store.setKey, ConfStoreUse.set, hk, Store.empty]

theorem mixed_calls (f : Text ≃ Nat) : SshMade (numVals f) f anySchema t!"m" mixedCalls
    (ConfStoreUse.build (run anySchema t!"m") anySchema mixedCalls none).2 where
  texts := fun a b h => by simpa [numVals] using h
  codes := fun t => f.symm_apply_apply t
  name := by decide
  good := by
    constructor
    · intro c hc
      simp only [mixedCalls, stores, List.filterMap_cons, List.filterMap_nil, List.mem_cons, List.not_mem_nil, or_false] at hc
      rcases hc with rfl
      simp [ConfStoreUse.Call.good, ConfStoreUse.Call.names]
    · intro c hc
      simp only [mixedCalls, others, List.filterMap_cons, List.filterMap_nil, List.mem_cons, List.not_mem_nil, or_false] at hc
      rcases hc with rfl | rfl | rfl <;> simp [goodCall, Call.good, Call.host, ConfUserUse.Call.good, ConfUserUse.Call.names]
  files := by
    refine ⟨fun a b c d hm => ?_, fun a b c hm => rfl, fun k a b c d hm => ?_⟩
    · simp only [mixedCalls, others, forHosts, List.filterMap_cons, List.filterMap_nil, List.mem_cons, List.not_mem_nil, or_false, reduceCtorEq,
        Call.key.injEq] at hm
      obtain ⟨-, rfl, rfl, -⟩ := hm
      exact ⟨rfl, by decide⟩
    · simp only [mixedCalls, stores, List.filterMap_cons, List.filterMap_nil, List.mem_cons, List.not_mem_nil, or_false, ConfStoreUse.Call.key.injEq] at hm
      obtain ⟨-, rfl, -, rfl, -⟩ := hm
      decide
  built := pairEta _ (by decide +kernel)
  ids := by
    intro h w hw
    rw [mixed_wanted] at hw
    split at hw
    · cases hw; rfl
    · split at hw
      · cases hw; rfl
      · cases hw
  paired := by
    intro k x hx
    rw [mixed_keys] at hx
    split at hx
    · cases hx; rfl
    · cases hx

/-- **C248, false in general.** The endpoint has two host keys of one type; only one of them is shown. -/
theorem ssh_functions_identity_false : ∃ (v : Login.Vals) (C : Text → Nat) (iv : ServerId.Vals), iv.spki = v.spki ∧ ¬ SshFunctionsIdentity v C iv := by
  obtain ⟨f, -⟩ := texts_numbers
  refine ⟨numVals f, f, ⟨fun _ => none, fun _ _ => none, fun _ p => p, fun _ => some 0, fun _ => false⟩, rfl, fun hall => ?_⟩
  have h := mixed_calls f
  generalize (ConfStoreUse.build (run anySchema t!"m") anySchema mixedCalls none).2 = cfg at h
  obtain ⟨ts, ks, s, o, -, h1, h2, -⟩ := ssh_functions_login _ _ _ _ _ _ h exEnv ⟨[], []⟩ ⟨[]⟩
  obtain ⟨ok, s', -, h3, h4⟩ := hall _ _ _ _ h ⟨[]⟩ ks s h1 h2 keysGood [] 0o22#9
  have w1 := mixed_wanted t!"h"
  have w2 := mixed_wanted t!"g"
  have k1 := mixed_keys t!"k"
  rw [if_pos rfl] at w1 k1
  rw [if_neg (by decide), if_pos rfl] at w2
  have i1 : KeyIs (numVals f).spki f (ConfStoreUse.wanted (stores mixedCalls)) (.inline t!"P" rsaFmt t!"Q") rsaFmt t!"Q" := .inline _ _ _
  have i2 : KeyIs (numVals f).spki f (ConfStoreUse.wanted (stores mixedCalls)) (.keystore t!"k") rsaFmt t!"R" := .stored _ _ _ k1 rfl rfl
  have hok : ok = true := by
    refine h4 (fun _ => ⟨rfl, rfl, rfl, rfl, rfl⟩) (fun h w hw => ?_)
    rw [mixed_wanted] at hw
    split at hw
    · cases hw; exact ⟨_, _, 0, i1, rfl⟩
    · split at hw
      · cases hw; exact ⟨_, _, 0, i2, rfl⟩
      · cases hw
  have a := (h3 hok 0 (f t!"Q")).mpr ⟨_, _, _, _, w1, i1, rfl, rfl⟩
  have b := (h3 hok 0 (f t!"R")).mpr ⟨_, _, _, _, w2, i2, rfl, rfl⟩
  rw [a, Option.some.injEq] at b
  exact absurd (f.injective b) (by decide)

/-- The assumptions hold of such calls. -/
example : ∃ (v : Login.Vals) (C : Text → Nat) (cfg : Config), SshMade v C anySchema t!"m" mixedCalls cfg := by
  obtain ⟨f, -⟩ := texts_numbers
  exact ⟨_, _, _, mixed_calls f⟩

end Verif.Props
