import Verif.Spec.Login
import Verif.Lemmas.SshAuth
import Verif.Props.ConfUsers
import Verif.Props.ConfStore
import Verif.Props.SshAuth

namespace Verif.Login
open Verif.ConfStore
open Verif.ConfUsers (SshConf UserConf KeysConf Ssh User UserAs AuthAs SshAs Auth)
open Verif.SshAuth

theorem nodup_find {α : Type} (key : α → Nat) (l : List α) (h : (l.map key).Nodup) (x : α) (hx : x ∈ l) :
    l.find? (fun y => key y == key x) = some x := by
  induction l with
  | nil => cases hx
  | cons a l ih =>
    rw [List.map_cons, List.nodup_cons] at h
    rcases List.mem_cons.mp hx with rfl | hx
    · simp
    · have hne : key a ≠ key x := fun he => h.1 (he ▸ List.mem_map.mpr ⟨x, hx, rfl⟩)
      rw [List.find?_cons]
      simp only [beq_eq_false_iff_ne.mpr hne]
      exact ih h.2 hx

/-- Entries of the array are entries of the map. -/
theorem holds_mem {α β : Type} (key : α → Nat) (R : α → β → Prop) (l : List α) (m : Map β) (h : Holds key R l m) (x : α) (hx : x ∈ l) :
    ∃ y, m (key x) = some y ∧ R x y := by
  have h1 := h.2 (key x)
  rw [nodup_find key l h.1 x hx] at h1
  cases hm : m (key x) with
  | none => rw [hm] at h1; exact h1.elim
  | some y => rw [hm] at h1; exact ⟨y, rfl, h1⟩

/-- Entries of the map are found in the array. -/
theorem holds_find {α β : Type} (key : α → Nat) (R : α → β → Prop) (l : List α) (m : Map β) (h : Holds key R l m) (n : Nat) (y : β) (hy : m n = some y) :
    ∃ x ∈ l, key x = n ∧ l.find? (fun x => key x == n) = some x ∧ R x y := by
  have h1 := h.2 n
  rw [hy] at h1
  cases hf : l.find? (fun x => key x == n) with
  | none => rw [hf] at h1; exact h1.elim
  | some x => rw [hf] at h1; exact ⟨x, List.mem_of_find?_eq_some hf, by simpa using List.find?_some hf, rfl, h1⟩

theorem keyIn_holds (v : Vals) (l : List PubKey) (m : Map (Nat × Nat)) (h : HoldsPubs l m) (key : Nat) :
    some key ∈ l.map (sshKey v) ↔ KeyIn v m key := by
  constructor
  · intro hm
    obtain ⟨k, hk, he⟩ := List.mem_map.mp hm
    obtain ⟨⟨f, d⟩, h1, h2⟩ := holds_mem _ _ _ _ h k hk
    have hd : k.data = some d := h2.2
    exact ⟨k.name, f, d, h1, by simpa [sshKey, hd] using he⟩
  · rintro ⟨k, f, d, hk, he⟩
    obtain ⟨x, hx, -, -, -, h2⟩ := holds_find _ _ _ _ h k _ hk
    have hd : x.data = some d := h2
    exact List.mem_map.mpr ⟨x, hx, by simp [sshKey, hd, he]⟩

/-- The bag of the configuration. -/
theorem bagKeys_holds (v : Vals) (hv : ∀ a b, v.text a = v.text b → a = b) (ts : Ts) (tc : TsConf) (h : HoldsTs ts tc) (b key : Nat) :
    (∃ ks, bagKeys v ts b = some ks ∧ some key ∈ ks.map (sshKey v)) ↔
      ∃ m, tc.pubBags b = some m ∧ KeyIn v m key ∧ ∀ k f d, m k = some (f, d) → v.spki d = false := by
  have hfind : ts.pubBags.find? (fun x => decide (v.text x.name = v.text b)) = ts.pubBags.find? (fun x => x.name == b) := by
    congr 1
    funext x
    by_cases hx : x.name = b
    · simp [hx]
    · have : v.text x.name ≠ v.text b := fun he => hx (hv _ _ he)
      simp [hx, this]
  have h2 := h.2.2 b
  unfold bagKeys
  rw [hfind]
  cases hf : ts.pubBags.find? (fun x => x.name == b) with
  | none =>
    rw [hf] at h2
    cases hm : tc.pubBags b with
    | none => simp
    | some m => rw [hm] at h2; exact h2.elim
  | some x =>
    rw [hf] at h2
    cases hm : tc.pubBags b with
    | none => rw [hm] at h2; exact h2.elim
    | some m =>
      rw [hm] at h2
      have hx : HoldsPubs x.keys m := h2
      have hsp : (x.keys.any (fun k => k.data.any v.spki)) = false ↔ ∀ k f d, m k = some (f, d) → v.spki d = false := by
        rw [List.any_eq_false]
        constructor
        · intro hh k f d hk
          obtain ⟨y, hy, -, -, -, hd⟩ := holds_find _ _ _ _ hx k _ hk
          have hd : y.data = some d := hd
          have := hh y hy
          rw [hd] at this
          simpa using this
        · intro hh y hy
          obtain ⟨⟨f, d⟩, h1, h2⟩ := holds_mem _ _ _ _ hx y hy
          have hd : y.data = some d := h2.2
          simp [hd, hh _ _ _ h1]
      cases ha : x.keys.any (fun k => k.data.any v.spki) with
      | true =>
        simp only [ha, if_true]
        constructor
        · rintro ⟨ks, h, -⟩; cases h
        · rintro ⟨m', h, -, hs⟩
          cases h
          rw [hsp.mpr hs] at ha; cases ha
      | false =>
        simp only [ha, Bool.false_eq_true, if_false]
        constructor
        · rintro ⟨ks, h, hk⟩
          cases h
          exact ⟨m, rfl, (keyIn_holds v _ m hx key).mp hk, hsp.mp ha⟩
        · rintro ⟨m', h, hk, -⟩
          cases h
          exact ⟨_, rfl, (keyIn_holds v _ m hx key).mpr hk⟩

/-- The client of the user does what is configured. -/
structure ClientAs (v : Vals) (e : Env) (tc : TsConf) (n : Nat) (uc : UserConf) (cl : Client) : Prop where
  name : cl.name = v.text n
  proves : ∀ m, Verified e (some cl) m ↔ Proves v e tc uc m
  demands : ∀ meth, Configured cl meth ↔ Demands uc meth

theorem clientAs_of_keys (v : Vals) (e : Env) (tc : TsConf) (n : Nat) (uc : UserConf) (st : SshAuth.Store)
    (hk : ∀ user key, AuthorizedKey e user (some ⟨v.text n, st, uc.password.map v.text, uc.kbdint, uc.noneOk⟩) key ↔ KeyConfigured v e tc user key uc.keys)
    (hd : st ≠ .local [] ↔ Demands uc .publickey) :
    ClientAs v e tc n uc ⟨v.text n, st, uc.password.map v.text, uc.kbdint, uc.noneOk⟩ := by
  refine ⟨rfl, ?_, ?_⟩
  · intro m
    unfold Verified Proves
    cases hm : m.method with
    | none => simp
    | password =>
      simp only [reduceCtorEq, false_and, true_and, false_or, or_false, userPassword_local]
      constructor
      · rintro ⟨p, h1, h2⟩
        cases hp : uc.password with
        | none => rw [hp] at h1; cases h1
        | some q => rw [hp] at h1; cases h1; exact ⟨q, rfl, h2⟩
      · rintro ⟨q, h1, h2⟩
        exact ⟨v.text q, by rw [h1]; rfl, h2⟩
    | publickey => simp only [reduceCtorEq, false_and, true_and, false_or, or_false, hk]
    | interactive => simp
    | other => simp
  · intro meth
    cases meth with
    | none => rfl
    | password =>
      simp only [Configured, Demands]
      cases uc.password <;> simp
    | publickey => exact hd
    | interactive => rfl
    | other => rfl

theorem client_as (v : Vals) (hv : ∀ a b, v.text a = v.text b → a = b) (e : Env) (ts : Ts) (tc : TsConf) (ht : HoldsTs ts tc) (u : User) (uc : UserConf)
    (h : UserAs u uc) : ∃ cl, client v ts u = some cl ∧ ClientAs v e tc u.name uc cl := by
  obtain ⟨ha, hp, hn, hkb⟩ := h
  have key : ∀ st, keysOf v ts u = some st →
      (∀ user key, AuthorizedKey e user (some ⟨v.text u.name, st, uc.password.map v.text, uc.kbdint, uc.noneOk⟩) key ↔ KeyConfigured v e tc user key uc.keys) →
      (st ≠ .local [] ↔ Demands uc .publickey) → ∃ cl, client v ts u = some cl ∧ ClientAs v e tc u.name uc cl := by
    intro st h1 h2 h3
    refine ⟨_, ?_, clientAs_of_keys v e tc u.name uc st h2 h3⟩
    simp [client, h1, hp, hn, hkb]
  have off : keysOf v ts u = some (.local []) → (uc.keys = none ∨ ∃ m, uc.keys = some (.inline m) ∧ ∀ k, m k = none) →
      ∃ cl, client v ts u = some cl ∧ ClientAs v e tc u.name uc cl := by
    intro h1 h2
    refine key _ h1 ?_ ?_
    · intro user key
      rcases h2 with h2 | ⟨m, h2, h3⟩
      · simp [AuthorizedKey, h2, KeyConfigured]
      · simp [AuthorizedKey, h2, KeyConfigured, KeyIn, h3]
    · rcases h2 with h2 | ⟨m, h2, h3⟩
      · simp [Demands, h2]
      · simp [Demands, h2, h3]
  cases hk : uc.keys with
  | none =>
    rw [hk] at ha
    refine off ?_ (.inl hk)
    have ha : u.auth = some .off := ha
    unfold User.auth at ha
    unfold keysOf
    cases hs : u.store with
    | «local» =>
      rw [hs] at ha
      simp only at ha ⊢
      split at ha
      · rename_i h0; simp [User.keys?, h0]
      · cases hq : u.keys? <;> rw [hq] at ha <;> simp at ha
    | truststore => rw [hs] at ha; simp only at ha; split at ha <;> cases ha
    | system => rw [hs] at ha; cases ha
    | keystore => rfl
  | some k =>
    cases k with
    | inline m =>
      rw [hk] at ha
      obtain ⟨l, hl, ha⟩ := ha
      by_cases hnil : l = []
      · subst hnil
        refine off ?_ (.inr ⟨m, hk, ?_⟩)
        · simp only [if_true] at ha
          unfold User.auth at ha
          unfold keysOf
          cases hs : u.store with
          | «local» =>
            rw [hs] at ha
            simp only at ha ⊢
            split at ha
            · rename_i h0; simp [User.keys?, h0]
            · cases hq : u.keys? <;> rw [hq] at ha <;> simp at ha
          | truststore => rw [hs] at ha; simp only at ha; split at ha <;> cases ha
          | system => rw [hs] at ha; cases ha
          | keystore => rfl
        · intro k
          have := hl.2 k
          cases hm : m k with
          | none => rfl
          | some p => rw [hm] at this; exact this.elim
      · rw [if_neg hnil] at ha
        have hks : keysOf v ts u = some (.local (l.map (sshKey v))) := by
          unfold User.auth at ha
          unfold keysOf
          cases hs : u.store with
          | «local» =>
            rw [hs] at ha
            simp only at ha ⊢
            split at ha
            · cases ha
            · cases hq : u.keys? with
              | none => rw [hq] at ha; cases ha
              | some l' => rw [hq] at ha; cases ha; rfl
          | truststore => rw [hs] at ha; simp only at ha; split at ha <;> cases ha
          | system => rw [hs] at ha; cases ha
          | keystore => rw [hs] at ha; cases ha
        refine key _ hks ?_ ?_
        · intro user key
          rw [hk]
          simp only [KeyConfigured, ← keyIn_holds v l m hl key]
          simp [AuthorizedKey]
        · simp only [ne_eq, SshAuth.Store.local.injEq, List.map_eq_nil_iff, hnil, not_false_eq_true, true_iff, Demands, hk]
          refine ⟨_, rfl, ?_⟩
          intro m' hm'
          cases hm'
          cases l with
          | nil => exact absurd rfl hnil
          | cons x l =>
            obtain ⟨p, h1, -⟩ := holds_mem _ _ _ _ hl x List.mem_cons_self
            exact ⟨_, _, h1⟩
    | bag b =>
      rw [hk] at ha
      have ha : u.auth = some (.bag b) := ha
      have hks : keysOf v ts u = some (.truststore ((bagKeys v ts b).map (fun l => l.map (sshKey v)))) := by
        unfold User.auth at ha
        unfold keysOf
        cases hs : u.store with
        | «local» =>
          rw [hs] at ha
          simp only at ha
          split at ha
          · cases ha
          · cases hq : u.keys? <;> rw [hq] at ha <;> cases ha
        | truststore =>
          rw [hs] at ha
          simp only at ha ⊢
          split at ha
          · rename_i n hn
            cases ha
            rw [hn]
          · cases ha
        | system => rw [hs] at ha; cases ha
        | keystore => rw [hs] at ha; cases ha
      refine key _ hks ?_ ?_
      · intro user key
        rw [hk]
        simp only [KeyConfigured, ← bagKeys_holds v hv ts tc ht b key]
        cases bagKeys v ts b <;> simp [AuthorizedKey]
      · simp [Demands, hk]
    | system =>
      rw [hk] at ha
      have ha : u.auth = some .system := ha
      have hks : keysOf v ts u = some .system := by
        unfold User.auth at ha
        unfold keysOf
        cases hs : u.store with
        | «local» =>
          rw [hs] at ha
          simp only at ha
          split at ha
          · cases ha
          · cases hq : u.keys? <;> rw [hq] at ha <;> cases ha
        | truststore => rw [hs] at ha; simp only at ha; split at ha <;> cases ha
        | system => rfl
        | keystore => rw [hs] at ha; cases ha
      refine key _ hks ?_ ?_
      · intro user key
        rw [hk]
        simp [KeyConfigured, AuthorizedKey]
      · simp [Demands, hk]

/-! ## The users of the endpoints -/

theorem clients_find (v : Vals) (ts : Ts) (us : List User) (cls : List Client) (h : clients v ts us = some cls) (t : Text) :
    cls.find? (fun c => decide (c.name = t)) = (us.find? (fun u => decide (v.text u.name = t))).bind (client v ts) := by
  induction us generalizing cls with
  | nil => simp only [clients, Option.some.injEq] at h; subst h; rfl
  | cons u us ih =>
    simp only [clients] at h
    cases hc : client v ts u with
    | none => rw [hc] at h; cases h
    | some c =>
      cases hcs : clients v ts us with
      | none => rw [hc, hcs] at h; cases h
      | some cs =>
        rw [hc, hcs] at h
        simp only [Option.some.injEq] at h
        subst h
        have hn : c.name = v.text u.name := by
          unfold client at hc
          split at hc
          · cases hc
          · cases hc; rfl
        rw [List.find?_cons, List.find?_cons, hn]
        by_cases ht : v.text u.name = t
        · simp [ht, hc]
        · simp only [ht, decide_false]
          exact ih cs hcs

theorem clients_some (v : Vals) (ts : Ts) (us : List User) (h : ∀ u ∈ us, ∃ c, client v ts u = some c) : ∃ cls, clients v ts us = some cls := by
  induction us with
  | nil => exact ⟨[], rfl⟩
  | cons u us ih =>
    obtain ⟨c, hc⟩ := h u List.mem_cons_self
    obtain ⟨cs, hcs⟩ := ih (fun x hx => h x (List.mem_cons_of_mem _ hx))
    exact ⟨c :: cs, by simp [clients, hc, hcs]⟩

/-- The users of one endpoint. -/
theorem endpt_users (v : Vals) (hv : ∀ a b, v.text a = v.text b → a = b) (e : Env) (ts : Ts) (tc : TsConf) (ht : HoldsTs ts tc) (us : List User)
    (m : Map UserConf) (h : Holds User.name UserAs us m) : ∃ cls, clients v ts us = some cls ∧
    (∀ t cl, cls.find? (fun c => decide (c.name = t)) = some cl → ∃ n uc, t = v.text n ∧ m n = some uc ∧ ClientAs v e tc n uc cl) ∧
    (∀ n uc, m n = some uc → ∃ cl, cls.find? (fun c => decide (c.name = v.text n)) = some cl ∧ ClientAs v e tc n uc cl) := by
  obtain ⟨cls, hcls⟩ := clients_some v ts us (fun u hu => by
    obtain ⟨uc, -, h2⟩ := holds_mem _ _ _ _ h u hu
    obtain ⟨cl, h3, -⟩ := client_as v hv e ts tc ht u uc h2
    exact ⟨cl, h3⟩)
  refine ⟨cls, hcls, ?_, ?_⟩
  · intro t cl hf
    rw [clients_find v ts us cls hcls t] at hf
    cases hu : us.find? (fun u => decide (v.text u.name = t)) with
    | none => rw [hu] at hf; cases hf
    | some u =>
      rw [hu] at hf
      obtain ⟨uc, h1, h2⟩ := holds_mem _ _ _ _ h u (List.mem_of_find?_eq_some hu)
      obtain ⟨cl', h3, h4⟩ := client_as v hv e ts tc ht u uc h2
      simp only [Option.bind_some] at hf
      rw [h3] at hf
      cases hf
      have hn := List.find?_some hu
      simp only [decide_eq_true_eq] at hn
      exact ⟨u.name, uc, hn.symm, h1, h4⟩
  · intro n uc hm
    obtain ⟨u, hu, hn, hf, h2⟩ := holds_find _ _ _ _ h n uc hm
    obtain ⟨cl, h3, h4⟩ := client_as v hv e ts tc ht u uc h2
    refine ⟨cl, ?_, hn ▸ h4⟩
    rw [clients_find v ts us cls hcls]
    have : us.find? (fun u => decide (v.text u.name = v.text n)) = us.find? (fun u => u.name == n) := by
      congr 1
      funext x
      by_cases hx : x.name = n
      · simp [hx]
      · have : v.text x.name ≠ v.text n := fun he => hx (hv _ _ he)
        simp [hx, this]
    rw [this, hf]
    exact h3

/-- The users of a chain of endpoints. -/
theorem chain_users (v : Vals) (hv : ∀ a b, v.text a = v.text b → a = b) (e : Env) (ts : Ts) (tc : TsConf) (ht : HoldsTs ts tc)
    (l : List (Ssh × SshConf)) (h : ∀ x ∈ l, SshAs x.1 x.2) : ∃ ch, chain v ts (l.map Prod.fst) = some ch ∧
    (∀ t cl, ch.flatten.find? (fun c => decide (c.name = t)) = some cl →
      ∃ n uc, t = v.text n ∧ UserConfIs (l.map Prod.snd) n uc ∧ ClientAs v e tc n uc cl) ∧
    (∀ n uc, UserConfIs (l.map Prod.snd) n uc → ∃ cl, ch.flatten.find? (fun c => decide (c.name = v.text n)) = some cl ∧ ClientAs v e tc n uc cl) := by
  induction l with
  | nil =>
    refine ⟨[], rfl, ?_, ?_⟩
    · intro t cl h; simp at h
    · rintro n uc ⟨pre, c, post, h, -⟩
      simp at h
  | cons x l ih =>
    obtain ⟨s, c⟩ := x
    have hs : SshAs s c := h (s, c) List.mem_cons_self
    obtain ⟨ch, h1, h2, h3⟩ := ih (fun x hx => h x (List.mem_cons_of_mem _ hx))
    generalize hcs : l.map Prod.snd = cs at h2 h3
    simp only [List.map_cons, hcs]
    obtain ⟨cls, g1, g2, g3⟩ := endpt_users v hv e ts tc ht s.users c.users hs.2
    refine ⟨cls :: ch, by simp [chain, g1, h1], ?_, ?_⟩
    · intro t cl hf
      rw [List.flatten_cons, List.find?_append] at hf
      cases hc : cls.find? (fun c => decide (c.name = t)) with
      | some cl' =>
        rw [hc] at hf
        cases hf
        obtain ⟨n, uc, k1, k2, k3⟩ := g2 t _ hc
        exact ⟨n, uc, k1, ⟨[], c, cs, rfl, k2, by simp⟩, k3⟩
      | none =>
        rw [hc] at hf
        simp only [Option.none_or] at hf
        obtain ⟨n, uc, k1, ⟨pre, c', post, rfl, k3, k4⟩, k5⟩ := h2 t cl hf
        refine ⟨n, uc, k1, ⟨c :: pre, c', post, rfl, k3, ?_⟩, k5⟩
        intro d hd
        rcases List.mem_cons.mp hd with rfl | hd
        · cases hm : d.users n with
          | none => rfl
          | some uc' =>
            obtain ⟨cl', hcl', -⟩ := g3 n uc' hm
            rw [← k1, hc] at hcl'
            cases hcl'
        · exact k4 d hd
    · rintro n uc ⟨pre, c', post, hp, k3, k4⟩
      rw [List.flatten_cons, List.find?_append]
      cases pre with
      | nil =>
        simp only [List.nil_append, List.cons.injEq] at hp
        obtain ⟨rfl, rfl⟩ := hp
        obtain ⟨cl, q1, q2⟩ := g3 n uc k3
        exact ⟨cl, by rw [q1]; rfl, q2⟩
      | cons d pre =>
        simp only [List.cons_append, List.cons.injEq] at hp
        obtain ⟨rfl, rfl⟩ := hp
        have hn : cls.find? (fun c => decide (c.name = v.text n)) = none := by
          cases hc : cls.find? (fun c => decide (c.name = v.text n)) with
          | none => rfl
          | some cl =>
            obtain ⟨n', uc', q1, q2, -⟩ := g2 _ _ hc
            rw [← hv _ _ q1, k4 c List.mem_cons_self] at q2
            cases q2
        obtain ⟨cl, q1, q2⟩ := h3 n uc ⟨pre, c', post, rfl, k3, fun d hd => k4 d (List.mem_cons_of_mem _ hd)⟩
        exact ⟨cl, by rw [hn]; exact q1, q2⟩

/-! ## Setting up -/

theorem safe_as (v : Vals) (s : Ssh) (c : SshConf) (h : SshSafe v s c) : SshAs s c := by
  obtain ⟨d, ds, c0, h1, h2, h3⟩ := h
  obtain ⟨s', h4, h5⟩ := Props.ssh_follows_diffs_partial v.spki d ds c0 c h1 h2
  rw [h3] at h4
  cases h4
  exact h5

theorem setUp_ts (s : Ts) (c : TsConf) (h : TsSetUp s c) : HoldsTs s c := by
  obtain ⟨s0, s1, d, ds, c0, h1, h2, h3, h4⟩ := h
  obtain ⟨s1', g1, g2⟩ := Props.truststore_setup s0 d c0 h1
  rw [h3] at g1
  cases g1
  obtain ⟨s2, k1, k2⟩ := Props.truststore_follows_diffs s1 c0 ds c g2 h2
  rw [h4] at k1
  cases k1
  exact k2

/-! ## A client with the right credentials gets in -/

/-- State before the authentication is complete, after `k` valid requests of the user. -/
def Pending (u : Text) (cl : Client) (k : Nat) (c : Conn) : Prop :=
  c.main.status = .starting ∧ c.main.authenticated = false ∧ c.authState.successCount = k ∧ k < (clientMethods cl).length ∧
  ((c.main.username = none ∧ c.authState.methodCount = 0) ∨ (c.main.username = some u ∧ c.authState.methodCount = (clientMethods cl).length))

theorem pending_auth (e : Env) (o : Opts) (u : Text) (cl : Client) (hu : UserIs o u cl) (k : Nat) (c : Conn) (hc : Pending u cl k c) (m : AuthMsg)
    (hm : m.user = u) (hsig : m.sig ≠ .wrong) (r : Reply × Sess × AuthState) (hr : r = auth e true o m c.main c.authState) :
    r.2.1.username = some u ∧ (¬ Verified e (some cl) m → Pending u cl k { c with main := r.2.1, authState := r.2.2 }) ∧
    (Verified e (some cl) m → r.2.1.authenticated = true ∨ Pending u cl (k + 1) { c with main := r.2.1, authState := r.2.2 }) := by
  subst hm
  have hf := (find_userIs o m.user cl).mpr hu
  have hr : r = authKnown e (some cl) m c.main c.authState := by
    rw [hr]
    simp only [auth, if_true, hf]
  obtain ⟨h1, h2, h3, h4, h5⟩ := hc
  -- the state in which the method is tried
  have cont : ∀ (s : Sess) (a : AuthState), s.username = some m.user → s.authenticated = false → s.status = .starting → a.successCount = k →
      a.methodCount = (clientMethods cl).length →
      r = (match tryMethod e m.user (some cl) m with
        | none => (.denied, s, a)
        | some .fail => (.denied, s, a)
        | some .replied => (if m.method = .publickey then .pkOk else .denied, s, a)
        | some .ok =>
          let a := { a with successMethods := m.method :: a.successMethods, successCount := a.successCount + 1 }
          if a.successCount < a.methodCount then (.partialSuccess, s, a) else (.success, { s with authenticated := true }, a)) →
      r.2.1.username = some m.user ∧ (¬ Verified e (some cl) m → Pending m.user cl k { c with main := r.2.1, authState := r.2.2 }) ∧
      (Verified e (some cl) m → r.2.1.authenticated = true ∨ Pending m.user cl (k + 1) { c with main := r.2.1, authState := r.2.2 }) := by
    intro s a g1 g2 g3 g4 g5 hr
    have hv := tryMethod_ok e (some cl) m hsig
    cases ht : tryMethod e m.user (some cl) m with
    | none =>
      rw [ht] at hr hv
      subst hr
      exact ⟨g1, fun _ => ⟨g3, g2, g4, h4, .inr ⟨g1, g5⟩⟩, fun hh => by simpa using hv.mpr hh⟩
    | some x =>
      cases x with
      | ok =>
        rw [ht] at hr hv
        simp only at hr
        by_cases hlt : a.successCount + 1 < a.methodCount
        · rw [if_pos hlt] at hr
          subst hr
          exact ⟨g1, fun hn => absurd (hv.mp rfl) hn, fun _ => .inr ⟨g3, g2, by simp [g4], by omega, .inr ⟨g1, g5⟩⟩⟩
        · rw [if_neg hlt] at hr
          subst hr
          exact ⟨g1, fun hn => absurd (hv.mp rfl) hn, fun _ => .inl rfl⟩
      | fail =>
        rw [ht] at hr hv
        subst hr
        exact ⟨g1, fun _ => ⟨g3, g2, g4, h4, .inr ⟨g1, g5⟩⟩, fun hh => by simpa using hv.mpr hh⟩
      | replied =>
        rw [ht] at hr hv
        subst hr
        exact ⟨g1, fun _ => ⟨g3, g2, g4, h4, .inr ⟨g1, g5⟩⟩, fun hh => by simpa using hv.mpr hh⟩
  rcases h5 with ⟨h5, h6⟩ | ⟨h5, h6⟩
  · refine cont { c.main with username := some m.user } (initState (some cl) c.authState) rfl h2 h1 h3 ?_ ?_
    · simp [initState, h6]
    · rw [hr]
      simp only [authKnown, h5]
      rcases tryMethod e m.user (some cl) m with _ | x
      · rfl
      · cases x <;> rfl
  · refine cont c.main c.authState h5 h2 h1 h3 h6 ?_
    rw [hr]
    simp only [authKnown, h5, ne_eq, not_true_eq_false, if_false]
    rcases tryMethod e m.user (some cl) m with _ | x
    · rfl
    · cases x <;> rfl

/-- The requests that prove the identity of the user. -/
noncomputable def good (e : Env) (cl : Client) (evs : List Ev) : List AuthMsg :=
  open Classical in (authMsgs evs).filter (fun m => decide (Verified e (some cl) m))

theorem run_pending (e : Env) (o : Opts) (u : Text) (cl : Client) (hu : UserIs o u cl) (evs : List Ev) : ∀ (k : Nat) (c : Conn), Pending u cl k c →
    (∀ ev ∈ evs, ∃ m b, ev = .msg m b) → NoWrongSig evs → (∀ m ∈ authMsgs evs, m.user = u) →
    ((SshAuth.run e true o evs c).2.main.authenticated = true ∧ (SshAuth.run e true o evs c).2.main.username = some u) ∨
    Pending u cl (k + (good e cl evs).length) (SshAuth.run e true o evs c).2 := by
  induction evs with
  | nil => intro k c hc _ _ _; exact .inr (by simpa [good, authMsgs, SshAuth.run] using hc)
  | cons ev evs ih =>
    intro k c hc hmsg hsig huser
    obtain ⟨m, b, rfl⟩ := hmsg ev List.mem_cons_self
    have hmsg' : ∀ ev ∈ evs, ∃ m b, ev = .msg m b := fun ev h => hmsg ev (List.mem_cons_of_mem _ h)
    have hsig' : NoWrongSig evs := fun m b h => hsig m b (List.mem_cons_of_mem _ h)
    have hna : c.main.authenticated = false := hc.2.1
    have hst : ¬ (c.main.status = .closing ∨ c.main.status = .invalid) := by rw [hc.1]; simp
    simp only [SshAuth.run]
    by_cases ha : ∃ a, m = .auth a
    · obtain ⟨a, rfl⟩ := ha
      have huser' : ∀ m ∈ authMsgs evs, m.user = u := fun m h => huser m (by simp [authMsgs, h])
      have hau : a.user = u := huser a (by simp [authMsgs])
      have has : a.sig ≠ .wrong := hsig a b List.mem_cons_self
      obtain ⟨p1, p2, p3⟩ := pending_auth e o u cl hu k c hc a hau has _ rfl
      have hstep : sshMsg e true o (!c.main.authenticated) b (.auth a) c =
          ((auth e true o a c.main c.authState).1, { c with main := (auth e true o a c.main c.authState).2.1, authState := (auth e true o a c.main c.authState).2.2 }) := by
        unfold sshMsg
        rw [if_neg hst]
        simp [hna]
      rw [hstep]
      by_cases hv : Verified e (some cl) a
      · rcases p3 hv with p3 | p3
        · obtain ⟨q1, q2, -⟩ := Props.ssh_no_reauth e true o evs
            { c with main := (auth e true o a c.main c.authState).2.1, authState := (auth e true o a c.main c.authState).2.2 } p3
          exact .inl ⟨q1, q2.trans p1⟩
        · rcases ih (k + 1) _ p3 hmsg' hsig' huser' with h | h
          · exact .inl h
          · refine .inr ?_
            have : (good e cl (.msg (.auth a) b :: evs)).length = (good e cl evs).length + 1 := by simp [good, authMsgs, hv]
            rw [this, show k + ((good e cl evs).length + 1) = k + 1 + (good e cl evs).length by omega]
            exact h
      · rcases ih k _ (p2 hv) hmsg' hsig' huser' with h | h
        · exact .inl h
        · refine .inr ?_
          have : (good e cl (.msg (.auth a) b :: evs)).length = (good e cl evs).length := by simp [good, authMsgs, hv]
          rw [this]
          exact h
    · have hne : ∀ a, m ≠ .auth a := fun a h => ha ⟨a, h⟩
      have hauth : authMsgs (.msg m b :: evs) = authMsgs evs := by
        cases m with
        | auth a => exact absurd rfl (hne a)
        | _ => rfl
      rw [sshMsg_denied e true o _ b m c hna hne]
      rw [show good e cl (.msg m b :: evs) = good e cl evs by simp [good, hauth]]
      exact ih k c hc hmsg' hsig' (by rw [hauth] at huser; exact huser)

theorem clientMethods_nodup (c : Client) : (clientMethods c).Nodup := by
  unfold clientMethods
  cases c.password <;> cases c.kbdint <;> cases c.none <;> (split <;> (try split) <;> simp)

/-- All methods of the client were used successfully: the client is authenticated. -/
theorem run_complete (e : Env) (o : Opts) (u : Text) (cl : Client) (hu : UserIs o u cl) (evs : List Ev) (hmsg : ∀ ev ∈ evs, ∃ m b, ev = .msg m b)
    (hsig : NoWrongSig evs) (huser : ∀ m ∈ authMsgs evs, m.user = u) (hone : ∃ meth, Configured cl meth)
    (hall : ∀ meth, Configured cl meth → ∃ m ∈ authMsgs evs, m.method = meth ∧ Verified e (some cl) m) :
    (SshAuth.run e true o evs fresh).2.main.authenticated = true ∧ (SshAuth.run e true o evs fresh).2.main.username = some u := by
  obtain ⟨meth, hmeth⟩ := hone
  have hpos : 0 < (clientMethods cl).length := List.length_pos_of_mem ((mem_clientMethods cl meth).mpr hmeth)
  rcases run_pending e o u cl hu evs 0 fresh ⟨rfl, rfl, rfl, hpos, .inl ⟨rfl, rfl⟩⟩ hmsg hsig huser with h | h
  · exact h
  · have hle : (clientMethods cl).length ≤ ((good e cl evs).map (·.method)).length := by
      refine nodup_subset_length _ _ (clientMethods_nodup cl) ?_
      intro x hx
      obtain ⟨m, h1, h2, h3⟩ := hall x ((mem_clientMethods cl x).mp hx)
      exact List.mem_map.mpr ⟨m, by simp [good, h1, h3], h2⟩
    have := h.2.2.2.1
    simp only [List.length_map] at hle
    omega

end Verif.Login
