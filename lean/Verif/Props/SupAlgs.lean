import Verif.Model.SupAlgs

/-!
# Supported algorithms and contexts of servers (C194, C195)
-/

namespace Verif.Props

open Verif.SupAlgs

/-! ## Algorithms -/

theorem addAlgs_some (mem yang : Nat → Bool) (pre : Text) : ∀ (as : List Text) (n : Nat) (l : List Text),
    addAlgs mem yang pre as n = some l ↔
      ((∀ i, i < as.length → mem (n + i) = true ∧ yang (n + i) = true) ∧ l = as.map (fun a => pre ++ ':' :: a)) := by
  intro as
  induction as with
  | nil =>
    intro n l
    simp only [addAlgs, Option.some.injEq, List.map_nil, List.length_nil, Nat.not_lt_zero, false_implies,
      implies_true, true_and]
    exact ⟨Eq.symm, Eq.symm⟩
  | cons a as ih =>
    intro n l
    have hall : (∀ i, i < (a :: as).length → mem (n + i) = true ∧ yang (n + i) = true) ↔
        (mem n = true ∧ yang n = true) ∧ ∀ i, i < as.length → mem (n + 1 + i) = true ∧ yang (n + 1 + i) = true := by
      constructor
      · intro h
        refine ⟨h 0 (by simp), fun i hi => ?_⟩
        have := h (i + 1) (by simp only [List.length_cons]; omega)
        rwa [Nat.add_assoc, Nat.add_comm 1 i]
      · rintro ⟨h0, h⟩ i hi
        cases i with
        | zero => exact h0
        | succ i =>
          have := h i (by simp only [List.length_cons] at hi; omega)
          rwa [Nat.add_assoc, Nat.add_comm 1 i] at this
    rw [hall, addAlgs]
    cases hm : mem n with
    | false => simp
    | true =>
      cases hy : yang n with
      | false => simp
      | true =>
        simp only [Bool.true_eq_false, if_false, true_and, List.map_cons, and_self]
        cases hr : addAlgs mem yang pre as (n + 1) with
        | none =>
          simp only [reduceCtorEq, false_iff]
          rintro ⟨h, _⟩
          have := (ih (n + 1) _).2 ⟨h, rfl⟩
          rw [hr] at this; cases this
        | some r =>
          obtain ⟨h1, h2⟩ := (ih (n + 1) r).1 hr
          simp only [Option.some.injEq]
          constructor
          · intro e; exact ⟨h1, by rw [← e, h2]⟩
          · rintro ⟨_, e⟩; rw [e, h2]

/-- The YANG modules of IANA for the four kinds: modules/iana-ssh-public-key-algs@2022-06-16.yang and the others. -/
def ianaModule : Kind → List Char
  | .hostkey => "iana-ssh-public-key-algs".toList
  | .kex => "iana-ssh-key-exchange-algs".toList
  | .encryption => "iana-ssh-encryption-algs".toList
  | .mac => "iana-ssh-mac-algs".toList

theorem ianaModule_eq (k : Kind) : k.modName = ianaModule k := by cases k <;> decide +kernel

/-- C194: the algorithms given are those of the module of the library and then
those of IANA, each once, with their modules; or, exactly if there is no memory
or libyang refuses one, none is given. -/
theorem supported_listed (k : Kind) (memPath yangPath : Bool) (mem₁ yang₁ mem₂ yang₂ : Nat → Bool) :
    (∀ l, operAlgs k memPath yangPath mem₁ yang₁ mem₂ yang₂ = some l →
      l = k.ln2.map (fun a => "libnetconf2-netconf-server:".toList ++ a) ++ k.iana.map (fun a => ianaModule k ++ ':' :: a) ∧
      l.Nodup) ∧
    (operAlgs k memPath yangPath mem₁ yang₁ mem₂ yang₂ ≠ none ↔
      memPath = true ∧ yangPath = true ∧ (∀ i, i < k.ln2.length → mem₁ i = true ∧ yang₁ i = true) ∧
      ∀ i, i < k.iana.length → mem₂ i = true ∧ yang₂ i = true) := by
  rw [← ianaModule_eq]
  have hnd : (k.ln2.map (fun a => "libnetconf2-netconf-server:".toList ++ a) ++
      k.iana.map (fun a => k.modName ++ ':' :: a)).Nodup := by
    cases k <;> decide +kernel
  have e1 : (fun a : Text => "libnetconf2-netconf-server".toList ++ ':' :: a) =
      fun a => "libnetconf2-netconf-server:".toList ++ a := by
    funext a
    have : "libnetconf2-netconf-server:".toList = "libnetconf2-netconf-server".toList ++ [':'] := by decide +kernel
    rw [this, List.append_assoc]; rfl
  unfold operAlgs operGetAlgs
  cases memPath with
  | false => simp
  | true =>
    cases yangPath with
    | false => simp
    | true =>
      simp only [Bool.true_eq_false, if_false, true_and]
      cases h₁ : addAlgs mem₁ yang₁ "libnetconf2-netconf-server".toList k.ln2 0 with
      | none =>
        simp only [reduceCtorEq, false_implies, implies_true, true_and, ne_eq, not_true_eq_false, false_iff]
        rintro ⟨h, _⟩
        have := (addAlgs_some mem₁ yang₁ "libnetconf2-netconf-server".toList k.ln2 0 _).2
          ⟨by simpa using h, rfl⟩
        rw [h₁] at this; cases this
      | some l =>
        obtain ⟨a1, a2⟩ := (addAlgs_some _ _ _ _ _ _).1 h₁
        simp only
        cases h₂ : addAlgs mem₂ yang₂ k.modName k.iana 0 with
        | none =>
          simp only [reduceCtorEq, false_implies, implies_true, true_and, ne_eq, not_true_eq_false, false_iff]
          rintro ⟨_, h⟩
          have := (addAlgs_some mem₂ yang₂ k.modName k.iana 0 _).2 ⟨by simpa using h, rfl⟩
          rw [h₂] at this; cases this
        | some r =>
          obtain ⟨b1, b2⟩ := (addAlgs_some _ _ _ _ _ _).1 h₂
          constructor
          · intro l' e
            simp only [Option.some.injEq] at e
            rw [← e, a2, b2, e1]
            exact ⟨rfl, hnd⟩
          · simp only [ne_eq, reduceCtorEq, not_false_eq_true, true_iff]
            exact ⟨by simpa using a1, by simpa using b1⟩

/-- Identities and the SSH names in their descriptions (in lower case):
modules/libnetconf2-netconf-server@2024-07-09.yang, modules/iana-ssh-public-key-algs@2022-06-16.yang,
modules/iana-ssh-key-exchange-algs@2022-06-16.yang, modules/iana-ssh-encryption-algs@2022-06-16.yang,
modules/iana-ssh-mac-algs@2022-06-16.yang. -/
def sshNames : List (String × String) :=
  [("openssh-ssh-ed25519-cert-v01", "ssh-ed25519-cert-v01@openssh.com"),
   ("openssh-ecdsa-sha2-nistp521-cert-v01", "ecdsa-sha2-nistp521-cert-v01@openssh.com"),
   ("openssh-ecdsa-sha2-nistp384-cert-v01", "ecdsa-sha2-nistp384-cert-v01@openssh.com"),
   ("openssh-ecdsa-sha2-nistp256-cert-v01", "ecdsa-sha2-nistp256-cert-v01@openssh.com"),
   ("openssh-rsa-sha2-512-cert-v01", "rsa-sha2-512-cert-v01@openssh.com"),
   ("openssh-rsa-sha2-256-cert-v01", "rsa-sha2-256-cert-v01@openssh.com"),
   ("openssh-ssh-rsa-cert-v01", "ssh-rsa-cert-v01@openssh.com"),
   ("openssh-ssh-dss-cert-v01", "ssh-dss-cert-v01@openssh.com"),
   ("ssh-ed25519", "ssh-ed25519"), ("ecdsa-sha2-nistp521", "ecdsa-sha2-nistp521"),
   ("ecdsa-sha2-nistp384", "ecdsa-sha2-nistp384"), ("ecdsa-sha2-nistp256", "ecdsa-sha2-nistp256"),
   ("rsa-sha2-512", "rsa-sha2-512"), ("rsa-sha2-256", "rsa-sha2-256"), ("ssh-rsa", "ssh-rsa"),
   ("ssh-dss", "ssh-dss"),
   ("libssh-curve25519-sha256", "curve25519-sha256@libssh.org"),
   ("diffie-hellman-group-exchange-sha1", "diffie-hellman-group-exchange-sha1"),
   ("curve25519-sha256", "curve25519-sha256"), ("ecdh-sha2-nistp256", "ecdh-sha2-nistp256"),
   ("ecdh-sha2-nistp384", "ecdh-sha2-nistp384"), ("ecdh-sha2-nistp521", "ecdh-sha2-nistp521"),
   ("diffie-hellman-group18-sha512", "diffie-hellman-group18-sha512"),
   ("diffie-hellman-group16-sha512", "diffie-hellman-group16-sha512"),
   ("diffie-hellman-group-exchange-sha256", "diffie-hellman-group-exchange-sha256"),
   ("diffie-hellman-group14-sha256", "diffie-hellman-group14-sha256"),
   ("openssh-chacha20-poly1305", "chacha20-poly1305@openssh.com"),
   ("openssh-aes256-gcm", "aes256-gcm@openssh.com"), ("openssh-aes128-gcm", "aes128-gcm@openssh.com"),
   ("aes256-ctr", "aes256-ctr"), ("aes192-ctr", "aes192-ctr"), ("aes128-ctr", "aes128-ctr"),
   ("aes256-cbc", "aes256-cbc"), ("aes192-cbc", "aes192-cbc"), ("aes128-cbc", "aes128-cbc"),
   ("blowfish-cbc", "blowfish-cbc"), ("triple-des-cbc", "3des-cbc"), ("none", "none"),
   ("openssh-hmac-sha2-256-etm", "hmac-sha2-256-etm@openssh.com"),
   ("openssh-hmac-sha2-512-etm", "hmac-sha2-512-etm@openssh.com"),
   ("openssh-hmac-sha1-etm", "hmac-sha1-etm@openssh.com"),
   ("hmac-sha2-256", "hmac-sha2-256"), ("hmac-sha2-512", "hmac-sha2-512"), ("hmac-sha1", "hmac-sha1")]

/-- The SSH name of an identity. -/
def sshName (a : Text) : Option Text :=
  (sshNames.find? (fun p => p.1.toList == a)).map (fun p => p.2.toList)

/-- C194, partial: configuring an algorithm that is listed as supported makes
the list for libssh that has its SSH name.  Missing: triple-des-cbc
(`supported_usable_false`). -/
theorem supported_usable_partial (k : Kind) (a : Text) (ha : a ∈ k.ln2 ++ k.iana)
    (hne : a ≠ "triple-des-cbc".toList) :
    ∃ n, sshName a = some n ∧ AlgList.transportParams none a true = .ok n := by
  have key : ∀ k : Kind, ∀ a ∈ k.ln2 ++ k.iana, a = "triple-des-cbc".toList ∨
      sshName a = some (AlgList.algName a) := by
    intro k; cases k <;> decide +kernel
  rcases key k a ha with h | h
  · exact absurd h hne
  · exact ⟨_, h, rfl⟩

/-- C194 is false: triple-des-cbc is listed as supported, but configuring it
gives libssh a name that is not the SSH name of the algorithm. -/
theorem supported_usable_false : ∃ (k : Kind) (a n : Text), a ∈ k.ln2 ++ k.iana ∧ sshName a = some n ∧
    AlgList.transportParams none a true ≠ .ok n :=
  ⟨.encryption, "triple-des-cbc".toList, "3des-cbc".toList, by decide +kernel, by decide +kernel, by decide +kernel⟩

example : operAlgs .mac true true (fun _ => true) (fun _ => true) (fun _ => true) (fun _ => true) =
    some ["libnetconf2-netconf-server:openssh-hmac-sha2-256-etm".toList,
      "libnetconf2-netconf-server:openssh-hmac-sha2-512-etm".toList,
      "libnetconf2-netconf-server:openssh-hmac-sha1-etm".toList,
      "iana-ssh-mac-algs:hmac-sha2-256".toList, "iana-ssh-mac-algs:hmac-sha2-512".toList,
      "iana-ssh-mac-algs:hmac-sha1".toList] ∧
    operAlgs .mac true true (fun _ => true) (fun _ => true) (fun _ => true) (fun n => n != 2) = none := by
  decide +kernel

/-! ## Contexts -/

theorem implemented_set (m n : Text) (fs : List Text) (c : Ctx) :
    implemented n (setModule m fs c) = if n = m then some fs else implemented n c := by
  induction c with
  | nil =>
    by_cases h : m = n
    · simp [setModule, implemented, h]
    · simp [setModule, implemented, h, Ne.symm h]
  | cons p r ih =>
    obtain ⟨x, f⟩ := p
    by_cases hx : x = m
    · subst hx
      simp only [setModule, if_true, implemented]
      by_cases h : x = n
      · simp [h]
      · simp [h, Ne.symm h]
    · simp only [setModule, if_neg hx, implemented, ih]
      by_cases h : x = n
      · subst h; simp [hx]
      · simp [h]

theorem netconf_ne_monitoring : ietfNetconf ≠ ietfMonitoring := by decide +kernel

/-- A context is ready for a server: both modules are implemented and all
features of ietf-netconf are enabled. -/
def SrvReady (c : Ctx) : Prop :=
  (∃ fs, implemented "ietf-netconf".toList c = some fs ∧
    ∀ f ∈ ["writable-running", "candidate", "rollback-on-error", "validate", "startup", "url", "xpath",
      "confirmed-commit"], String.toList f ∈ fs) ∧
  implemented "ietf-netconf-monitoring".toList c ≠ none

theorem srvReady_of {c : Ctx} (h1 : ∃ fs, implemented ietfNetconf c = some fs ∧ netconfFeatures.all (fun f => f ∈ fs))
    (h2 : implemented ietfMonitoring c ≠ none) : SrvReady c := by
  obtain ⟨fs, h, hall⟩ := h1
  refine ⟨⟨fs, h, ?_⟩, h2⟩
  simp only [netconfFeatures, List.all_eq_true, List.mem_cons, List.not_mem_nil, or_false, forall_eq_or_imp,
    forall_eq, decide_eq_true_eq] at hall
  simp only [List.mem_cons, List.not_mem_nil, or_false, forall_eq_or_imp, forall_eq]
  exact hall

theorem features_all : netconfFeatures.all (fun f => f ∈ netconfFeatures) := by decide +kernel

/-- C195: if a context is made or completed, it is ready for a server, and what
else was implemented in it is as it was, with its features. -/
theorem server_ctx_ready (fresh : Option Ctx) (ok₁ ok₂ : Bool) (ctx : Option Ctx) (ctx' : Option Ctx)
    (h : initCtx fresh ok₁ ok₂ ctx = (true, ctx')) :
    ∃ c, ctx' = some c ∧ SrvReady c ∧
      ∀ c₀, ctx = some c₀ → ∀ m fs, implemented m c₀ = some fs →
        (m ≠ "ietf-netconf".toList → implemented m c = some fs) ∧
        (m = "ietf-netconf".toList → SrvReady c₀ → implemented m c = some fs) := by
  cases ctx with
  | none =>
    unfold initCtx at h
    cases fresh with
    | none => cases h
    | some c =>
      simp only at h
      split at h
      · split at h
        · cases h
          refine ⟨_, rfl, srvReady_of ⟨netconfFeatures, ?_, features_all⟩ ?_, by simp⟩
          · simp [implemented_set, netconf_ne_monitoring]
          · simp [implemented_set]
        · cases h
      · cases h
  | some c₀ =>
    have h1 : ∀ c, ensureNetconf ok₁ c₀ = (true, c) →
        (∃ fs, implemented ietfNetconf c = some fs ∧ netconfFeatures.all (fun f => f ∈ fs)) ∧
        (∀ m, m ≠ ietfNetconf → implemented m c = implemented m c₀) ∧ (SrvReady c₀ → c = c₀) := by
      intro c he
      unfold ensureNetconf at he
      cases hi : implemented ietfNetconf c₀ with
      | none =>
        rw [hi] at he
        simp only at he
        split at he
        · cases he
          refine ⟨⟨netconfFeatures, by simp [implemented_set], features_all⟩, fun m hm => by
            simp [implemented_set, hm], ?_⟩
          rintro ⟨⟨fs, hfs, _⟩, _⟩
          have e : implemented ietfNetconf c₀ = some fs := hfs
          rw [hi] at e; cases e
        · cases he
      | some fs =>
        rw [hi] at he
        simp only at he
        split at he
        · rename_i hall
          cases he
          exact ⟨⟨fs, hi, hall⟩, fun _ _ => rfl, fun _ => rfl⟩
        · rename_i hall
          split at he
          · cases he
            refine ⟨⟨netconfFeatures, by simp [implemented_set], features_all⟩, fun m hm => by
              simp [implemented_set, hm], ?_⟩
            rintro ⟨⟨fs', hfs, hf⟩, _⟩
            have e : implemented ietfNetconf c₀ = some fs' := hfs
            rw [hi] at e
            cases e
            exact absurd (by
              simp only [netconfFeatures, List.all_eq_true, List.mem_cons, List.not_mem_nil, or_false,
                forall_eq_or_imp, forall_eq, decide_eq_true_eq]
              simp only [List.mem_cons, List.not_mem_nil, or_false, forall_eq_or_imp, forall_eq] at hf
              exact hf) hall
          · cases he
    have h2 : ∀ c r c', ensureMonitoring ok₂ c = (r, c') → r = true →
        implemented ietfMonitoring c' ≠ none ∧ (∀ m, implemented m c ≠ none → implemented m c' = implemented m c) ∧
        (∀ m, m ≠ ietfMonitoring → implemented m c' = implemented m c) := by
      intro c r c' he hr
      unfold ensureMonitoring at he
      cases hi : implemented ietfMonitoring c with
      | none =>
        rw [hi] at he
        simp only at he
        split at he
        · cases he
          refine ⟨by simp [implemented_set], fun m hm => ?_, fun m hm => by simp [implemented_set, hm]⟩
          have : m ≠ ietfMonitoring := fun e => hm (e ▸ hi)
          simp [implemented_set, this]
        · cases he; cases hr
      | some fs =>
        rw [hi] at he
        cases he
        exact ⟨by rw [hi]; simp, fun _ _ => rfl, fun _ _ => rfl⟩
    unfold initCtx at h
    simp only at h
    cases hn : ensureNetconf ok₁ c₀ with
    | mk r c =>
      rw [hn] at h
      cases r with
      | false => cases h
      | true =>
        cases hm : ensureMonitoring ok₂ c with
        | mk r' c' =>
          simp only [hm, Prod.mk.injEq] at h
          obtain ⟨hr, hc⟩ := h
          obtain ⟨n1, n2, n3⟩ := h1 c hn
          obtain ⟨m1, m2, m3⟩ := h2 c r' c' hm hr
          refine ⟨c', hc.symm, srvReady_of ?_ m1, ?_⟩
          · obtain ⟨fs, hfs, hall⟩ := n1
            exact ⟨fs, by rw [m3 _ netconf_ne_monitoring]; exact hfs, hall⟩
          · intro c₁ e m fs hfs
            cases e
            refine ⟨fun hne => ?_, fun _ hrdy => ?_⟩
            · have e1 := n2 m hne
              rw [m2 m (by rw [e1, hfs]; simp), e1, hfs]
            · rw [n3 hrdy] at m2
              rw [m2 m (by rw [hfs]; simp), hfs]

/-- C195: a context that is ready stays exactly as it is, whatever libyang
would do. -/
theorem server_ctx_again (fresh : Option Ctx) (ok₁ ok₂ : Bool) (c : Ctx) (h : SrvReady c) :
    initCtx fresh ok₁ ok₂ (some c) = (true, some c) := by
  obtain ⟨⟨fs, hfs, hf⟩, hm⟩ := h
  have hall : netconfFeatures.all (fun f => f ∈ fs) = true := by
    simp only [netconfFeatures, List.all_eq_true, List.mem_cons, List.not_mem_nil, or_false,
      forall_eq_or_imp, forall_eq, decide_eq_true_eq]
    simp only [List.mem_cons, List.not_mem_nil, or_false, forall_eq_or_imp, forall_eq] at hf
    exact hf
  have h1 : ensureNetconf ok₁ c = (true, c) := by
    have e : implemented ietfNetconf c = some fs := hfs
    simp only [ensureNetconf, e, if_pos hall]
  have h2 : ensureMonitoring ok₂ c = (true, c) := by
    have e : implemented ietfMonitoring c ≠ none := hm
    unfold ensureMonitoring
    cases hi : implemented ietfMonitoring c with
    | none => exact absurd hi e
    | some _ => rfl
  simp only [initCtx, h1, h2]

/-- C195: it fails only if libyang fails, no context is made then, and one that
was given is still there with all modules it had. -/
theorem server_ctx_failed (fresh : Option Ctx) (ok₁ ok₂ : Bool) (ctx ctx' : Option Ctx)
    (h : initCtx fresh ok₁ ok₂ ctx = (false, ctx')) :
    (ok₁ = false ∨ ok₂ = false ∨ (ctx = none ∧ fresh = none)) ∧
    (ctx = none → ctx' = none) ∧
    ∀ c, ctx = some c → ∃ c', ctx' = some c' ∧ ∀ m, implemented m c ≠ none → implemented m c' ≠ none := by
  cases ctx with
  | none =>
    unfold initCtx at h
    cases fresh with
    | none => cases h; simp
    | some c =>
      simp only at h
      cases ok₁ with
      | false => simp only [Bool.false_eq_true, if_false, if_true, Prod.mk.injEq, true_and] at h; subst h; simp
      | true =>
        cases ok₂ with
        | false => simp only [Bool.false_eq_true, if_false, if_true, Prod.mk.injEq, true_and] at h; subst h; simp
        | true => simp at h
  | some c =>
    have hset : ∀ (m : Text) (fs : List Text) (c : Ctx) (n : Text), implemented n c ≠ none →
        implemented n (setModule m fs c) ≠ none := by
      intro m fs c n hn
      rw [implemented_set]
      split
      · simp
      · exact hn
    have h1 : ∀ r c', ensureNetconf ok₁ c = (r, c') → (r = false → ok₁ = false) ∧
        ∀ m, implemented m c ≠ none → implemented m c' ≠ none := by
      intro r c' he
      unfold ensureNetconf at he
      cases ok₁ with
      | false =>
        refine ⟨fun _ => rfl, ?_⟩
        split at he
        · split at he <;> cases he <;> exact fun _ h => h
        · cases he; exact fun _ h => h
      | true =>
        simp only [if_true] at he
        split at he
        · split at he <;> cases he
          · exact ⟨by simp, fun _ h => h⟩
          · exact ⟨by simp, hset _ _ _⟩
        · cases he; exact ⟨by simp, hset _ _ _⟩
    have h2 : ∀ c r c', ensureMonitoring ok₂ c = (r, c') → (r = false → ok₂ = false) ∧
        ∀ m, implemented m c ≠ none → implemented m c' ≠ none := by
      intro c r c' he
      unfold ensureMonitoring at he
      split at he
      · cases he; exact ⟨by simp, fun _ h => h⟩
      · split at he
        · cases he; exact ⟨by simp, hset _ _ _⟩
        · rename_i hok
          cases he; exact ⟨fun _ => by simpa using hok, fun _ h => h⟩
    unfold initCtx at h
    simp only at h
    cases hn : ensureNetconf ok₁ c with
    | mk r c₁ =>
      rw [hn] at h
      obtain ⟨a1, a2⟩ := h1 r c₁ hn
      cases r with
      | false =>
        cases h
        refine ⟨Or.inl (a1 rfl), by simp, ?_⟩
        intro c' e; cases e
        exact ⟨c₁, rfl, a2⟩
      | true =>
        cases hm : ensureMonitoring ok₂ c₁ with
        | mk r' c₂ =>
          simp only [hm, Prod.mk.injEq] at h
          obtain ⟨hr, hc⟩ := h
          obtain ⟨b1, b2⟩ := h2 c₁ r' c₂ hm
          refine ⟨Or.inr (Or.inl (b1 hr)), by simp, ?_⟩
          intro c' e; cases e
          exact ⟨c₂, hc.symm, fun m hm => b2 m (a2 m hm)⟩

/-- A context with ietf-netconf without features, and another module. -/
def ctxDemo : Ctx := [("ietf-netconf".toList, ["candidate".toList]), ("example".toList, ["x".toList])]

example : (initCtx none true true (some ctxDemo)).1 = true ∧
    (initCtx none true true (some ctxDemo)).2.map (implemented "example".toList) = some (some ["x".toList]) ∧
    (initCtx none true true (some ctxDemo)).2.map (implemented "ietf-netconf-monitoring".toList) = some (some []) ∧
    (initCtx (some []) true false none).2 = none := by decide +kernel

end Verif.Props
