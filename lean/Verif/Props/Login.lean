import Verif.Lemmas.Login

/-!
# Properties: who logs in over SSH, by the configuration (C218, C219)

The callbacks of the configuration and the authentication together: what was configured, in whole data and in diffs, decides who gets a session.
-/

namespace Verif.Props
open Verif.Login
open Verif.ConfUsers (Ssh SshConf UserConf SshData SshDiff sshTree)
open Verif.ConfStore (Ts TsConf TsData TsDiff Tree)
open Verif.SshAuth (Env Ev Text Method AuthMsg Opts NoWrongSig authMsgs fresh Verified Configured UserIs)

/-- Different names are different texts. -/
def TextsDiffer (v : Vals) : Prop := ∀ a b, v.text a = v.text b → a = b

/-! ## C218: nobody else gets in -/

/-- What must have happened when a client is authenticated: the user name of the session belongs to a configured user, and there are valid requests of
that user, as many as there are methods configured for them, and at least one. -/
def LoggedInAs (v : Vals) (e : Env) (tc : TsConf) (cs : List SshConf) (evs : List Ev) (name : Option Text) : Prop :=
  ∃ n uc S, name = some (v.text n) ∧ UserConfIs cs n uc ∧ List.Sublist S (authMsgs evs) ∧ S ≠ [] ∧
    (∀ m ∈ S, m.user = v.text n ∧ Proves v e tc uc m) ∧ ∀ l : List Method, l.Nodup → (∀ meth ∈ l, Demands uc meth) → l.length ≤ S.length

/-- **C218.** Full statement (false, see `ssh_login_configured_false`): after any data and diffs, whoever is authenticated is a user of the configuration
and has given the proofs demanded there. -/
def SshLoginConfigured (v : Vals) : Prop :=
  ∀ (e : Env) (l : List (Ssh × SshConf)) (ts : Ts) (tc : TsConf), (∀ x ∈ l, SshSetUp v x.1 x.2) → TsSetUp ts tc →
    ∃ o, opts v ts (l.map Prod.fst) = some o ∧ ∀ evs, NoWrongSig evs → (SshAuth.run e true o evs fresh).2.main.authenticated = true →
      LoggedInAs v e tc (l.map Prod.snd) evs (SshAuth.run e true o evs fresh).2.main.username

/-- **C218.** Proved for diffs without the changes that are not followed (`UserConf.lost`, `HostChange.lost`): a client is authenticated only as a user
of the configuration of the endpoint or of an endpoint it refers to, and only after as many valid requests of that user as there are methods
configured for them. The endpoints and the truststore were set up by whatever data and whatever diffs. -/
theorem ssh_login_configured_partial (v : Vals) (hv : TextsDiffer v) (e : Env) (l : List (Ssh × SshConf)) (ts : Ts) (tc : TsConf)
    (hl : ∀ x ∈ l, SshSafe v x.1 x.2) (ht : TsSetUp ts tc) :
    ∃ o, opts v ts (l.map Prod.fst) = some o ∧ ∀ evs, NoWrongSig evs → (SshAuth.run e true o evs fresh).2.main.authenticated = true →
      LoggedInAs v e tc (l.map Prod.snd) evs (SshAuth.run e true o evs fresh).2.main.username := by
  obtain ⟨ch, h1, h2, -⟩ := chain_users v hv e ts tc (setUp_ts ts tc ht) l (fun x hx => safe_as v _ _ (hl x hx))
  refine ⟨⟨ch⟩, by simp [opts, h1], ?_⟩
  intro evs hsig ha
  obtain ⟨u, c, S, g1, g2, g3, g4, g5, g6⟩ := ssh_auth_count_partial e ⟨ch⟩ evs hsig ha
  obtain ⟨n, uc, rfl, k2, k3⟩ := h2 u c ((SshAuth.find_userIs ⟨ch⟩ u c).mpr g2)
  exact ⟨n, uc, S, g1, k2, g3, g4, fun m hm => ⟨(g5 m hm).1, (k3.proves m).mp (g5 m hm).2⟩,
    fun ms hn hd => g6 ms hn (fun meth hm => (k3.demands meth).mpr (hd meth hm))⟩

/-- The request is valid for the configured user it names. -/
def ValidByConf (v : Vals) (e : Env) (tc : TsConf) (cs : List SshConf) (m : AuthMsg) : Prop :=
  ∃ n uc, m.user = v.text n ∧ UserConfIs cs n uc ∧ Proves v e tc uc m

/-- **C218.** If no two valid requests use the same method, every method configured for the user was proved. Missing: one method used twice, which counts as two
(`ssh_auth_methods_false`, C33). Full statement: the same without the condition on pairs of requests. -/
theorem ssh_login_all_methods_partial (v : Vals) (hv : TextsDiffer v) (e : Env) (l : List (Ssh × SshConf)) (ts : Ts) (tc : TsConf)
    (hl : ∀ x ∈ l, SshSafe v x.1 x.2) (ht : TsSetUp ts tc) :
    ∃ o, opts v ts (l.map Prod.fst) = some o ∧ ∀ evs, NoWrongSig evs →
      (authMsgs evs).Pairwise (fun a b => ValidByConf v e tc (l.map Prod.snd) a → ValidByConf v e tc (l.map Prod.snd) b → a.method ≠ b.method) →
      (SshAuth.run e true o evs fresh).2.main.authenticated = true →
      ∃ n uc, (SshAuth.run e true o evs fresh).2.main.username = some (v.text n) ∧ UserConfIs (l.map Prod.snd) n uc ∧
        ∀ meth, Demands uc meth → ∃ m ∈ authMsgs evs, m.user = v.text n ∧ m.method = meth ∧ Proves v e tc uc m := by
  obtain ⟨ch, h1, h2, -⟩ := chain_users v hv e ts tc (setUp_ts ts tc ht) l (fun x hx => safe_as v _ _ (hl x hx))
  refine ⟨⟨ch⟩, by simp [opts, h1], ?_⟩
  have hvalid : ∀ a, ValidFor e ⟨ch⟩ a → ValidByConf v e tc (l.map Prod.snd) a := by
    rintro a ⟨c, g1, g2⟩
    obtain ⟨n, uc, k1, k2, k3⟩ := h2 a.user c ((SshAuth.find_userIs ⟨ch⟩ _ c).mpr g1)
    exact ⟨n, uc, k1, k2, (k3.proves a).mp g2⟩
  intro evs hsig honce ha
  obtain ⟨u, c, g1, g2, g3⟩ := ssh_auth_methods_partial e ⟨ch⟩ evs hsig (honce.imp (fun hab ga gb => hab (hvalid _ ga) (hvalid _ gb))) ha
  obtain ⟨n, uc, rfl, k2, k3⟩ := h2 u c ((SshAuth.find_userIs ⟨ch⟩ u c).mpr g2)
  refine ⟨n, uc, g1, k2, ?_⟩
  intro meth hd
  obtain ⟨m, q1, q2, q3, q4⟩ := g3 meth ((k3.demands meth).mpr hd)
  exact ⟨m, q1, q2, q3, (k3.proves m).mp q4⟩

/-- **C218.** A user that is in none of the configurations, for instance because a diff has removed them, never gets in, whatever the client sends. -/
theorem ssh_login_removed (v : Vals) (hv : TextsDiffer v) (e : Env) (l : List (Ssh × SshConf)) (ts : Ts) (tc : TsConf)
    (hl : ∀ x ∈ l, SshSafe v x.1 x.2) (ht : TsSetUp ts tc) (n : Nat) (hn : ∀ x ∈ l, x.2.users n = none) :
    ∃ o, opts v ts (l.map Prod.fst) = some o ∧ ∀ evs, NoWrongSig evs → (SshAuth.run e true o evs fresh).2.main.authenticated = true →
      (SshAuth.run e true o evs fresh).2.main.username ≠ some (v.text n) := by
  obtain ⟨o, h1, h2⟩ := ssh_login_configured_partial v hv e l ts tc hl ht
  refine ⟨o, h1, ?_⟩
  intro evs hsig ha hname
  obtain ⟨n', uc, S, g1, ⟨pre, c, post, g2, g3, -⟩, -⟩ := h2 evs hsig ha
  rw [hname, Option.some.injEq] at g1
  cases hv _ _ g1
  have hc : c ∈ l.map Prod.snd := by rw [g2]; simp
  obtain ⟨x, hx, rfl⟩ := List.mem_map.mp hc
  rw [hn x hx] at g3
  cases g3

/-! ## C219: configured users get in -/

/-- **C219.** Full statement (false, see `ssh_login_possible_false`): after any data and diffs, configured users get in. -/
def SshLoginPossible (v : Vals) : Prop :=
  ∀ (e : Env) (l : List (Ssh × SshConf)) (ts : Ts) (tc : TsConf), (∀ x ∈ l, SshSetUp v x.1 x.2) → TsSetUp ts tc →
    ∃ o, opts v ts (l.map Prod.fst) = some o ∧ ∀ n uc evs, UserConfIs (l.map Prod.snd) n uc → NoWrongSig evs → (∀ ev ∈ evs, ∃ m b, ev = .msg m b) →
      (∀ m ∈ authMsgs evs, m.user = v.text n) → (∃ meth, Demands uc meth) →
      (∀ meth, Demands uc meth → ∃ m ∈ authMsgs evs, m.method = meth ∧ Proves v e tc uc m) →
      (SshAuth.run e true o evs fresh).2.main.authenticated = true ∧ (SshAuth.run e true o evs fresh).2.main.username = some (v.text n)

/-- **C219.** Proved for diffs without the changes that are not followed. A configured user gets in: whoever sends requests of one configured user only, among them a valid one for each method configured for the
user, is authenticated as this user, whatever invalid requests and other messages come in between. -/
theorem ssh_login_possible_partial (v : Vals) (hv : TextsDiffer v) (e : Env) (l : List (Ssh × SshConf)) (ts : Ts) (tc : TsConf)
    (hl : ∀ x ∈ l, SshSafe v x.1 x.2) (ht : TsSetUp ts tc) :
    ∃ o, opts v ts (l.map Prod.fst) = some o ∧ ∀ n uc evs, UserConfIs (l.map Prod.snd) n uc → NoWrongSig evs → (∀ ev ∈ evs, ∃ m b, ev = .msg m b) →
      (∀ m ∈ authMsgs evs, m.user = v.text n) → (∃ meth, Demands uc meth) →
      (∀ meth, Demands uc meth → ∃ m ∈ authMsgs evs, m.method = meth ∧ Proves v e tc uc m) →
      (SshAuth.run e true o evs fresh).2.main.authenticated = true ∧ (SshAuth.run e true o evs fresh).2.main.username = some (v.text n) := by
  obtain ⟨ch, h1, -, h2⟩ := chain_users v hv e ts tc (setUp_ts ts tc ht) l (fun x hx => safe_as v _ _ (hl x hx))
  refine ⟨⟨ch⟩, by simp [opts, h1], ?_⟩
  intro n uc evs hn hsig hmsg huser hone hall
  obtain ⟨cl, g1, g2⟩ := h2 n uc hn
  refine run_complete e ⟨ch⟩ (v.text n) cl ((SshAuth.find_userIs ⟨ch⟩ _ cl).mp g1) evs hmsg hsig huser ?_ ?_
  · obtain ⟨meth, hm⟩ := hone
    exact ⟨meth, (g2.demands meth).mpr hm⟩
  · intro meth hm
    obtain ⟨m, q1, q2, q3⟩ := hall meth ((g2.demands meth).mp hm)
    exact ⟨m, q1, q2, (g2.proves m).mpr q3⟩

/-! ## Examples -/

/-- Names are texts of that many letters `u`; the text of password `n` is the same text, kept as clear text; key `n` is the data `n`. -/
def loginVals : Vals := ⟨fun n => if n = 30 then "$0$s".toList else List.replicate n 'u', fun d => some d, noSpki⟩

theorem loginVals_differ : TextsDiffer loginVals := by
  intro a b h
  simp only [loginVals] at h
  have hl := congrArg List.length h
  have h4 : "$0$s".toList.length = 4 := rfl
  by_cases ha : a = 30 <;> by_cases hb : b = 30
  · rw [ha, hb]
  · rw [if_pos ha, if_neg hb] at h
    have : '$' ∈ List.replicate b 'u' := h ▸ List.mem_cons_self
    simp [List.mem_replicate] at this
  · rw [if_neg ha, if_pos hb] at h
    have : '$' ∈ List.replicate a 'u' := h ▸ List.mem_cons_self
    simp [List.mem_replicate] at this
  · simpa [ha, hb] using hl

/-- No bags in the truststore. -/
def emptyTs : TsData := ⟨[], []⟩

/-- A request with a key. -/
def loginKey (n key : Nat) (s : SshAuth.Sig) : Ev := .msg (.auth ⟨List.replicate n 'u', .publickey, [], key, s, []⟩) true

/-- A request with a password. -/
def loginPw (n : Nat) (p : String) : Ev := .msg (.auth ⟨List.replicate n 'u', .password, p.toList, 0, .absent, []⟩) true

/-- Whether a client with these requests is authenticated after these diffs, with the key 50 in bag 40 of the truststore. -/
def loginAfter (d : SshData) (ds : List SshDiff) (evs : List Ev) : Option (Bool × Option Text) :=
  match ConfUsers.run noSpki d.tree (ds.map sshTree) with
  | .ok s => (opts loginVals ⟨[], [⟨40, [⟨1, 1, some 50⟩]⟩]⟩ [s]).map (fun o => ((SshAuth.run exEnv true o evs fresh).2.main.authenticated, (SshAuth.run exEnv true o evs fresh).2.main.username))
  | _ => none

/-- Before the diff `sshSampleDiff` user 10 needs a key, the password and right answers: two of them are not enough. -/
example : loginAfter sshSample [] [loginKey 10 20 .valid, loginPw 10 "t", loginPw 10 "s"] = some (false, some (List.replicate 10 'u')) := by decide +kernel

/-- User 11 has the keys of the system and the none method. -/
example : loginAfter sshSample [] [loginKey 11 7 .valid, .msg (.auth ⟨List.replicate 11 'u', .none, [], 0, .absent, []⟩) true] =
    some (true, some (List.replicate 11 'u')) := by decide +kernel

/-- After the diff their key is 23 and nothing else is needed; the keys of the system do not help any more. -/
example : loginAfter sshSample [sshSampleDiff] [loginKey 11 7 .valid, loginKey 11 23 .absent] = some (false, some (List.replicate 11 'u')) := by decide +kernel
example : loginAfter sshSample [sshSampleDiff] [loginKey 11 7 .valid, loginKey 11 23 .valid] = some (true, some (List.replicate 11 'u')) := by decide +kernel

/-- User 12 is new and has the key of the truststore. -/
example : loginAfter sshSample [sshSampleDiff] [loginKey 12 50 .valid] = some (true, some (List.replicate 12 'u')) := by decide +kernel
example : loginAfter sshSample [] [loginKey 12 50 .valid] = some (false, none) := by decide +kernel

/-- A diff that removes user 11. -/
def removeUser : SshDiff := ⟨[], [.delete 11 []]⟩

example : ((sshSample.conf noSpki).bind (fun c => ConfUsers.patchSafeAll noSpki c [removeUser])).isSome = true := by decide
example : loginAfter sshSample [removeUser] [loginKey 11 7 .valid, .msg (.auth ⟨List.replicate 11 'u', .none, [], 0, .absent, []⟩) true] =
    some (false, none) := by decide +kernel

/-! ## Changes that are not followed -/

/-- **C218, false in general.** After the public keys of a user have been removed from the configuration, and with them the only way to log in, a client that has
one of the keys in the files of the system still logs in: the store of the keys stays `system` (src/server_config.c:604-618). -/
theorem ssh_login_configured_false : ¬ SshLoginConfigured loginVals := by
  intro h
  have hs : ConfUsers.run noSpki (oneUser ⟨some .system, none, false, false⟩).tree ([noKeys [ConfStore.leaf .useSystemKeys 0]].map sshTree) =
      .ok ⟨[], [⟨1, .system, .null, 0, none, false, false⟩]⟩ := by decide
  obtain ⟨o, h1, h2⟩ := h exEnv
    [(⟨[], [⟨1, .system, .null, 0, none, false, false⟩]⟩,
      ⟨fun _ => none, ConfStore.upd (ConfStore.upd (fun _ => none) 1 (some ⟨some .system, none, false, false⟩)) 1 (some ⟨none, none, false, false⟩)⟩)]
    ⟨[], []⟩ TsConf.empty
    (by
      intro x hx
      simp only [List.mem_singleton] at hx
      subst hx
      exact ⟨oneUser ⟨some .system, none, false, false⟩, [noKeys [ConfStore.leaf .useSystemKeys 0]], _, rfl, rfl, hs⟩)
    ⟨⟨[], []⟩, ⟨[], []⟩, emptyTs, [], TsConf.empty, rfl, rfl, by decide, rfl⟩
  have ho : o = ⟨[[⟨List.replicate 1 'u', .system, none, false, false⟩]]⟩ := by
    have : opts loginVals ⟨[], []⟩ [⟨[], [⟨1, .system, .null, 0, none, false, false⟩]⟩] = some ⟨[[⟨List.replicate 1 'u', .system, none, false, false⟩]]⟩ := by
      decide
    simp only [List.map_cons, List.map_nil] at h1
    rw [this] at h1
    cases h1; rfl
  subst ho
  obtain ⟨n, uc, S, g1, ⟨pre, c, post, g2, g3, -⟩, g4, g5, g6, -⟩ := h2 [loginKey 1 7 .valid]
    (by intro m b hm; simp only [loginKey, List.mem_singleton, Ev.msg.injEq, SshAuth.Msg.auth.injEq] at hm; simp [hm.1])
    (by decide +kernel)
  have hname : (SshAuth.run exEnv true ⟨[[⟨List.replicate 1 'u', .system, none, false, false⟩]]⟩ [loginKey 1 7 .valid] fresh).2.main.username =
      some (loginVals.text 1) := by decide +kernel
  rw [hname, Option.some.injEq] at g1
  cases loginVals_differ _ _ g1
  have hc : c ∈ [(⟨fun _ => none, ConfStore.upd (ConfStore.upd (fun _ => none) 1 (some ⟨some .system, none, false, false⟩)) 1 (some ⟨none, none, false, false⟩)⟩ : SshConf)] := by
    have : c ∈ pre ++ c :: post := by simp
    rw [← g2] at this
    simpa using this
  simp only [List.mem_singleton] at hc
  subst hc
  have huc : uc = ⟨none, none, false, false⟩ := by
    simp only [ConfStore.upd, if_true, Option.some.injEq] at g3
    exact g3.symm
  subst huc
  cases S with
  | nil => exact g5 rfl
  | cons m S =>
    have hm : m ∈ authMsgs [loginKey 1 7 .valid] := g4.subset List.mem_cons_self
    simp only [loginKey, authMsgs, List.mem_singleton] at hm
    have := (g6 m List.mem_cons_self).2
    rw [hm] at this
    simp [Proves, KeyConfigured] at this

/-- **C219, false in general.** After the reference to the truststore has been removed from a user the name of the bag is NULL and the next authentication of the
user uses it (src/session_server_ssh.c:167-200). -/
theorem ssh_login_possible_false : ¬ SshLoginPossible loginVals := by
  intro h
  have hs : ConfUsers.run noSpki (oneUser ⟨some (.bag 5), some 30, false, false⟩).tree ([noKeys [ConfStore.leaf .centralTruststoreReference 5]].map sshTree) =
      .ok ⟨[], [⟨1, .truststore, .null, 0, some 30, false, false⟩]⟩ := by decide
  obtain ⟨o, h1, -⟩ := h exEnv
    [(⟨[], [⟨1, .truststore, .null, 0, some 30, false, false⟩]⟩,
      ⟨fun _ => none, ConfStore.upd (ConfStore.upd (fun _ => none) 1 (some ⟨some (.bag 5), some 30, false, false⟩)) 1 (some ⟨none, some 30, false, false⟩)⟩)]
    ⟨[], []⟩ TsConf.empty
    (by
      intro x hx
      simp only [List.mem_singleton] at hx
      subst hx
      exact ⟨oneUser ⟨some (.bag 5), some 30, false, false⟩, [noKeys [ConfStore.leaf .centralTruststoreReference 5]], _, rfl, rfl, hs⟩)
    ⟨⟨[], []⟩, ⟨[], []⟩, emptyTs, [], TsConf.empty, rfl, rfl, by decide, rfl⟩
  simp [opts, chain, clients, client, keysOf] at h1

/-- The client of `ssh_login_configured_false`: the diff has removed the keys, the key of the system is accepted. -/
example : loginAfter (oneUser ⟨some .system, none, false, false⟩) [noKeys [ConfStore.leaf .useSystemKeys 0]] [loginKey 1 7 .valid] =
    some (true, some (List.replicate 1 'u')) := by decide +kernel

end Verif.Props
