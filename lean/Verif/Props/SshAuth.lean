import Verif.Lemmas.SshAuth

namespace Verif.Props

open Verif.SshAuth

/-! ## C51: passwords -/

/-- C51: exactly the right passwords are accepted for a stored one. -/
theorem password_accepted_iff (e : Env) (stored offered : Text) : comparePassword e stored offered = true ↔
    (stored = [] ∧ offered = []) ∨ stored = '$' :: '0' :: '$' :: offered ∨
    (stored ≠ [] ∧ (∀ t, stored ≠ '$' :: '0' :: '$' :: t) ∧ e.crypt offered stored = some stored) :=
  comparePassword_iff e stored offered

/-- C51: a system user gets in with a password (by the password method or the own keyboard-interactive dialog) only if the account has not expired, the password is not
locked, and the offered password is right; in particular with an empty stored password only by an empty one. -/
theorem password_system (e : Env) (he : CryptContract e) (m : AuthMsg) (offered : Text)
    (hm : (m.method = .password ∧ offered = m.password) ∨ (m.method = .interactive ∧ e.kbd = .system ∧ m.answers = [offered]))
    (h : tryMethod e m.user none m = some .ok) :
    ∃ p, SystemPassword e m.user p ∧ PasswordMatches e p offered ∧ ¬ Locked p := by
  have fin : ∀ p, UserPassword e m.user none p → PasswordMatches e p offered → ∃ p, SystemPassword e m.user p ∧ PasswordMatches e p offered ∧ ¬ Locked p := by
    intro p hp hq
    rcases hp with ⟨cl, hc, -⟩ | ⟨-, hs, -⟩
    · cases hc
    · refine ⟨p, hs, hq, ?_⟩
      intro hl
      rcases hq with ⟨h1, -⟩ | h1 | ⟨-, -, h1⟩
      · obtain ⟨t, ht | ht⟩ := hl <;> rw [h1] at ht <;> cases ht
      · obtain ⟨t, ht | ht⟩ := hl <;> rw [h1] at ht <;> simp at ht
      · exact he _ _ hl h1
  unfold tryMethod at h
  rcases hm with ⟨hm, rfl⟩ | ⟨hm, hk, ha⟩
  · rw [hm] at h
    simp only [Option.some.injEq] at h
    obtain ⟨p, hp, hq⟩ := (authPassword_ok ..).mp h
    exact fin p hp hq
  · rw [hm] at h
    simp only [Option.some.injEq] at h
    obtain ⟨-, h⟩ := (authKbdint_ok ..).mp h
    rcases h with ⟨f, hf, -⟩ | ⟨f, hf, -⟩ | ⟨a, p, -, hx, hp, hq⟩
    · rw [hk] at hf; cases hf
    · rw [hk] at hf; cases hf
    · rw [ha] at hx
      cases hx
      exact fin p hp hq

/-- An environment for the examples: user "u" with the hash "h!" of the password "pw", user "l" locked, user "x" expired. -/
def exEnv : Env where
  crypt := fun p _ => if p = "pw".toList then some "h!".toList else none
  passwd := fun u => if u = "u".toList ∨ u = "l".toList ∨ u = "x".toList then some ⟨['x']⟩ else none
  shadow := fun u => if u = "u".toList then some ⟨some "h!".toList, -1⟩ else if u = "l".toList then some ⟨some "!h!".toList, -1⟩ else if u = "x".toList then some ⟨some "h!".toList, 10⟩ else none
  today := 10
  systemKeys := fun _ => some [some 7]
  kbd := .system

/-- A password request. -/
def pwMsg (u p : String) : AuthMsg := ⟨u.toList, .password, p.toList, 0, .absent, []⟩

/-- A public key request. -/
def keyMsg (u : String) (k : Nat) (s : Sig) : AuthMsg := ⟨u.toList, .publickey, [], k, s, []⟩

/-- A request of the none method. -/
def noneMsg (u : String) : AuthMsg := ⟨u.toList, .none, [], 0, .absent, []⟩

example : (["u", "l", "x", "y"].map fun u => tryMethod exEnv u.toList none (pwMsg u "pw")) = [some .ok, some .fail, some .fail, some .fail] := by decide +kernel
example : CryptContract exEnv := by
  rintro p s ⟨t, rfl | rfl⟩ h
  all_goals
    simp only [exEnv] at h
    split at h
    · simp at h
    · cases h

/-! ## C33: authentication -/

/-- The request is valid for its configured user. -/
def ValidFor (e : Env) (o : Opts) (m : AuthMsg) : Prop := ∃ c, UserIs o m.user c ∧ Verified e (some c) m

/-- C33, partial: the client of an authenticated user has succeeded with every configured method, all under the same user name. Missing: sequences in which one method
succeeds twice (`ssh_auth_methods_false`). Full statement: the same without `honce`. -/
theorem ssh_auth_methods_partial (e : Env) (o : Opts) (evs : List Ev) (hsig : NoWrongSig evs)
    (honce : (authMsgs evs).Pairwise (fun a b => ValidFor e o a → ValidFor e o b → a.method ≠ b.method))
    (h : (run e true o evs fresh).2.main.authenticated = true) :
    ∃ u c, (run e true o evs fresh).2.main.username = some u ∧ UserIs o u c ∧
      ∀ meth, Configured c meth → ∃ m ∈ authMsgs evs, m.user = u ∧ m.method = meth ∧ Verified e (some c) m := by
  obtain ⟨S, hS, hI⟩ := run_inv e true o evs [] fresh (fresh_inv e true o) hsig
  rw [List.nil_append] at hI
  obtain ⟨-, hlen, u, hu⟩ := hI.authd h
  obtain ⟨cl, hcl, hmc, hall⟩ := hI.user u hu
  simp only [ClientOf, if_true] at hcl
  obtain ⟨c, rfl, hc⟩ := hcl
  refine ⟨u, c, hu, hc, ?_⟩
  intro meth hmeth
  have hpw : (S.map (·.method)).Nodup := by
    rw [List.Nodup, List.pairwise_map]
    have h1 := honce.sublist hS
    refine List.Pairwise.imp_of_mem ?_ h1
    intro a b ha hb hab
    obtain ⟨hau, hav⟩ := hall a ha
    obtain ⟨hbu, hbv⟩ := hall b hb
    exact hab ⟨c, hau ▸ hc, hav⟩ ⟨c, hbu ▸ hc, hbv⟩
  have hsub : ∀ x ∈ S.map (·.method), x ∈ clientMethods c := by
    intro x hx
    obtain ⟨m, hm, rfl⟩ := List.mem_map.mp hx
    exact (mem_clientMethods ..).mpr (verified_configured e c m (hall m hm).2)
  have hl : (clientMethods c).length ≤ (S.map (·.method)).length := by
    rw [hmc] at hlen
    simpa [needed] using hlen
  have := subset_of_length _ _ hpw hsub hl meth ((mem_clientMethods ..).mpr hmeth)
  obtain ⟨m, hm, rfl⟩ := List.mem_map.mp this
  exact ⟨m, hS.subset hm, (hall m hm).1, rfl, (hall m hm).2⟩

/-- C33, partial, for all sequences: an authenticated user made at least one valid request and at least as many as there are configured methods, all under one name. -/
theorem ssh_auth_count_partial (e : Env) (o : Opts) (evs : List Ev) (hsig : NoWrongSig evs)
    (h : (run e true o evs fresh).2.main.authenticated = true) :
    ∃ u c S, (run e true o evs fresh).2.main.username = some u ∧ UserIs o u c ∧ List.Sublist S (authMsgs evs) ∧ S ≠ [] ∧
      (∀ m ∈ S, m.user = u ∧ Verified e (some c) m) ∧ ∀ l : List Method, l.Nodup → (∀ meth ∈ l, Configured c meth) → l.length ≤ S.length := by
  obtain ⟨S, hS, hI⟩ := run_inv e true o evs [] fresh (fresh_inv e true o) hsig
  rw [List.nil_append] at hI
  obtain ⟨hne, hlen, u, hu⟩ := hI.authd h
  obtain ⟨cl, hcl, hmc, hall⟩ := hI.user u hu
  simp only [ClientOf, if_true] at hcl
  obtain ⟨c, rfl, hc⟩ := hcl
  refine ⟨u, c, S, hu, hc, hS, hne, hall, ?_⟩
  intro l hl hcf
  have := nodup_subset_length l (clientMethods c) hl (fun x hx => (mem_clientMethods ..).mpr (hcf x hx))
  rw [hmc] at hlen
  simp only [needed] at hlen
  omega

/-- A client with password and none methods, another with a key. -/
def exOpts : Opts := ⟨[[⟨"a".toList, .local [], some "$0$s".toList, false, true⟩], [⟨"k".toList, .local [none, some 5], some "$0$s".toList, false, false⟩]]⟩

/-- C33: a user with two methods gets in by the none method used twice, without the password. -/
theorem ssh_auth_methods_false : ∃ e o evs, NoWrongSig evs ∧ (run e true o evs fresh).2.main.authenticated = true ∧
    ∃ u c, (run e true o evs fresh).2.main.username = some u ∧ UserIs o u c ∧ Configured c .password ∧ ∀ m ∈ authMsgs evs, m.method ≠ .password := by
  refine ⟨exEnv, exOpts, [.msg (.auth (noneMsg "a")) true, .msg (.auth (noneMsg "a")) true], ?_, by decide +kernel, "a".toList,
    ⟨"a".toList, .local [], some "$0$s".toList, false, true⟩, by decide +kernel, ⟨[], _, rfl, rfl, by simp⟩, ⟨_, rfl⟩, ?_⟩
  · intro m b h
    simp at h
    simp [h, noneMsg]
  · intro m h
    simp [authMsgs] at h
    simp [h, noneMsg]

example : (run exEnv true exOpts [.msg (.auth (keyMsg "k" 5 .absent)) true, .msg (.auth (keyMsg "k" 5 .valid)) true, .msg (.auth (pwMsg "k" "t")) true,
    .msg (.auth (pwMsg "k" "s")) true] fresh).1 = [some .pkOk, some .partialSuccess, some .denied, some .success] := by decide +kernel
example : (run exEnv true exOpts [.msg (.auth (keyMsg "k" 5 .valid)) true, .msg (.auth (pwMsg "a" "s")) true, .msg (.auth (pwMsg "k" "s")) true] fresh).1 =
    [some .partialSuccess, some .denied, some .denied] := by decide +kernel

/-! ## C69: users of the system, public keys -/

/-- C69: an authenticated user of the system made a valid request. -/
theorem ssh_auth_system (e : Env) (o : Opts) (evs : List Ev) (hsig : NoWrongSig evs)
    (h : (run e false o evs fresh).2.main.authenticated = true) :
    ∃ u, (run e false o evs fresh).2.main.username = some u ∧ ∃ m ∈ authMsgs evs, m.user = u ∧ Verified e none m := by
  obtain ⟨S, hS, hI⟩ := run_inv e false o evs [] fresh (fresh_inv e false o) hsig
  rw [List.nil_append] at hI
  obtain ⟨hne, -, u, hu⟩ := hI.authd h
  obtain ⟨cl, hcl, -, hall⟩ := hI.user u hu
  simp only [ClientOf, Bool.false_eq_true, if_false] at hcl
  subst hcl
  cases S with
  | nil => exact absurd rfl hne
  | cons m S => exact ⟨u, hu, m, hS.subset List.mem_cons_self, hall m List.mem_cons_self⟩

example : (run exEnv false ⟨[]⟩ [.msg (.auth (pwMsg "u" "no")) true, .msg (.auth (keyMsg "u" 7 .valid)) true] fresh).1 = [some .denied, some .success] := by decide +kernel

/-- C70, partial: a public key authenticates only if it is authorized and the signature is valid, provided that libssh does not hand over wrong signatures. Full statement: the same
without `hsig`. -/
theorem ssh_pubkey_partial (e : Env) (c : Option Client) (m : AuthMsg) (hm : m.method = .publickey) (hsig : m.sig ≠ .wrong)
    (h : tryMethod e m.user c m = some .ok) : AuthorizedKey e m.user c m.key ∧ m.sig = .valid := by
  rcases (tryMethod_ok e c m hsig).mp h with ⟨h, -⟩ | ⟨h, -⟩ | ⟨-, h⟩ | ⟨h, -⟩
  · rw [hm] at h; cases h
  · rw [hm] at h; cases h
  · exact h
  · rw [hm] at h; cases h

/-- C70: the library itself accepts a wrong signature. -/
theorem ssh_pubkey_false : ∃ e m, m.method = .publickey ∧ m.sig = .wrong ∧ tryMethod e m.user none m = some .ok :=
  ⟨exEnv, keyMsg "u" 7 .wrong, rfl, rfl, by decide +kernel⟩

example : tryMethod exEnv "u".toList none (keyMsg "u" 7 .valid) = some .ok ∧ tryMethod exEnv "u".toList none (keyMsg "u" 8 .valid) = some .fail ∧
    tryMethod exEnv "u".toList none (keyMsg "u" 7 .absent) = some .replied := by decide +kernel

/-! ## C34: channels only after authentication -/

theorem run_channel (e : Env) (l : Bool) (o : Opts) (evs : List Ev) : ∀ c : Conn, c.main.authenticated = false → ∀ (i : Nat) (m : Msg) (b : Bool),
    evs[i]? = some (.msg m b) → (∀ a, m ≠ .auth a) → (run e l o evs c).1[i]? = some (some .success) →
    ∃ j < i, ∃ a b', evs[j]? = some (.msg (.auth a) b') ∧ (run e l o evs c).1[j]? = some (some .success) := by
  induction evs with
  | nil => intro c _ i m b h; simp at h
  | cons ev evs ih =>
    intro c hna i m b hi hm hr
    cases ev with
    | status s =>
      cases i with
      | zero => simp at hi
      | succ i =>
        obtain ⟨j, hj, a, b', h1, h2⟩ := ih { c with main := { c.main with status := s } } hna i m b (by simpa using hi) hm (by simpa [run] using hr)
        exact ⟨j + 1, by omega, a, b', by simpa using h1, by simpa [run] using h2⟩
    | msg m' b' =>
      cases i with
      | zero =>
        simp at hi
        obtain ⟨rfl, rfl⟩ := hi
        simp only [run, sshMsg_denied _ _ _ _ _ _ _ hna hm] at hr
        simp at hr
      | succ i =>
        by_cases ha : (sshMsg e l o (!c.main.authenticated) b' m' c).2.main.authenticated = true
        · obtain ⟨⟨a, rfl⟩, h⟩ := sshMsg_auth_only e l o _ b' m' c hna ha
          exact ⟨0, by omega, a, b', by simp, by simp [run, h]⟩
        · obtain ⟨j, hj, a, b'', h1, h2⟩ := ih _ (by simpa using ha) i m b (by simpa using hi) hm (by simpa [run] using hr)
          exact ⟨j + 1, by omega, a, b'', by simpa using h1, by simpa [run] using h2⟩

/-- C34: whenever a channel or a subsystem is granted, an authentication request was granted before. -/
theorem ssh_channel_after_auth (e : Env) (l : Bool) (o : Opts) (evs : List Ev) (i : Nat) (m : Msg) (b : Bool)
    (hi : evs[i]? = some (.msg m b)) (hm : ∀ a, m ≠ .auth a) (hr : (run e l o evs fresh).1[i]? = some (some .success)) :
    ∃ j < i, ∃ a b', evs[j]? = some (.msg (.auth a) b') ∧ (run e l o evs fresh).1[j]? = some (some .success) :=
  run_channel e l o evs fresh rfl i m b hi hm hr

/-- C34: as long as the client is not authenticated, there is no channel, no subsystem and no other session. -/
theorem ssh_nothing_before_auth (e : Env) (l : Bool) (o : Opts) (evs : List Ev) (h : (run e l o evs fresh).2.main.authenticated = false) :
    (run e l o evs fresh).2.main.channel = none ∧ (run e l o evs fresh).2.main.subsys = false ∧ (run e l o evs fresh).2.others = [] ∧
    (run e l o evs fresh).2.channels = 0 :=
  run_unauth e l o evs fresh (fun _ => ⟨rfl, rfl, rfl, rfl⟩) h

/-- C34: once authenticated, every authentication request is denied and the user stays the same. -/
theorem ssh_no_reauth (e : Env) (l : Bool) (o : Opts) (evs : List Ev) : ∀ c : Conn, c.main.authenticated = true →
    (run e l o evs c).2.main.authenticated = true ∧ (run e l o evs c).2.main.username = c.main.username ∧
    ∀ (i : Nat) (a : AuthMsg) (b : Bool), evs[i]? = some (.msg (.auth a) b) → (run e l o evs c).1[i]? = some (some .denied) := by
  induction evs with
  | nil => intro c h; exact ⟨h, rfl, fun i a b h => by simp at h⟩
  | cons ev evs ih =>
    intro c h
    cases ev with
    | status s =>
      obtain ⟨h1, h2, h3⟩ := ih { c with main := { c.main with status := s } } h
      refine ⟨h1, h2, ?_⟩
      intro i a b hi
      cases i with
      | zero => simp at hi
      | succ i => simpa [run] using h3 i a b (by simpa using hi)
    | msg m b =>
      have key : (sshMsg e l o (!c.main.authenticated) b m c).2.main.authenticated = true ∧
          (sshMsg e l o (!c.main.authenticated) b m c).2.main.username = c.main.username ∧
          ((∃ a, m = .auth a) → (sshMsg e l o (!c.main.authenticated) b m c).1 = .denied) := by
        unfold sshMsg
        split
        · exact ⟨h, rfl, fun _ => rfl⟩
        · cases m with
          | auth a => simp [h]
          | channelOpen s => cases s <;> simp [h, (channelOpen_same b c).1, (channelOpen_same b c).2.1]
          | subsystem n t => simp [h, (channelSubsystem_same n t c).1, (channelSubsystem_same n t c).2.1]
          | other => simp [h]
      obtain ⟨k1, k2, k3⟩ := key
      obtain ⟨h1, h2, h3⟩ := ih _ k1
      refine ⟨h1, h2.trans k2, ?_⟩
      intro i a b' hi
      cases i with
      | zero =>
        simp at hi
        simp [run, k3 ⟨a, hi.1⟩]
      | succ i => simpa [run] using h3 i a b' (by simpa using hi)

example : (run exEnv false ⟨[]⟩ [.msg (.channelOpen true) true, .msg (.subsystem 0 "netconf".toList) true, .msg (.auth (pwMsg "u" "pw")) true, .msg (.auth (pwMsg "u" "pw")) true,
    .msg (.channelOpen true) true, .msg (.subsystem 0 "sftp".toList) true, .msg (.subsystem 0 "netconf".toList) true] fresh).1 =
    [some .denied, some .denied, some .success, some .denied, some .success, some .denied, some .success] := by decide +kernel

/-! ## C71: one session on a channel -/

/-- C71, partial: the sessions of one connection are on different channels if the subsystem is requested at most once for each channel. Full statement: without `hreq`. -/
theorem ssh_channel_sessions_partial (e : Env) (l : Bool) (o : Opts) (evs : List Ev)
    (hreq : evs.Pairwise (fun x y => ∀ n s a t b, x = .msg (.subsystem n s) a → y ≠ .msg (.subsystem n t) b)) :
    (((if (run e l o evs fresh).2.main.subsys then [(run e l o evs fresh).2.main] else []) ++ (run e l o evs fresh).2.others.reverse).map (·.channel)).Nodup := by
  have hmem : ∀ (evs : List Ev) n, n ∈ requests evs → ∃ t b, Ev.msg (.subsystem n t) b ∈ evs := by
    intro evs n
    induction evs with
    | nil => simp [requests]
    | cons ev evs ih =>
      intro h
      rw [requests_cons] at h
      rcases List.mem_append.mp h with h | h
      · cases ev with
        | status s => simp [requests] at h
        | msg m b =>
          cases m with
          | subsystem k t => simp [requests] at h; subst h; exact ⟨t, b, List.mem_cons_self⟩
          | _ => simp [requests] at h
      · obtain ⟨t, b, h⟩ := ih h
        exact ⟨t, b, List.mem_cons_of_mem _ h⟩
  have hnd : (requests evs).Nodup := by
    clear l o e
    induction evs with
    | nil => exact List.nodup_nil
    | cons ev evs ih =>
      rw [List.pairwise_cons] at hreq
      have ih := ih hreq.2
      cases ev with
      | status s => simpa [requests] using ih
      | msg m b =>
        cases m with
        | subsystem n t =>
          rw [requests, List.nodup_cons]
          refine ⟨?_, ih⟩
          intro hn
          obtain ⟨t', b', hb⟩ := hmem evs n hn
          exact hreq.1 _ hb n t b t' b' rfl rfl
        | _ => simpa [requests] using ih
  obtain ⟨R, h1, h2⟩ := run_sessions e l o evs fresh (by simp [fresh])
  have h3 : (sessions fresh).map (·.channel) = [] := by simp [sessions, fresh]
  rw [h3, List.nil_append] at h2
  have : (R.map some).Nodup := by
    rw [List.Nodup, List.pairwise_map]
    exact List.Pairwise.imp (fun h => by simpa using h) (hnd.sublist h1)
  rw [← h2] at this
  exact this

/-- C71: two sessions on one channel. -/
theorem ssh_channel_sessions_false : ∃ e o evs, ∃ a ∈ (run e false o evs fresh).2.others, ∃ n, a.channel = some n ∧ a.subsys = true ∧
    (run e false o evs fresh).2.others = [a, a] :=
  ⟨exEnv, ⟨[]⟩, [.msg (.auth (pwMsg "u" "pw")) true, .msg (.channelOpen true) true, .msg (.subsystem 0 "netconf".toList) true, .msg (.channelOpen true) true,
    .msg (.subsystem 1 "netconf".toList) true, .msg (.subsystem 1 "netconf".toList) true], ⟨.starting, some 1, true, true, some "u".toList⟩, by decide +kernel, 1, rfl, rfl,
    by decide +kernel⟩

example : (run exEnv false ⟨[]⟩ [.msg (.auth (pwMsg "u" "pw")) true, .msg (.channelOpen true) true, .msg (.channelOpen true) true, .msg (.subsystem 0 "netconf".toList) true,
    .msg (.subsystem 1 "netconf".toList) true] fresh).2.others.map (·.channel) = [some 1] := by decide +kernel

/-! ## C72: a channel gets its session -/

/-- C72, partial: the first request for the netconf subsystem on a connection is granted, whatever channel it is for, while the session is being established. Missing: later requests,
`ssh_subsystem_false`. -/
theorem ssh_subsystem_partial (e : Env) (l : Bool) (o : Opts) (evs : List Ev) (n : Nat) (b : Bool)
    (hfirst : ∀ k t b', Ev.msg (.subsystem k t) b' ∉ evs) (ha : (run e l o evs fresh).2.main.authenticated = true)
    (hs : (run e l o evs fresh).2.main.status = .starting) :
    (sshMsg e l o false b (.subsystem n "netconf".toList) (run e l o evs fresh).2).1 = .success := by
  have hr : requests evs = [] := by
    clear ha hs
    induction evs with
    | nil => rfl
    | cons ev evs ih =>
      have ih := ih (fun k t b' h => hfirst k t b' (List.mem_cons_of_mem _ h))
      cases ev with
      | status s => simpa [requests] using ih
      | msg m b' =>
        cases m with
        | subsystem k t => exact absurd List.mem_cons_self (hfirst k t b')
        | _ => simpa [requests] using ih
  obtain ⟨R, h1, h2⟩ := run_sessions e l o evs fresh (by simp [fresh])
  rw [hr, List.sublist_nil] at h1
  subst h1
  have h3 : (sessions fresh).map (·.channel) = [] := by simp [sessions, fresh]
  rw [h3] at h2
  have h4 : sessions (run e l o evs fresh).2 = [] := by simpa using h2
  unfold sessions at h4
  obtain ⟨h5, h6⟩ := List.append_eq_nil_iff.mp h4
  have h6 : (run e l o evs fresh).2.others = [] := by simpa using h6
  have h5 : (run e l o evs fresh).2.main.subsys = false := by
    cases h : (run e l o evs fresh).2.main.subsys with
    | false => rfl
    | true => rw [h] at h5; simp at h5
  unfold sshMsg
  rw [if_neg (by rw [hs]; simp)]
  simp only [ha, if_true]
  unfold channelSubsystem
  rw [if_neg (by simp)]
  split
  · rw [if_neg (by simp [h6, hs]), if_neg (by simp [h5])]
  · rfl

/-- C72, partial: in the usual order, one channel and then the subsystem for it, the session being established gets that channel. -/
theorem ssh_first_channel_partial (e : Env) (l : Bool) (o : Opts) (evs : List Ev) (b : Bool)
    (hfirst : ∀ k t b', Ev.msg (.subsystem k t) b' ∉ evs) (ha : (run e l o evs fresh).2.main.authenticated = true)
    (hs : (run e l o evs fresh).2.main.status = .starting) (hc : (run e l o evs fresh).2.main.channel = none) :
    ∃ c1 c2, sshMsg e l o false true (.channelOpen true) (run e l o evs fresh).2 = (.success, c1) ∧
      sshMsg e l o false b (.subsystem (run e l o evs fresh).2.channels "netconf".toList) c1 = (.success, c2) ∧
      c2.main.channel = some (run e l o evs fresh).2.channels ∧ c2.main.subsys = true ∧ c2.main.username = (run e l o evs fresh).2.main.username ∧ c2.others = [] := by
  have hr : requests evs = [] := by
    clear ha hs hc
    induction evs with
    | nil => rfl
    | cons ev evs ih =>
      have ih := ih (fun k t b' h => hfirst k t b' (List.mem_cons_of_mem _ h))
      cases ev with
      | status s => simpa [requests] using ih
      | msg m b' =>
        cases m with
        | subsystem k t => exact absurd List.mem_cons_self (hfirst k t b')
        | _ => simpa [requests] using ih
  obtain ⟨R, h1, h2⟩ := run_sessions e l o evs fresh (by simp [fresh])
  rw [hr, List.sublist_nil] at h1
  subst h1
  have h3 : (sessions fresh).map (·.channel) = [] := by simp [sessions, fresh]
  rw [h3] at h2
  have h4 : sessions (run e l o evs fresh).2 = [] := by simpa using h2
  unfold sessions at h4
  obtain ⟨h5, h6⟩ := List.append_eq_nil_iff.mp h4
  have h6 : (run e l o evs fresh).2.others = [] := by simpa using h6
  have h5 : (run e l o evs fresh).2.main.subsys = false := by
    cases h : (run e l o evs fresh).2.main.subsys with
    | false => rfl
    | true => rw [h] at h5; simp at h5
  generalize (run e l o evs fresh).2 = c at *
  refine ⟨{ c with main := { c.main with channel := some c.channels }, channels := c.channels + 1 },
    { c with main := { c.main with channel := some c.channels, subsys := true }, channels := c.channels + 1 }, ?_, ?_, ?_⟩
  · unfold sshMsg
    rw [if_neg (by rw [hs]; simp)]
    simp only [ha, if_true]
    unfold channelOpen
    rw [hc]
    simp [hs, ha]
  · unfold sshMsg
    rw [if_neg (by simp [hs])]
    simp only [ha, if_true]
    unfold channelSubsystem
    rw [if_neg (by simp)]
    simp only [if_true, h6, hs, h5, ne_eq, not_true, or_self, if_false, Bool.false_eq_true]
  · simp [h6]

/-- After a refused and an accepted password the first channel and its subsystem are accepted. -/
example : let c := (run exEnv false ⟨[]⟩ [.msg (.auth (pwMsg "u" "no")) true, .msg (.auth (pwMsg "u" "pw")) true] fresh).2
    c.main.authenticated = true ∧ c.main.status = .starting ∧ c.main.channel = none ∧ (sshMsg exEnv false ⟨[]⟩ false true (.channelOpen true) c).1 = .success := by decide +kernel

/-- C72: two channels are opened and the subsystem is requested for the second one first; the request for the first one is then denied for ever, and it cannot become a session. -/
theorem ssh_subsystem_false : ∃ e o evs, (run e false o evs fresh).1 = [some .success, some .success, some .success, some .success] ∧
    (run e false o evs fresh).2.channels = 2 ∧ (∀ s ∈ (run e false o evs fresh).2.others, s.channel ≠ some 0) ∧ (run e false o evs fresh).2.main.subsys = false ∧
    (run e false o evs fresh).2.main.status = .starting ∧
    (sshMsg e false o false true (.subsystem 0 "netconf".toList) (run e false o evs fresh).2).1 = .denied :=
  ⟨exEnv, ⟨[]⟩, [.msg (.auth (pwMsg "u" "pw")) true, .msg (.channelOpen true) true, .msg (.channelOpen true) true, .msg (.subsystem 1 "netconf".toList) true],
    by decide +kernel, by decide +kernel, by decide +kernel, by decide +kernel, by decide +kernel, by decide +kernel⟩

end Verif.Props
