import Verif.Spec.SshAuth

namespace Verif.SshAuth

theorem comparePassword_iff (e : Env) (stored offered : Text) : comparePassword e stored offered = true ↔ PasswordMatches e stored offered := by
  unfold comparePassword PasswordMatches
  by_cases h0 : stored = []
  · subst h0; simp
  · rw [if_neg h0]
    by_cases h1 : ['$', '0', '$'].isPrefixOf stored = true
    · rw [if_pos h1]
      rw [List.isPrefixOf_iff_prefix] at h1
      obtain ⟨t, rfl⟩ := h1
      simp
    · rw [if_neg h1]
      have hn : ∀ t, stored ≠ '$' :: '0' :: '$' :: t := by
        rintro t rfl
        exact h1 (by simp [List.isPrefixOf])
      cases hc : e.crypt offered stored with
      | none => simp [h0, hn]
      | some r => simp [h0, hn]

theorem getPwdHash_iff (e : Env) (user p : Text) : getPwdHash e user = some p ↔
    (SystemPassword e user p ∧ p ≠ ['*'] ∧ p ≠ ['!'] ∧ p ≠ "*NP*".toList) := by
  have hnp : "*NP*".toList = ['*', 'N', 'P', '*'] := by decide
  have tail : ∀ h : Option Text, (match h with | none => none | some h => if h = ['*'] ∨ h = ['!'] then none else if h = ['*', 'N', 'P', '*'] then none else some h) = some p ↔
      h = some p ∧ p ≠ ['*'] ∧ p ≠ ['!'] ∧ p ≠ ['*', 'N', 'P', '*'] := by
    intro h
    cases h with
    | none => simp
    | some h =>
      simp only [Option.some.injEq]
      split
      · rename_i hh
        constructor
        · intro x; cases x
        · rintro ⟨rfl, a, b, -⟩; exact absurd hh (by simp [a, b])
      · rename_i hh
        split
        · rename_i h2
          constructor
          · intro x; cases x
          · rintro ⟨rfl, -, -, c⟩; exact absurd h2 c
        · rename_i h2
          constructor
          · intro x; cases x; exact ⟨rfl, fun a => hh (.inl a), fun a => hh (.inr a), h2⟩
          · rintro ⟨rfl, -⟩; rfl
  rw [hnp]
  unfold getPwdHash SystemPassword
  cases hp : e.passwd user with
  | none => simp
  | some entry =>
    refine (tail _).trans ?_
    refine and_congr_left fun _ => ?_
    by_cases hx : entry.pass = ['x']
    · rw [if_pos hx]
      cases hs : e.shadow user with
      | none => simp [hx]
      | some sh =>
        simp only [Option.some.injEq]
        split
        · rename_i hexp
          constructor
          · intro h; cases h
          · rintro ⟨_, rfl, ⟨h, -⟩ | ⟨-, _, rfl, -, h⟩⟩
            · exact absurd hx h
            · omega
        · rename_i hexp
          constructor
          · intro h; exact ⟨entry, rfl, .inr ⟨hx, sh, rfl, h, by omega⟩⟩
          · rintro ⟨_, rfl, ⟨h, -⟩ | ⟨-, _, rfl, h, -⟩⟩
            · exact absurd hx h
            · exact h
    · rw [if_neg hx]
      constructor
      · intro h; cases h; exact ⟨entry, rfl, .inl ⟨hx, rfl⟩⟩
      · rintro ⟨_, h, ⟨-, rfl⟩ | ⟨h', -⟩⟩
        · cases h; rfl
        · cases h; exact absurd h' hx

theorem userPassword_local (e : Env) (user : Text) (cl : Client) (p : Text) : UserPassword e user (some cl) p ↔ cl.password = some p := by
  simp [UserPassword]

theorem userPassword_system (e : Env) (user p : Text) : UserPassword e user none p ↔ getPwdHash e user = some p := by
  rw [getPwdHash_iff]; simp [UserPassword]

theorem authPassword_ok (e : Env) (user : Text) (c : Option Client) (m : AuthMsg) : authPassword e user c m = .ok ↔
    ∃ p, UserPassword e user c p ∧ PasswordMatches e p m.password := by
  unfold authPassword
  cases c with
  | none =>
    simp only [userPassword_system]
    cases h : getPwdHash e user with
    | none => simp
    | some p =>
      simp only [Option.some.injEq]
      by_cases hc : comparePassword e p m.password = true
      · rw [if_pos hc]; rw [comparePassword_iff] at hc; simp [hc]
      · rw [if_neg hc]; rw [comparePassword_iff] at hc; simp [hc]
  | some cl =>
    simp only [userPassword_local]
    cases h : cl.password with
    | none => simp
    | some p =>
      simp only [Option.some.injEq]
      by_cases hc : comparePassword e p m.password = true
      · rw [if_pos hc]; rw [comparePassword_iff] at hc; simp [hc]
      · rw [if_neg hc]; rw [comparePassword_iff] at hc; simp [hc]

theorem compareKey_iff (key : Nat) (ks : List (Option Nat)) : compareKey key ks = true ↔ some key ∈ ks := by
  unfold compareKey
  rw [List.any_eq_true]
  constructor
  · rintro ⟨x, hx, h⟩; rw [beq_iff_eq] at h; exact h ▸ hx
  · intro h; exact ⟨_, h, by simp⟩

theorem authorized_iff (e : Env) (user : Text) (c : Option Client) (key : Nat) : AuthorizedKey e user c key ↔
    ∃ ks, authKeys e user c = some ks ∧ some key ∈ ks := by
  unfold AuthorizedKey authKeys
  cases c with
  | none => simp
  | some cl =>
    cases hs : cl.store with
    | «local» ks => simp [hs]
    | truststore ks => simp [hs]
    | system => simp [hs]

theorem authPubkey_ok (e : Env) (user : Text) (c : Option Client) (m : AuthMsg) : authPubkey e user c m = .ok ↔
    AuthorizedKey e user c m.key ∧ m.sig ≠ .absent := by
  rw [authorized_iff]
  unfold authPubkey
  cases h : authKeys e user c with
  | none => simp
  | some ks =>
    simp only [Option.some.injEq, exists_eq_left']
    by_cases hk : compareKey m.key ks = true
    · rw [if_neg (by simp [hk])]
      rw [compareKey_iff] at hk
      by_cases ha : m.sig = .absent
      · simp [ha]
      · simp [ha, hk]
    · rw [if_pos (by simpa using hk)]
      rw [compareKey_iff] at hk
      simp [hk]

theorem kbdintSystem_iff (e : Env) (user : Text) (m : AuthMsg) : kbdintSystem e user m = true ↔
    ∃ a p, m.answers = [a] ∧ UserPassword e user none p ∧ PasswordMatches e p a := by
  unfold kbdintSystem
  simp only [userPassword_system]
  cases h : getPwdHash e user with
  | none => simp
  | some p =>
    simp only []
    split
    · rename_i a ha
      rw [comparePassword_iff]
      constructor
      · intro hm; exact ⟨a, p, ha, rfl, hm⟩
      · rintro ⟨a', p', h1, h2, h3⟩
        rw [ha] at h1
        cases h1; cases h2; exact h3
    · rename_i hne
      constructor
      · intro h; cases h
      · rintro ⟨a', p', h1, -⟩; exact absurd h1 (hne a')

theorem authKbdint_ok (e : Env) (user : Text) (c : Option Client) (m : AuthMsg) : authKbdint e user c m = .ok ↔
    (∀ cl, c = some cl → cl.kbdint = true) ∧ AnswersMatch e user m.answers := by
  have ite_ok : ∀ b : Bool, (if b = true then Ret.ok else Ret.fail) = .ok ↔ b = true := by intro b; cases b <;> simp
  have main : (match e.kbd with | .callback f => f user m.answers | .pam f => f user m.answers | .system => kbdintSystem e user m) = true ↔
      AnswersMatch e user m.answers := by
    unfold AnswersMatch
    cases hk : e.kbd with
    | callback f => simp
    | pam f => simp
    | system => simp [kbdintSystem_iff]
  unfold authKbdint
  cases c with
  | none =>
    simp only [Bool.false_eq_true, if_false, ite_ok]
    refine main.trans ?_
    simp
  | some cl =>
    cases hb : cl.kbdint with
    | false => simp [hb]
    | true =>
      simp only [hb, Bool.not_true, Bool.false_eq_true, if_false, ite_ok]
      refine main.trans ?_
      simp [hb]

theorem authNone_ok (c : Option Client) : authNone c = .ok ↔ ∃ cl, c = some cl ∧ cl.none = true := by
  cases c with
  | none => simp [authNone]
  | some cl => cases h : cl.none <;> simp [authNone, h]

/-- A method succeeds exactly for verified requests, up to the signature. -/
theorem tryMethod_ok (e : Env) (c : Option Client) (m : AuthMsg) (hs : m.sig ≠ .wrong) : tryMethod e m.user c m = some .ok ↔ Verified e c m := by
  unfold tryMethod Verified
  cases hm : m.method with
  | none => simp [authNone_ok]
  | password => simp [authPassword_ok]
  | publickey =>
    simp only [Option.some.injEq, authPubkey_ok]
    have : m.sig ≠ .absent ↔ m.sig = .valid := by cases h : m.sig <;> simp_all
    simp [this]
  | interactive => simp [authKbdint_ok]
  | other => simp

theorem mem_clientMethods (c : Client) (m : Method) : m ∈ clientMethods c ↔ Configured c m := by
  unfold clientMethods Configured
  cases m <;> cases hs : c.store <;> cases hp : c.password <;> cases hk : c.kbdint <;> cases hn : c.none <;> simp_all
  all_goals (split <;> simp_all)

theorem verified_configured (e : Env) (c : Client) (m : AuthMsg) (h : Verified e (some c) m) : Configured c m.method := by
  rcases h with ⟨hm, cl, hc, h⟩ | ⟨hm, p, hp, -⟩ | ⟨hm, hk, -⟩ | ⟨hm, h, -⟩
  · cases hc; rw [hm]; exact h
  · rw [hm]; exact ⟨p, (userPassword_local ..).mp hp⟩
  · rw [hm]
    rcases hk with ⟨h, -⟩ | ⟨cl, hc, ⟨h, -⟩ | ⟨ks, h, hk⟩ | ⟨ks, h, -⟩⟩
    · cases h
    · cases hc; simp [Configured, h]
    · cases hc; simp only [Configured, h]; intro h; cases h; simp at hk
    · cases hc; simp [Configured, h]
  · rw [hm]; exact h c rfl

theorem find_userIs (o : Opts) (user : Text) (c : Client) :
    o.chain.flatten.find? (fun c => decide (c.name = user)) = some c ↔ UserIs o user c := by
  unfold UserIs
  rw [List.find?_eq_some_iff_append]
  constructor
  · rintro ⟨h, pre, post, he, hp⟩
    exact ⟨pre, post, he, by simpa using h, fun d hd => by simpa using hp d hd⟩
  · rintro ⟨pre, post, he, h, hp⟩
    exact ⟨by simpa using h, pre, post, he, fun d hd => by simpa using hp d hd⟩

theorem userIs_unique {o : Opts} {user : Text} {c d : Client} (h1 : UserIs o user c) (h2 : UserIs o user d) : c = d := by
  rw [← find_userIs] at h1 h2
  rw [h1] at h2
  cases h2; rfl

theorem mem_authMsgs (evs : List Ev) (m : AuthMsg) : m ∈ authMsgs evs ↔ ∃ b, Ev.msg (.auth m) b ∈ evs := by
  induction evs with
  | nil => simp [authMsgs]
  | cons ev evs ih =>
    cases ev with
    | status s => simp [authMsgs, ih]
    | msg m' b =>
      cases m' with
      | auth x =>
        simp only [authMsgs, List.mem_cons, ih]
        constructor
        · rintro (rfl | ⟨b', h⟩)
          · exact ⟨b, .inl rfl⟩
          · exact ⟨b', .inr h⟩
        · rintro ⟨b', h | h⟩
          · cases h; exact .inl rfl
          · exact .inr ⟨b', h⟩
      | channelOpen => simp [authMsgs, ih]
      | subsystem => simp [authMsgs, ih]
      | other => simp [authMsgs, ih]

/-- The client of a user, `none` for users of the system. -/
def ClientOf (localUsers : Bool) (o : Opts) (user : Text) (c : Option Client) : Prop :=
  if localUsers then ∃ cl, c = some cl ∧ UserIs o user cl else c = none

/-- How many methods a user needs. -/
def needed : Option Client → Nat
  | some c => (clientMethods c).length
  | none => 1

/-- Invariant: `S` are the successful requests so far. -/
structure Inv (e : Env) (localUsers : Bool) (o : Opts) (S : List AuthMsg) (c : Conn) : Prop where
  succ : c.authState.successCount = S.length
  fresh : c.main.username = none → S = [] ∧ c.authState.methodCount = 0
  user : ∀ u, c.main.username = some u → ∃ cl, ClientOf localUsers o u cl ∧ c.authState.methodCount = needed cl ∧
    (∀ m ∈ S, m.user = u ∧ Verified e cl m)
  authd : c.main.authenticated = true → S ≠ [] ∧ c.authState.methodCount ≤ S.length ∧ ∃ u, c.main.username = some u

theorem clientOf_unique {l : Bool} {o : Opts} {u : Text} {a b : Option Client} (h1 : ClientOf l o u a) (h2 : ClientOf l o u b) : a = b := by
  unfold ClientOf at h1 h2
  cases l with
  | false => simp at h1 h2; rw [h1, h2]
  | true =>
    simp at h1 h2
    obtain ⟨x, rfl, hx⟩ := h1
    obtain ⟨y, rfl, hy⟩ := h2
    rw [userIs_unique hx hy]

/-- One known request. -/
theorem authKnown_inv (e : Env) (l : Bool) (o : Opts) (S : List AuthMsg) (c : Conn) (hI : Inv e l o S c) (cl : Option Client) (m : AuthMsg)
    (hcl : ClientOf l o m.user cl) (hsig : m.sig ≠ .wrong) (hna : c.main.authenticated = false) :
    ∃ S', List.Sublist S' [m] ∧
      Inv e l o (S ++ S') { c with main := (authKnown e cl m c.main c.authState).2.1, authState := (authKnown e cl m c.main c.authState).2.2 } := by
  have hb := hI.succ
  -- the common part
  have cont : ∀ (s : Sess) (a : AuthState), s.username = some m.user → s.authenticated = false → a.successCount = S.length → a.methodCount = needed cl →
      (∀ x ∈ S, x.user = m.user ∧ Verified e cl x) → ∀ r : Reply × Sess × AuthState,
      r = (match tryMethod e m.user cl m with
        | none => (.denied, s, a)
        | some .fail => (.denied, s, a)
        | some .replied => (if m.method = .publickey then .pkOk else .denied, s, a)
        | some .ok =>
          let a := { a with successMethods := m.method :: a.successMethods, successCount := a.successCount + 1 }
          if a.successCount < a.methodCount then (.partialSuccess, s, a) else (.success, { s with authenticated := true }, a)) →
      ∃ S', List.Sublist S' [m] ∧ Inv e l o (S ++ S') { c with main := r.2.1, authState := r.2.2 } := by
    intro s a hu hn hsc hmc hS r hr
    have same : Inv e l o (S ++ []) { c with main := s, authState := a } := by
      rw [List.append_nil]
      refine ⟨hsc, ?_, ?_, ?_⟩
      · intro h; simp only [] at h; rw [hu] at h; cases h
      · intro u h
        simp only [] at h
        rw [hu] at h
        cases h
        exact ⟨cl, hcl, hmc, hS⟩
      · intro h; simp only [] at h; rw [hn] at h; cases h
    cases ht : tryMethod e m.user cl m with
    | none => rw [ht] at hr; subst hr; exact ⟨[], by simp, same⟩
    | some t =>
      cases t with
      | fail => rw [ht] at hr; subst hr; exact ⟨[], by simp, same⟩
      | replied => rw [ht] at hr; subst hr; exact ⟨[], by simp, same⟩
      | ok =>
        have hv := (tryMethod_ok e cl m hsig).mp ht
        rw [ht] at hr
        simp only [] at hr
        have hall : ∀ x ∈ S ++ [m], x.user = m.user ∧ Verified e cl x := by
          intro x hx
          rcases List.mem_append.mp hx with hx | hx
          · exact hS x hx
          · rw [List.mem_singleton.mp hx]; exact ⟨rfl, hv⟩
        split at hr
        · subst hr
          refine ⟨[m], List.Sublist.refl _, ?_⟩
          refine ⟨by simp [hsc], ?_, ?_, ?_⟩
          · intro h; simp only [] at h; rw [hu] at h; cases h
          · intro u h
            simp only [] at h
            rw [hu] at h
            cases h
            exact ⟨cl, hcl, hmc, hall⟩
          · intro h; simp only [] at h; rw [hn] at h; cases h
        · rename_i hge
          subst hr
          refine ⟨[m], List.Sublist.refl _, ?_⟩
          refine ⟨by simp [hsc], ?_, ?_, ?_⟩
          · intro h; simp only [] at h; rw [hu] at h; cases h
          · intro u h
            simp only [] at h
            rw [hu] at h
            cases h
            exact ⟨cl, hcl, hmc, hall⟩
          · intro _
            refine ⟨by simp, ?_, _, hu⟩
            simp only [List.length_append, List.length_singleton]
            omega
  unfold authKnown
  cases hun : c.main.username with
  | none =>
    obtain ⟨hS, hm0⟩ := hI.fresh hun
    subst hS
    refine cont { c.main with username := some m.user } (initState cl c.authState) rfl hna ?_ ?_ (by simp) _ rfl
    · cases cl <;> simpa [initState] using hb
    · cases cl <;> simp [initState, needed, hm0]
  | some u =>
    obtain ⟨cl', hcl', hmc, hS⟩ := hI.user u hun
    simp only []
    by_cases hne : m.user = u
    · subst hne
      rw [if_neg (by simp)]
      cases clientOf_unique hcl hcl'
      exact cont c.main c.authState hun hna hb hmc hS _ rfl
    · rw [if_pos hne]
      refine ⟨[], by simp, ?_⟩
      rw [List.append_nil]
      exact ⟨hb, fun h => by simp at h, fun v hv => hI.user v (hun.trans hv), fun h => ⟨(hI.authd h).1, (hI.authd h).2.1, u, rfl⟩⟩

theorem auth_inv (e : Env) (l : Bool) (o : Opts) (S : List AuthMsg) (c : Conn) (hI : Inv e l o S c) (m : AuthMsg)
    (hsig : m.sig ≠ .wrong) (hna : c.main.authenticated = false) :
    ∃ S', List.Sublist S' [m] ∧ Inv e l o (S ++ S') { c with main := (auth e l o m c.main c.authState).2.1, authState := (auth e l o m c.main c.authState).2.2 } := by
  unfold auth
  cases l with
  | false =>
    simp only [Bool.false_eq_true, if_false]
    exact authKnown_inv e false o S c hI none m (by simp [ClientOf]) hsig hna
  | true =>
    simp only [if_true]
    cases hf : o.chain.flatten.find? (fun c => decide (c.name = m.user)) with
    | none => exact ⟨[], by simp, by simpa using hI⟩
    | some cl => exact authKnown_inv e true o S c hI (some cl) m (by simpa [ClientOf] using (find_userIs ..).mp hf) hsig hna

/-- Opening channels keeps who is authenticated. -/
theorem channelOpen_same (b : Bool) (c : Conn) : (channelOpen b c).2.main.username = c.main.username ∧
    (channelOpen b c).2.main.authenticated = c.main.authenticated ∧ (channelOpen b c).2.authState = c.authState := by
  unfold channelOpen
  split
  · split
    · simp
    · split <;> simp
  · split <;> simp

theorem channelSubsystem_same (n : Nat) (t : Text) (c : Conn) : (channelSubsystem n t c).2.main.username = c.main.username ∧
    (channelSubsystem n t c).2.main.authenticated = c.main.authenticated ∧ (channelSubsystem n t c).2.authState = c.authState := by
  unfold channelSubsystem
  split
  · simp
  · split
    · split
      · simp
      · split <;> simp
    · simp

theorem inv_congr {e : Env} {l : Bool} {o : Opts} {S : List AuthMsg} {c d : Conn} (hI : Inv e l o S c)
    (h : d.main.username = c.main.username ∧ d.main.authenticated = c.main.authenticated ∧ d.authState = c.authState) : Inv e l o S d := by
  obtain ⟨h1, h2, h3⟩ := h
  refine ⟨?_, ?_, ?_, ?_⟩
  · rw [h3]; exact hI.succ
  · rw [h1, h3]; exact hI.fresh
  · rw [h1, h3]; exact hI.user
  · rw [h1, h2, h3]; exact hI.authd

/-- One message. -/
theorem sshMsg_inv (e : Env) (l : Bool) (o : Opts) (ph b : Bool) (S : List AuthMsg) (c : Conn) (hI : Inv e l o S c) (m : Msg)
    (hsig : ∀ a, m = .auth a → a.sig ≠ .wrong) :
    ∃ S', List.Sublist S' (authMsgs [.msg m b]) ∧ Inv e l o (S ++ S') (sshMsg e l o ph b m c).2 := by
  have same : ∀ d : Conn, d.main.username = c.main.username ∧ d.main.authenticated = c.main.authenticated ∧ d.authState = c.authState →
      ∃ S', List.Sublist S' (authMsgs [.msg m b]) ∧ Inv e l o (S ++ S') d :=
    fun d hd => ⟨[], by simp, by rw [List.append_nil]; exact inv_congr hI hd⟩
  unfold sshMsg
  split
  · exact same _ ⟨rfl, rfl, rfl⟩
  · cases m with
    | auth a =>
      simp only []
      split
      · exact same _ ⟨rfl, rfl, rfl⟩
      · rename_i hna
        split
        · exact same _ ⟨rfl, rfl, rfl⟩
        · exact auth_inv e l o S c hI a (hsig a rfl) (by simpa using hna)
    | channelOpen s =>
      cases s with
      | false => exact same _ ⟨rfl, rfl, rfl⟩
      | true =>
        simp only []
        split
        · exact same _ (channelOpen_same b c)
        · exact same _ ⟨rfl, rfl, rfl⟩
    | subsystem n t =>
      simp only []
      split
      · exact same _ (channelSubsystem_same n t c)
      · exact same _ ⟨rfl, rfl, rfl⟩
    | other => exact same _ ⟨rfl, rfl, rfl⟩

theorem authMsgs_cons (ev : Ev) (evs : List Ev) : authMsgs (ev :: evs) = authMsgs [ev] ++ authMsgs evs := by
  cases ev with
  | status s => simp [authMsgs]
  | msg m b => cases m <;> simp [authMsgs]

/-- The whole run. -/
theorem run_inv (e : Env) (l : Bool) (o : Opts) (evs : List Ev) : ∀ (S : List AuthMsg) (c : Conn), Inv e l o S c → NoWrongSig evs →
    ∃ S', List.Sublist S' (authMsgs evs) ∧ Inv e l o (S ++ S') (run e l o evs c).2 := by
  induction evs with
  | nil => intro S c hI _; exact ⟨[], by simp, by simpa [run] using hI⟩
  | cons ev evs ih =>
    intro S c hI hs
    have hs' : NoWrongSig evs := fun m b h => hs m b (List.mem_cons_of_mem _ h)
    cases ev with
    | status s =>
      obtain ⟨S', h1, h2⟩ := ih S { c with main := { c.main with status := s } } (inv_congr hI ⟨rfl, rfl, rfl⟩) hs'
      exact ⟨S', by simpa [authMsgs] using h1, by simpa [run] using h2⟩
    | msg m b =>
      obtain ⟨S1, h1, h2⟩ := sshMsg_inv e l o (!c.main.authenticated) b S c hI m (fun a ha => hs a b (by rw [ha]; exact List.mem_cons_self))
      obtain ⟨S2, h3, h4⟩ := ih (S ++ S1) _ h2 hs'
      refine ⟨S1 ++ S2, ?_, by rw [← List.append_assoc]; simpa [run] using h4⟩
      rw [authMsgs_cons]
      exact List.Sublist.append h1 h3

theorem fresh_inv (e : Env) (l : Bool) (o : Opts) : Inv e l o [] fresh :=
  ⟨rfl, fun _ => ⟨rfl, rfl⟩, fun u h => by simp [fresh] at h, fun h => by simp [fresh] at h⟩

/-- Only a successful authentication request authenticates. -/
theorem sshMsg_auth_only (e : Env) (l : Bool) (o : Opts) (ph b : Bool) (m : Msg) (c : Conn) (hna : c.main.authenticated = false)
    (h : (sshMsg e l o ph b m c).2.main.authenticated = true) : (∃ a, m = .auth a) ∧ (sshMsg e l o ph b m c).1 = .success := by
  have known : ∀ (cl : Option Client) (a : AuthMsg), (authKnown e cl a c.main c.authState).2.1.authenticated = true →
      (authKnown e cl a c.main c.authState).1 = .success := by
    intro cl a
    unfold authKnown
    cases hu : c.main.username with
    | none =>
      simp only []
      cases tryMethod e a.user cl a with
      | none => simp [hna]
      | some t =>
        cases t with
        | fail => simp [hna]
        | replied => simp [hna]
        | ok =>
          simp only []
          split <;> simp [hna]
    | some u =>
      simp only []
      split
      · simp [hna]
      · cases tryMethod e a.user cl a with
        | none => simp [hna]
        | some t =>
          cases t with
          | fail => simp [hna]
          | replied => simp [hna]
          | ok =>
            simp only []
            split <;> simp [hna]
  unfold sshMsg at h ⊢
  split at h
  · simp [hna] at h
  · rename_i hst
    rw [if_neg hst]
    cases m with
    | auth a =>
      simp only [hna, Bool.false_eq_true, if_false] at h ⊢
      refine ⟨⟨a, rfl⟩, ?_⟩
      split at h
      · simp [hna] at h
      · rename_i hph
        rw [if_neg hph]
        simp only [] at h ⊢
        unfold auth at h ⊢
        split at h
        · rename_i hl
          rw [if_pos hl]
          split at h
          · simp [hna] at h
          · exact known _ _ h
        · rename_i hl
          rw [if_neg hl]
          exact known _ _ h
    | channelOpen s => cases s <;> simp [hna] at h
    | subsystem n t => simp [hna] at h
    | other => simp [hna] at h

/-- Other messages are denied before. -/
theorem sshMsg_denied (e : Env) (l : Bool) (o : Opts) (ph b : Bool) (m : Msg) (c : Conn) (hna : c.main.authenticated = false)
    (hm : ∀ a, m ≠ .auth a) : sshMsg e l o ph b m c = (.denied, c) := by
  unfold sshMsg
  split
  · rfl
  · cases m with
    | auth a => exact absurd rfl (hm a)
    | channelOpen s => cases s <;> simp [hna]
    | subsystem n t => simp [hna]
    | other => rfl

/-- Authentication requests do not touch channels. -/
theorem auth_same (e : Env) (l : Bool) (o : Opts) (m : AuthMsg) (s : Sess) (a : AuthState) :
    (auth e l o m s a).2.1.channel = s.channel ∧ (auth e l o m s a).2.1.subsys = s.subsys := by
  have known : ∀ cl, (authKnown e cl m s a).2.1.channel = s.channel ∧ (authKnown e cl m s a).2.1.subsys = s.subsys := by
    intro cl
    unfold authKnown
    cases s.username with
    | none =>
      simp only []
      cases tryMethod e m.user cl m with
      | none => simp
      | some t =>
        cases t with
        | ok => simp only []; split <;> simp
        | _ => simp
    | some u =>
      simp only []
      split
      · simp
      · cases tryMethod e m.user cl m with
        | none => simp
        | some t =>
          cases t with
          | ok => simp only []; split <;> simp
          | _ => simp
  unfold auth
  split
  · split
    · simp
    · exact known _
  · exact known _

/-- Nothing is open before the authentication. -/
theorem run_unauth (e : Env) (l : Bool) (o : Opts) (evs : List Ev) : ∀ c : Conn,
    (c.main.authenticated = false → c.main.channel = none ∧ c.main.subsys = false ∧ c.others = [] ∧ c.channels = 0) →
    (run e l o evs c).2.main.authenticated = false →
    (run e l o evs c).2.main.channel = none ∧ (run e l o evs c).2.main.subsys = false ∧ (run e l o evs c).2.others = [] ∧ (run e l o evs c).2.channels = 0 := by
  induction evs with
  | nil => intro c h; exact h
  | cons ev evs ih =>
    intro c h
    cases ev with
    | status s => exact ih _ h
    | msg m b =>
      refine ih _ ?_
      intro hn
      by_cases ha : c.main.authenticated = true
      · -- stays authenticated
        exfalso
        revert hn
        unfold sshMsg
        split
        · simp [ha]
        · cases m with
          | auth a => simp [ha]
          | channelOpen s => cases s <;> simp [ha, (channelOpen_same b c).2.1]
          | subsystem n t => simp [ha, (channelSubsystem_same n t c).2.1]
          | other => simp [ha]
      · have ha : c.main.authenticated = false := by simpa using ha
        obtain ⟨h1, h2, h3, h4⟩ := h ha
        cases m with
        | auth a =>
          unfold sshMsg
          split
          · exact ⟨h1, h2, h3, h4⟩
          · simp only [ha]
            split
            · exact ⟨h1, h2, h3, h4⟩
            · exact ⟨(auth_same ..).1.trans h1, (auth_same ..).2.trans h2, h3, h4⟩
        | _ => rw [sshMsg_denied _ _ _ _ _ _ _ ha (by intro a h; cases h)]; exact ⟨h1, h2, h3, h4⟩

/-- The sessions that have a channel with the subsystem. -/
def sessions (c : Conn) : List Sess := (if c.main.subsys then [c.main] else []) ++ c.others.reverse

/-- Channels for which the subsystem was requested. -/
def requests : List Ev → List Nat
  | [] => []
  | .msg (.subsystem n _) _ :: evs => n :: requests evs
  | _ :: evs => requests evs

theorem requests_cons (ev : Ev) (evs : List Ev) : requests (ev :: evs) = requests [ev] ++ requests evs := by
  cases ev with
  | status s => simp [requests]
  | msg m b => cases m <;> simp [requests]

/-- Sessions correspond to requests. -/
theorem sshMsg_sessions (e : Env) (l : Bool) (o : Opts) (ph b : Bool) (m : Msg) (c : Conn) (hc : c.main.subsys = true → c.main.channel ≠ none) :
    ((sshMsg e l o ph b m c).2.main.subsys = true → (sshMsg e l o ph b m c).2.main.channel ≠ none) ∧
    ∃ R, List.Sublist R (requests [.msg m b]) ∧ (sessions (sshMsg e l o ph b m c).2).map (·.channel) = (sessions c).map (·.channel) ++ R.map some := by
  have same : ∀ d : Conn, d.main.subsys = c.main.subsys → d.main.channel = c.main.channel → d.others = c.others →
      (d.main.subsys = true → d.main.channel ≠ none) ∧
      ∃ R, List.Sublist R (requests [.msg m b]) ∧ (sessions d).map (·.channel) = (sessions c).map (·.channel) ++ R.map some := by
    intro d h1 h2 h3
    refine ⟨by rw [h1, h2]; exact hc, [], by simp, ?_⟩
    unfold sessions
    rw [h1, h3]
    split <;> simp [h2]
  unfold sshMsg
  split
  · exact same c rfl rfl rfl
  · cases m with
    | auth a =>
      simp only []
      split
      · exact same c rfl rfl rfl
      · split
        · exact same c rfl rfl rfl
        · exact same _ (auth_same ..).2 (auth_same ..).1 rfl
    | channelOpen s =>
      cases s with
      | false => exact same c rfl rfl rfl
      | true =>
        simp only []
        split
        · unfold channelOpen
          split
          · rename_i hch
            split
            · exact same c rfl rfl rfl
            · split
              · exact same c rfl rfl rfl
              · have hs : c.main.subsys = false := by
                  cases h : c.main.subsys with
                  | false => rfl
                  | true => exact absurd hch (hc h)
                refine ⟨by simp [hs], [], by simp, ?_⟩
                simp [sessions, hs]
          · split
            · exact same c rfl rfl rfl
            · exact same _ rfl rfl rfl
        · exact same c rfl rfl rfl
    | subsystem n t =>
      simp only []
      split
      · unfold channelSubsystem
        split
        · exact same c rfl rfl rfl
        · split
          · rename_i hch
            split
            · exact same c rfl rfl rfl
            · rename_i ho
              have ho : c.others = [] := Classical.byContradiction fun h => ho (.inl h)
              split
              · exact same c rfl rfl rfl
              · rename_i hs
                refine ⟨by simp [hch], [n], by simp [requests], ?_⟩
                simp [sessions, ho, hch, hs]
          · refine ⟨hc, [n], by simp [requests], ?_⟩
            simp [sessions]
      · exact same c rfl rfl rfl
    | other => exact same c rfl rfl rfl

theorem run_sessions (e : Env) (l : Bool) (o : Opts) (evs : List Ev) : ∀ c : Conn, (c.main.subsys = true → c.main.channel ≠ none) →
    ∃ R, List.Sublist R (requests evs) ∧ (sessions (run e l o evs c).2).map (·.channel) = (sessions c).map (·.channel) ++ R.map some := by
  induction evs with
  | nil => intro c _; exact ⟨[], by simp, by simp [run]⟩
  | cons ev evs ih =>
    intro c hc
    cases ev with
    | status s =>
      obtain ⟨R, h1, h2⟩ := ih { c with main := { c.main with status := s } } hc
      refine ⟨R, by simpa [requests] using h1, ?_⟩
      rw [run]
      refine h2.trans ?_
      unfold sessions
      split <;> simp
    | msg m b =>
      obtain ⟨h1, R1, h2, h3⟩ := sshMsg_sessions e l o (!c.main.authenticated) b m c hc
      obtain ⟨R2, h4, h5⟩ := ih _ h1
      refine ⟨R1 ++ R2, ?_, ?_⟩
      · rw [requests_cons]; exact List.Sublist.append h2 h4
      · rw [run]
        refine h5.trans ?_
        rw [h3]
        simp

theorem nodup_subset_length {α : Type} [DecidableEq α] : ∀ (l k : List α), l.Nodup → (∀ x ∈ l, x ∈ k) → l.length ≤ k.length := by
  intro l
  induction l with
  | nil => intro k _ _; simp
  | cons a l ih =>
    intro k hn hs
    rw [List.nodup_cons] at hn
    have ha := hs a List.mem_cons_self
    have := ih (k.erase a) hn.2 (fun x hx => by
      have hne : x ≠ a := by rintro rfl; exact hn.1 hx
      exact (List.mem_erase_of_ne hne).mpr (hs x (List.mem_cons_of_mem _ hx)))
    rw [List.length_erase_of_mem ha] at this
    have : 0 < k.length := List.length_pos_of_mem ha
    simp only [List.length_cons]
    omega

theorem subset_of_length {α : Type} [DecidableEq α] (l k : List α) (hn : l.Nodup) (hs : ∀ x ∈ l, x ∈ k) (hl : k.length ≤ l.length) : ∀ x ∈ k, x ∈ l := by
  intro x hx
  refine Classical.byContradiction fun hc => ?_
  have := nodup_subset_length l (k.erase x) hn (fun y hy => by
    have hne : y ≠ x := by rintro rfl; exact hc hy
    exact (List.mem_erase_of_ne hne).mpr (hs y hy))
  rw [List.length_erase_of_mem hx] at this
  have : 0 < k.length := List.length_pos_of_mem hx
  omega

end Verif.SshAuth
