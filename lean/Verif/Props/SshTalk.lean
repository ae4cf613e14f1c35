import Verif.Lemmas.SshTalk

/-!
# Client and server of the library over SSH (C237, C238)
-/

namespace Verif.Props
open Verif.SshTalk
open Verif.ClientSsh (Key KeyFiles Res Methods authLoop hostkeyCheck connect enabled authLoop_some attempt keysLoop)
open Verif.SshAuth (Env Client UserIs Conn fresh ClientOf AnswersMatch)

theorem fresh_going (user : List Char) : Going fresh user := ⟨rfl, rfl, .inl rfl⟩

/-! ## C237: both sides agree -/

/-- **C237** If no private key is missing to a readable public key, the client connects successfully exactly if the server has authenticated it as the user of the client,
whatever the credentials, preferences and configured users are. (`SshAgree` without that condition is false, see below.) -/
theorem ssh_agree_partial (e : Env) (lu : Bool) (so : SshAuth.Opts) (me : Me) (co : ClientSsh.Opts) (kf : KeyFiles) (h : ClientSsh.Host)
    (hk : PairsReadable co.keys kf) :
    ((login e lu so me co kf h).1 = .ok ↔ LetIn (served e lu so me (login e lu so me co kf h).2) me.user) ∧
    ((login e lu so me co kf h).1 ≠ .ok → (login e lu so me co kf h).1 = .fail ∧
      (served e lu so me (login e lu so me co kf h).2).main.authenticated = false) := by
  rw [served_eq]
  suffices hs : ((login e lu so me co kf h).1 = .ok ∧ LetIn (serve e lu so me (login e lu so me co kf h).2 fresh) me.user) ∨
      ((login e lu so me co kf h).1 = .fail ∧ Going (serve e lu so me (login e lu so me co kf h).2 fresh) me.user) by
    rcases hs with ⟨h1, h2⟩ | ⟨h1, h2⟩
    · rw [h1]; exact ⟨⟨fun _ => h2, fun _ => rfl⟩, fun hn => absurd rfl hn⟩
    · rw [h1]
      refine ⟨⟨nofun, fun hl => ?_⟩, fun _ => ⟨rfl, h2.na⟩⟩
      have := hl.1.symm.trans h2.na
      cases this
  unfold login connect
  have hc : (server e lu so me).connect = .success := rfl
  rw [hc]
  simp only
  split
  · exact .inr ⟨rfl, fresh_going _⟩
  · have hn : (server e lu so me).none fresh = ask e lu so me.none fresh := rfl
    rw [hn]
    have hst := ask_step e lu so (m := me.none) (fresh_going me.user) (by simp [Me.none])
    cases hx : ask e lu so me.none fresh with
    | mk r s =>
      rw [hx] at hst
      have hse : ∀ x evs, serve e lu so me (.none x :: evs) fresh = serve e lu so me evs s := by
        intro x evs
        simp only [serve, sent, hx]
      rcases hst with ⟨h1, h2, _⟩ | ⟨h1, h2⟩ | ⟨_, h1, _⟩
      · simp only at h1 h2
        subst h1
        simp only [hse]
        exact .inl ⟨trivial, h2⟩
      · simp only at h1 h2
        rcases h1 with rfl | rfl
        · simp only [hse]
          exact authLoop_agree e lu so me co kf hk _ _ _ h2 (.inl rfl)
        · simp only [hse]
          exact authLoop_agree e lu so me co kf hk _ _ _ h2 (.inr rfl)
      · cases h1

/-! ## C238: a user with the right credentials gets in -/

theorem hostTrusted_check {co : ClientSsh.Opts} {h : ClientSsh.Host} (ht : HostTrusted co h) : (hostkeyCheck co.mode h).1 = true := by
  unfold hostkeyCheck
  rcases ht with ht | ⟨h1, h2⟩
  · simp [ht]
  · split
    · rfl
    · simp [h1, h2]

theorem enabled_eq {pref : ClientSsh.Method → Int} {l : Methods} (h : ∀ m, l.has m = true → 0 ≤ pref m) : enabled pref l = l := by
  rcases l with ⟨a, b, c⟩
  have h1 := h .kbd
  have h2 := h .pw
  have h3 := h .key
  simp only [ClientSsh.Methods.has] at h1 h2 h3
  cases a <;> cases b <;> cases c <;> simp_all [enabled]

theorem usable_nonneg {pref : ClientSsh.Method → Int} {m : ClientSsh.Method} (h : Usable pref m) : 0 ≤ pref m := by
  cases m <;> simp only [Usable] at h <;> omega

/-- The methods offered to a configured user after the first request. -/
theorem offers_configured (c : Client) (s : Conn) (u : List Char) (hu : s.main.username = some u) (hm : s.authState.methods = SshAuth.clientMethods c)
    (hs : s.authState.successMethods = if c.none then [.none] else []) :
    offers s = ⟨c.kbdint, c.password.isSome, decide (c.store ≠ .local [])⟩ ∧
    (offers s).card + (if c.none then 1 else 0) = (SshAuth.clientMethods c).length := by
  rcases c with ⟨n, st, pw, kb, no⟩
  have : (st = .local [] ∨ st ≠ .local []) := Classical.em _
  have hst : (match st with
      | SshAuth.Store.local ks => if ks = [] then ([] : List SshAuth.Method) else [.publickey]
      | .truststore _ => [.publickey]
      | .system => [.publickey]) = if st = .local [] then [] else [.publickey] := by
    cases st with
    | «local» ks => cases ks <;> simp
    | truststore _ => simp
    | system => simp
  have hcm : SshAuth.clientMethods ⟨n, st, pw, kb, no⟩ = (if st = .local [] then [] else [.publickey]) ++ (if pw.isSome then [.password] else []) ++
      (if kb then [.interactive] else []) ++ (if no then [.none] else []) := by
    rw [← hst]; cases st <;> rfl
  simp only at hs
  constructor
  · unfold offers
    rw [hu, hm, hs, hcm]
    by_cases h1 : st = .local [] <;> cases hp : pw.isSome <;> cases kb <;> cases no <;> simp [h1]
  · unfold offers
    rw [hu, hm, hs, hcm]
    by_cases h1 : st = .local [] <;> cases hp : pw.isSome <;> cases kb <;> cases no <;> simp [h1, ClientSsh.Methods.card]

/-- **C238** A client with a right credential for every method configured for its user is authenticated and told so, whatever combination of methods is configured and in
whatever order the client prefers them; each method must be preferred by more than 0 (keyboard-interactive by 0 or more). (`SshUserIn` with methods that are just not disabled
is false, see below.) -/
theorem ssh_user_in_partial (e : Env) (so : SshAuth.Opts) (me : Me) (co : ClientSsh.Opts) (kf : KeyFiles) (h : ClientSsh.Host) (c : Client)
    (huser : UserIs so me.user c) (ht : HostTrusted co h) (hr : Ready (Usable co.pref) e me co kf c) :
    (login e true so me co kf h).1 = .ok ∧ LetIn (served e true so me (login e true so me co kf h).2) me.user := by
  rw [served_eq]
  have hcl : ClientOf true so me.user (some c) := by simp only [ClientOf, ↓reduceIte]; exact ⟨c, rfl, huser⟩
  have hlen : c.none = false → 0 < (if c.kbdint then 1 else 0) + (if c.password.isSome then 1 else 0) + (if c.store ≠ .local [] then 1 else 0) := by
    intro hn
    rcases hr.any with ha | ha | ha | ha
    · cases hp : c.password with
      | none => exact absurd hp ha
      | some _ => simp; omega
    · simp only [ne_eq, ha, not_false_eq_true, ↓reduceIte]; omega
    · simp only [ha, ↓reduceIte]; omega
    · rw [hn] at ha; cases ha
  unfold login connect
  have hc : (server e true so me).connect = .success := rfl
  have hh := hostTrusted_check ht
  have hn : (server e true so me).none fresh = ask e true so me.none fresh := rfl
  have ho : (server e true so me).offers = offers := rfl
  simp only [hc, hh, Bool.true_eq_false, ↓reduceIte, hn, ho]
  have all : ∀ (s : Conn) (ret : Res), (ret = .denied ∨ ret = .part) → Going s me.user → s.main.username = some me.user → s.authState.methods = SshAuth.clientMethods c →
      s.authState.methodCount = (SshAuth.clientMethods c).length →
      s.authState.successMethods = (if c.none then [.none] else []) → s.authState.successCount = (if c.none then 1 else 0) → (offers s).card ≠ 0 →
      (authLoop (server e true so me) co kf (enabled co.pref (offers s)) ret s).1 = .ok ∧
        LetIn (serve e true so me (authLoop (server e true so me) co kf (enabled co.pref (offers s)) ret s).2 s) me.user := by
    intro s ret _ hg hu hm hmc hs hsc hcard
    obtain ⟨h1, h2⟩ := offers_configured c s me.user hu hm hs
    have hgood : ∀ m, (offers s).has m = true → Usable co.pref m ∧ Right e me co kf (some c) m := by
      intro m hm
      rw [h1] at hm
      cases m with
      | kbd =>
        have hm : c.kbdint = true := hm
        obtain ⟨q1, q2⟩ := hr.kbd hm
        exact ⟨q1, fun d hd => by cases hd; exact hm, q2⟩
      | pw =>
        have hm : c.password.isSome = true := hm
        exact hr.password (by intro hx; rw [hx] at hm; cases hm)
      | key =>
        have hm : decide (c.store ≠ .local []) = true := hm
        exact hr.key (by simpa using hm)
    rw [enabled_eq (fun m hm => usable_nonneg (hgood m hm).1)]
    exact authLoop_right e true so me co kf (some c) hcl _ _ s hg hu hcard (by omega) hgood
  obtain ⟨a0, ha0, hcase⟩ := ask_cases e (m := me.none) (fresh_going me.user) (by simp [Me.none]) hcl
  have ha : a0 = { methods := SshAuth.clientMethods c, methodCount := (SshAuth.clientMethods c).length, successMethods := [], successCount := 0 } := by
    rw [ha0]; simp [fresh, SshAuth.initState]
  subst ha
  have hse : ∀ x evs, serve e true so me (.none x :: evs) fresh = serve e true so me evs (ask e true so me.none fresh).2 := fun _ _ => rfl
  rcases hcase with ⟨hv, hk⟩ | ⟨hv, hk | ⟨hk, _⟩⟩
  · have hno : c.none = true := by
      rcases hv with ⟨_, d, hd, hv⟩ | ⟨hv, _⟩ | ⟨hv, _⟩ | ⟨hv, _⟩
      · cases hd; exact hv
      all_goals cases hv
    by_cases hl : 0 + 1 < (SshAuth.clientMethods c).length
    · simp only [hl, ↓reduceIte] at hk
      simp only [hse, hk]
      refine all _ .part (.inr rfl) ⟨rfl, rfl, .inr rfl⟩ rfl rfl rfl (by simp only [hno]; rfl) (by simp only [hno]; rfl) ?_
      have := (offers_configured c
        { fresh with main := { fresh.main with username := some me.none.user, authenticated := false },
                     authState := ⟨SshAuth.clientMethods c, (SshAuth.clientMethods c).length, [.none], 1⟩ } me.user rfl rfl (by simp only [hno]; rfl)).2
      rw [if_pos hno] at this
      intro hx
      have hx' : (offers
        { fresh with main := { fresh.main with username := some me.none.user, authenticated := false },
                     authState := ⟨SshAuth.clientMethods c, (SshAuth.clientMethods c).length, [.none], 1⟩ }).card = 0 := hx
      rw [hx'] at this
      omega
    · simp only [hl, ↓reduceIte] at hk
      simp only [hse, hk, serve]
      exact ⟨trivial, rfl, rfl⟩
  · have hno : c.none = false := by
      cases hn : c.none with
      | false => rfl
      | true => exact absurd (.inl ⟨rfl, c, rfl, hn⟩) hv
    simp only [hse, hk]
    refine all _ .denied (.inl rfl) ⟨rfl, rfl, .inr rfl⟩ rfl rfl rfl (by simp only [hno]; rfl) (by simp only [hno]; rfl) ?_
    have h1 := (offers_configured c
      { fresh with main := { fresh.main with username := some me.none.user },
                   authState := ⟨SshAuth.clientMethods c, (SshAuth.clientMethods c).length, [], 0⟩ } me.user rfl rfl (by simp only [hno]; rfl)).1
    have hl := hlen hno
    intro hx
    rw [h1] at hx
    simp only [ClientSsh.Methods.card] at hx
    cases hk : c.kbdint <;> cases hp : c.password.isSome <;> by_cases hs : c.store = .local [] <;> simp_all
  · cases hk

/-- **C238** A client with one right credential for a user of the system is authenticated and told so, if it also has some password unless passwords are disabled, and no private
key is missing to a readable public key. (`SshSystemIn` without these conditions is false, see below.) -/
theorem ssh_system_in_partial (e : Env) (so : SshAuth.Opts) (me : Me) (co : ClientSsh.Opts) (kf : KeyFiles) (h : ClientSsh.Host)
    (ht : HostTrusted co h) (hp : 0 ≤ co.pref .pw → co.password ≠ none) (hk : PairsReadable co.keys kf) (hg : OneGood (Usable co.pref) e me co kf) :
    (login e false so me co kf h).1 = .ok ∧ LetIn (served e false so me (login e false so me co kf h).2) me.user := by
  suffices hs : (login e false so me co kf h).1 = .ok from ⟨hs, (ssh_agree_partial e false so me co kf h hk).1.mp hs⟩
  have hcl : ClientOf false so me.user none := by simp [ClientOf]
  unfold login connect
  have hc : (server e false so me).connect = .success := rfl
  have hh := hostTrusted_check ht
  have hn : (server e false so me).none fresh = ask e false so me.none fresh := rfl
  have ho : (server e false so me).offers = offers := rfl
  simp only [hc, hh, Bool.true_eq_false, ↓reduceIte, hn, ho]
  obtain ⟨a0, ha0, hcase⟩ := ask_cases e (m := me.none) (fresh_going me.user) (by simp [Me.none]) hcl
  have ha : a0 = { methods := [.publickey, .password, .interactive], methodCount := 1, successMethods := [], successCount := 0 } := by
    rw [ha0]; simp [fresh, SshAuth.initState]
  subst ha
  rcases hcase with ⟨hv, _⟩ | ⟨_, hk | ⟨hk, _⟩⟩
  · rcases hv with ⟨_, d, hd, hv⟩ | ⟨hv, _⟩ | ⟨hv, _⟩ | ⟨hv, _⟩
    · cases hd
    all_goals cases hv
  · simp only [hk]
    obtain ⟨x, hux, hx⟩ : ∃ x, Usable co.pref x ∧ Right e me co kf none x := by
      rcases hg with ⟨q1, q2⟩ | ⟨q1, q2⟩ | ⟨q1, q2⟩
      · exact ⟨.pw, q1, q2⟩
      · exact ⟨.key, q1, q2⟩
      · exact ⟨.kbd, q1, nofun, q2⟩
    refine authLoop_one e false so me co kf none hcl hp _ ⟨rfl, rfl, .inr rfl⟩ rfl (by simp) x hux hx _ _ rfl ?_ ?_
    · intro hb
      simp only [enabled, ClientSsh.Methods.has, Bool.and_eq_true, decide_eq_true_eq] at hb
      omega
    · have := usable_nonneg hux
      cases x <;> simp [enabled, ClientSsh.Methods.has, offers] <;> omega
  · cases hk

/-! ## What goes wrong otherwise -/

/-- A machine for the examples: no users of its own. -/
def talkEnv : Env := ⟨fun p s => some (p ++ s), fun _ => none, fun _ => none, 0, fun u => if u = ['r'] then some [some 7] else none, .callback fun _ a => decide (a = [['1']])⟩

/-- A user with a password and a key. -/
def talkUser : Client := ⟨['u'], .local [some 5], some ['$', '0', '$', 'p'], false, false⟩

/-- A client of that user with a key pair. -/
def talkMe (u : List Char) (n : Nat) : Me := ⟨u, [['1']], fun _ => n, fun _ => n⟩

/-- The key pair. -/
def talkKey : Key := ⟨['a'], ['b'], false⟩

/-- Preferences as documented: keyboard-interactive, then password, then public key. -/
def talkPref : ClientSsh.Method → Int
  | .kbd => 3
  | .pw => 2
  | .key => 1

/-- The same without keyboard-interactive. -/
def setKbdOff (p : ClientSsh.Method → Int) : ClientSsh.Method → Int
  | .kbd => -1
  | m => p m

/-- A user who has to pass both methods gets in. -/
example : (login talkEnv true ⟨[[talkUser]]⟩ (talkMe ['u'] 5) ⟨.skip, talkPref, [talkKey], some ['p']⟩ ⟨fun _ => .ok, fun _ _ => .ok⟩
      ⟨false, .error, false, false, false, false, false, fun _ => false, []⟩).1 = .ok := by
  refine (ssh_user_in_partial talkEnv _ _ _ _ _ talkUser ⟨[], [], rfl, rfl, nofun⟩ (.inl rfl) ⟨fun _ => ⟨by simp [Usable, talkPref], ?_⟩, fun _ => ⟨by simp [Usable, talkPref], ?_⟩, nofun, .inl nofun⟩).1
  · exact ⟨['p'], _, rfl, .inl ⟨talkUser, rfl, rfl⟩, .inr (.inl rfl)⟩
  · exact ⟨talkKey, by simp, rfl, rfl, rfl, .inr ⟨talkUser, rfl, .inr (.inl ⟨[some 5], rfl, by simp [talkMe]⟩)⟩⟩

/-- With a wrong password they do not, and both sides know. -/
example : (login talkEnv true ⟨[[talkUser]]⟩ (talkMe ['u'] 5) ⟨.skip, talkPref, [talkKey], some ['q']⟩ ⟨fun _ => .ok, fun _ _ => .ok⟩
      ⟨false, .error, false, false, false, false, false, fun _ => false, []⟩) =
    (.fail, [.none .denied, .password ['q'] .denied, .tryKey talkKey .success, .sign talkKey .part]) := by
  decide +kernel

/-- **C237** In general both sides do not agree: if the private key cannot be read, the client reports success, and the server has not let it in. -/
theorem ssh_agree_false : ¬ SshAgree := by
  intro hall
  have h := (hall talkEnv true ⟨[[talkUser]]⟩ (talkMe ['u'] 5) ⟨.skip, talkPref, [talkKey], some ['q']⟩ ⟨fun _ => .ok, fun _ _ => .error⟩
      ⟨false, .error, false, false, false, false, false, fun _ => false, []⟩).mp (by decide +kernel)
  exact absurd h.1 (by decide +kernel)

/-- **C238** A method that is preferred by 0 is not disabled (nc_client_ssh_set_auth_pref), but a password is then never offered: a configured user with the right password is not let in. -/
theorem ssh_user_in_false : ¬ SshUserIn := by
  intro hall
  have h := (hall talkEnv ⟨[[{ talkUser with store := .local [] }]]⟩ (talkMe ['u'] 5) ⟨.skip, fun _ => 0, [], some ['p']⟩ ⟨fun _ => .ok, fun _ _ => .ok⟩
      ⟨false, .error, false, false, false, false, false, fun _ => false, []⟩ { talkUser with store := .local [] } ⟨[], [], rfl, rfl, nofun⟩ (.inl rfl)
      ⟨fun _ => ⟨by simp, ['p'], _, rfl, .inl ⟨_, rfl, rfl⟩, .inr (.inl rfl)⟩, fun h => absurd rfl h, nofun, .inl nofun⟩).1
  exact absurd h (by decide +kernel)

/-- **C238** A user of the system with an authorized key is not let in if passwords are preferred (as documented) and the client has none: the attempt ends there. -/
theorem ssh_system_in_false : ¬ SshSystemIn := by
  intro hall
  have h := (hall talkEnv ⟨[]⟩ (talkMe ['r'] 7) ⟨.skip, setKbdOff talkPref, [talkKey], none⟩ ⟨fun _ => .ok, fun _ _ => .ok⟩
      ⟨false, .error, false, false, false, false, false, fun _ => false, []⟩ (.inl rfl)
      (.inr (.inl ⟨by simp [Usable, setKbdOff, talkPref], talkKey, by simp, rfl, rfl, rfl, .inl ⟨rfl, [some 7], rfl, by simp [talkMe]⟩⟩))).1
  exact absurd h (by decide +kernel)

/-- With any password the same user gets in by the key. -/
example : (login talkEnv false ⟨[]⟩ (talkMe ['r'] 7) ⟨.skip, setKbdOff talkPref, [talkKey], some []⟩ ⟨fun _ => .ok, fun _ _ => .ok⟩
      ⟨false, .error, false, false, false, false, false, fun _ => false, []⟩).1 = .ok :=
  (ssh_system_in_partial talkEnv _ _ _ _ _ (.inl rfl) (fun _ => Option.some_ne_none _) (fun _ _ _ => rfl)
    (.inr (.inl ⟨by simp [Usable, setKbdOff, talkPref], talkKey, by simp, rfl, rfl, rfl, .inl ⟨rfl, [some 7], rfl, by simp [talkMe]⟩⟩))).1

/-- An unknown user does not, and knows. -/
example : login talkEnv true ⟨[[talkUser]]⟩ (talkMe ['v'] 5) ⟨.skip, talkPref, [talkKey], some ['p']⟩ ⟨fun _ => .ok, fun _ _ => .ok⟩
      ⟨false, .error, false, false, false, false, false, fun _ => false, []⟩ = (.fail, [.none .denied, .tryKey talkKey .denied]) := by
  decide +kernel

end Verif.Props
