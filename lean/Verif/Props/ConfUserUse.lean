import Mathlib.Logic.Denumerable
import Mathlib.Logic.Equiv.List
import Verif.Lemmas.ConfUserUse
import Verif.Props.Login
import Verif.Props.ConfUse

/-!
# Properties: the users configured by functions, and only they, log in over SSH (C245)
-/

namespace Verif.Props
open Verif.ConfUtil (Text Schema Config)
open Verif.ConfUserUse
open Verif.Login (Vals TsSetUp opts UserConfIs)
open Verif.ConfStore (Ts TsConf)
open Verif.ConfUsers (HostConf SshConf SshData hostData)
open Verif.SshAuth (Env Ev Method Opts NoWrongSig authMsgs fresh)

/-- Users log in as wanted. Whoever is authenticated is a user that is wanted, and there are valid requests of that user, as many as there are methods
wanted for them, and at least one. And a user that is wanted, with some method, gets in by proving all methods. -/
def LogsInAsWanted (v : Vals) (env : Env) (tc : TsConf) (C : Text → Nat) (o : Opts) (m : Text → Option Want) : Prop :=
  (∀ evs, NoWrongSig evs → (SshAuth.run env true o evs fresh).2.main.authenticated = true →
    ∃ u w S, (SshAuth.run env true o evs fresh).2.main.username = some u ∧ m u = some w ∧ List.Sublist S (authMsgs evs) ∧ S ≠ [] ∧
      (∀ x ∈ S, x.user = u ∧ w.Proves v env tc C x) ∧ ∀ l : List Method, l.Nodup → (∀ meth ∈ l, w.Demands meth) → l.length ≤ S.length) ∧
  ∀ u w evs, m u = some w → NoWrongSig evs → (∀ ev ∈ evs, ∃ x b, ev = .msg x b) → (∀ x ∈ authMsgs evs, x.user = u) → (∃ meth, w.Demands meth) →
    (∀ meth, w.Demands meth → ∃ x ∈ authMsgs evs, x.method = meth ∧ w.Proves v env tc C x) →
    (SshAuth.run env true o evs fresh).2.main.authenticated = true ∧ (SshAuth.run env true o evs fresh).2.main.username = some u

/-- Users log in as wanted, if the data say what is wanted. -/
theorem users_login_data (v : Vals) (hv : TextsDiffer v) (C : Text → Nat) (hC : ∀ t, v.text (C t) = t) (env : Env) (ts : Ts) (tc : TsConf)
    (ht : TsSetUp ts tc) (e : Text) (cs : List Call) (t : List ConfUtil.Node) (hi : Inv e t (wanted cs)) (hk : SshKeys v C cs)
    (hosts : List (Nat × HostConf)) (hc : SshConf) (hh : (SshData.mk hosts []).conf v.spki = some hc) :
    ∃ s o, ConfUsers.run v.spki (sshTree C e (hosts.map (fun p => hostData p.1 p.2)) t) [] = .ok s ∧ opts v ts [s] = some o ∧
      LogsInAsWanted v env tc C o (wanted cs) := by
  have hC' : ∀ n, C (v.text n) = n := fun n => hv _ _ (hC _)
  obtain ⟨s, c, h1, h2, h3, -⟩ := setUp hC hC' hi hk hosts hh
  have hl : ∀ x ∈ [(s, c)], Login.SshSafe v x.1 x.2 := by
    intro x hx; rw [List.mem_singleton.mp hx]; exact h2
  obtain ⟨o, o1, o2⟩ := ssh_login_configured_partial v hv env [(s, c)] ts tc hl ht
  obtain ⟨o', p1, p2⟩ := ssh_login_possible_partial v hv env [(s, c)] ts tc hl ht
  have ho : o' = o := by rw [o1] at p1; cases p1; rfl
  subst ho
  refine ⟨s, o', h1, o1, ?_, ?_⟩
  · intro evs hsig ha
    obtain ⟨n, uc, S', g1, ⟨pre, c', post, g2, g3, -⟩, g4, g5, g6, g7⟩ := o2 evs hsig ha
    have hcc : c' = c := by
      have : c' ∈ pre ++ c' :: post := by simp
      rw [← g2] at this
      simpa using this
    subst hcc
    rw [h3] at g3
    obtain ⟨w, hw, rfl⟩ := Option.map_eq_some_iff.mp g3
    exact ⟨v.text n, w, S', g1, hw, g4, g5, fun x hx => ⟨(g6 x hx).1, (confOf_proves hC env tc w x).mp (g6 x hx).2⟩,
      fun l hn hd => g7 l hn (fun meth hm => (confOf_demands hC w meth).mpr (hd meth hm))⟩
  · intro u w evs hw hsig hmsg huser ⟨meth, hone⟩ hall
    have := p2 (C u) (confOf C v.text w) evs ⟨[], c, [], rfl, by rw [h3, hC, hw]; rfl, by simp⟩ hsig hmsg (by rw [hC]; exact huser)
      ⟨meth, (confOf_demands hC w meth).mpr hone⟩ (fun meth hm => by
        obtain ⟨x, q1, q2, q3⟩ := hall meth ((confOf_demands hC w meth).mp hm)
        exact ⟨x, q1, q2, (confOf_proves hC env tc w x).mpr q3⟩)
    rwa [hC] at this

/-- **C245.** Whatever users of an endpoint were configured by the functions for keys, keys of the system, references to the truststore, passwords and
keyboard-interactive authentication, and removed by the functions that delete these, in any order: with the data the server is set up, and users log in
as the calls say. What counts of a user is the last call for each method; of public keys those named, of one kind only, the last one called for. -/
theorem function_users_login (v : Vals) (hv : TextsDiffer v) (C : Text → Nat) (hC : ∀ t, v.text (C t) = t) (env : Env) (ts : Ts) (tc : TsConf)
    (ht : TsSetUp ts tc) (S : Schema) (e : Text) (he : '\'' ∉ e) (cs : List Call) (cfg : Config) (hgood : ∀ c ∈ cs, c.good) (hk : SshKeys v C cs)
    (h : build S e cs none = (true, cfg)) (hosts : List (Nat × HostConf)) (hc : SshConf) (hh : (SshData.mk hosts []).conf v.spki = some hc) :
    ∃ s o, ConfUsers.run v.spki (sshTree C e (hosts.map (fun p => hostData p.1 p.2)) (cfg.getD [])) [] = .ok s ∧ opts v ts [s] = some o ∧
      LogsInAsWanted v env tc C o (wanted cs) :=
  users_login_data v hv C hC env ts tc ht e cs (cfg.getD []) (inv_build S e he cs [] none cfg hgood (inv_nil e) h) hk hosts hc hh

/-- **C245.** After calls that succeeded, a function succeeds if and only if what it deletes is there, provided that libyang takes names and values. -/
theorem user_function_succeeds (S : Schema) (hS : Takes S) (e : Text) (he : '\'' ∉ e) (pre : List Call) (cfg : Config) (hgood : ∀ c ∈ pre, c.good)
    (h : build S e pre none = (true, cfg)) (c : Call) (hc : c.good) : (∃ t, c.run S e cfg = (true, some t)) ↔ c.possible (wanted pre c.user) := by
  have hi : Inv e (cfg.getD []) (wanted pre) := inv_build S e he pre [] none cfg hgood (inv_nil e) h
  rw [possible_img]
  constructor
  · rintro ⟨t, ht⟩ r hr
    have := call_found he hc ht r hr
    rwa [view_found, hi.at] at this
  · intro hr
    refine call_some hS he hc hi.sound (fun r hr' => ?_)
    rw [view_found, hi.at]
    exact hr r hr'

/-- **C245.** A user that is not wanted, for instance because they were deleted, never gets in. -/
theorem function_user_deleted (v : Vals) (hv : TextsDiffer v) (C : Text → Nat) (hC : ∀ t, v.text (C t) = t) (env : Env) (ts : Ts) (tc : TsConf)
    (ht : TsSetUp ts tc) (S : Schema) (e : Text) (he : '\'' ∉ e) (cs : List Call) (cfg : Config) (hgood : ∀ c ∈ cs, c.good) (hk : SshKeys v C cs)
    (u : Text) (hu : '\'' ∉ u) (post : List Call) (hpost : ∀ c ∈ post, c.good ∧ c.user ≠ u) (hk' : SshKeys v C post)
    (h : build S e (cs ++ .delUser u :: post) none = (true, cfg)) (hosts : List (Nat × HostConf)) (hc : SshConf)
    (hh : (SshData.mk hosts []).conf v.spki = some hc) :
    ∃ s o, ConfUsers.run v.spki (sshTree C e (hosts.map (fun p => hostData p.1 p.2)) (cfg.getD [])) [] = .ok s ∧ opts v ts [s] = some o ∧
      ∀ evs, NoWrongSig evs → (SshAuth.run env true o evs fresh).2.main.authenticated = true → (SshAuth.run env true o evs fresh).2.main.username ≠ some u := by
  obtain ⟨s, o, h1, h2, h3, -⟩ := function_users_login v hv C hC env ts tc ht S e he (cs ++ .delUser u :: post) cfg (by
      intro c hm
      rcases List.mem_append.mp hm with hm | hm
      · exact hgood c hm
      · rcases List.mem_cons.mp hm with rfl | hm
        · intro x hx
          rw [List.mem_singleton.mp hx]; exact hu
        · exact (hpost c hm).1) (by
      intro a b d hm
      rcases List.mem_append.mp hm with hm | hm
      · exact hk a b d hm
      · rcases List.mem_cons.mp hm with hm | hm
        · cases hm
        · exact hk' a b d hm) h hosts hc hh
  refine ⟨s, o, h1, h2, fun evs hsig ha hname => ?_⟩
  obtain ⟨u', w, S', g1, g2, -⟩ := h3 evs hsig ha
  rw [hname] at g1
  cases g1
  have : ∀ (l : List Call), (∀ c ∈ l, c.user ≠ u) → l.foldl (fun w c => if c.user = u then c.apply w else w) none = none := by
    intro l
    induction l with
    | nil => intro _; rfl
    | cons c l ih =>
      intro hl
      rw [List.foldl_cons, if_neg (hl c (.head _))]
      exact ih (fun x hx => hl x (.tail _ hx))
  have hn : wanted (cs ++ .delUser u :: post) u = none := by
    rw [wanted, List.foldl_append, List.foldl_cons, if_pos (show (Call.delUser u).user = u from rfl)]
    exact this post (fun c hm => (hpost c hm).2)
  rw [hn] at g2
  cases g2

/-! ## Examples -/

/-- The text of a number, for the examples: the other way round of `textCode`. -/
def textOf : Nat → Nat → Text
  | 0, _ => []
  | _ + 1, 0 => []
  | fuel + 1, n + 1 => textOf fuel (n / 1114112) ++ [Char.ofNat (n % 1114112)]

/-- Values for the examples. -/
def textVals : Vals := ⟨textOf 50, fun n => some n, fun _ => false⟩

/-- Ann with a password that is changed, Bob with a key after a bag of the truststore, Eve with the keys of the system, who is removed. -/
def userCalls : List Call :=
  [.password t!"ann" t!"$0$old", .tsRef t!"bob" t!"b", .authkey t!"eve", .pubkey t!"bob" t!"k" t!"A", .password t!"ann" t!"$0$s", .delUser t!"eve"]

/-- The options of the server after these calls. -/
def optsByCalls (cs : List Call) : Option Opts :=
  match build anySchema t!"main" cs none with
  | (true, some t) =>
    match ConfUsers.run textVals.spki (sshTree textCode t!"main" [] t) [] with
    | .ok s => opts textVals ⟨[], []⟩ [s]
    | _ => none
  | _ => none

/-- A request with a key or a password. -/
def userKey (u : Text) (k : Nat) : Ev := .msg (.auth ⟨u, .publickey, [], k, .valid, []⟩) true
def userPw (u p : Text) : Ev := .msg (.auth ⟨u, .password, p, 0, .absent, []⟩) true

/-- Options of the server with Ann and Bob. -/
def annBob : Opts := ⟨[[⟨t!"ann", .local [], some t!"$0$s", false, false⟩, ⟨t!"bob", .local [some 66], none, false, false⟩]]⟩

example : optsByCalls userCalls = some annBob := by decide +kernel

example : [[userPw t!"ann" t!"old"], [userPw t!"ann" t!"s"], [userKey t!"bob" 66], [userKey t!"bob" 7], [userKey t!"eve" 7]].map (fun evs =>
    (SshAuth.run exEnv true annBob evs fresh).2.main.authenticated) = [false, true, true, false, false] := by decide +kernel

/-- What is not there cannot be deleted. -/
example : (build anySchema t!"main" [.password t!"ann" t!"$0$s", .delAuthkey t!"ann"] none).1 = false := by decide +kernel

theorem pairEta {α : Type} (p : Bool × α) (h : p.1 = true) : p = (true, p.2) := by
  obtain ⟨a, b⟩ := p
  cases h
  rfl

/-- There are numbers for all texts, such that the theorems apply. -/
theorem texts_numbers : ∃ f : Text ≃ Nat, f = f := by
  let _ : Encodable Char := Encodable.ofLeftInjection Char.toNat (fun n => some (Char.ofNat n)) (fun c => by rw [Char.ofNat_toNat])
  let _ : Infinite (List Char) := Infinite.of_injective (fun n => List.replicate n 'a') (fun a b h => by simpa using congrArg List.length h)
  let _ : Denumerable (List Char) := Denumerable.ofEncodableOfInfinite (List Char)
  exact ⟨Denumerable.eqv (List Char), rfl⟩

example : ∃ (v : Vals) (C : Text → Nat) (s : ConfUsers.Ssh) (o : Opts),
    ConfUsers.run v.spki (sshTree C t!"main" [] ((build anySchema t!"main" userCalls none).2.getD [])) [] = .ok s ∧ opts v ⟨[], []⟩ [s] = some o ∧
      (SshAuth.run exEnv true o [userPw t!"ann" t!"s"] fresh).2.main.authenticated = true := by
  obtain ⟨f, -⟩ := texts_numbers
  have hb : (build anySchema t!"main" userCalls none).1 = true := by decide +kernel
  obtain ⟨s, o, h1, h2, -, h4⟩ := function_users_login ⟨f.symm, fun n => some n, fun _ => false⟩ (fun a b h => by simpa using h) f
    (fun t => f.symm_apply_apply t) exEnv ⟨[], []⟩ TsConf.empty ⟨⟨[], []⟩, ⟨[], []⟩, emptyTs, [], TsConf.empty, rfl, rfl, by decide, rfl⟩ anySchema
    t!"main" (by decide) userCalls _ (by unfold Call.good; decide) (fun _ _ _ _ => rfl) (pairEta _ hb) [] _ rfl
  have hw : wanted userCalls t!"ann" = some ⟨none, some t!"$0$s", false⟩ := by rfl
  have h5 := h4 t!"ann" ⟨none, some t!"$0$s", false⟩ [userPw t!"ann" t!"s"] hw (by intro m b hm; simp [userPw] at hm; simp [hm.1])
    (by simp [userPw]) (by simp [userPw, authMsgs]) ⟨.password, _, rfl⟩ (by
      intro meth hm
      cases meth with
      | password => exact ⟨_, List.mem_singleton.mpr rfl, rfl, _, rfl, .inr (.inl rfl)⟩
      | publickey => obtain ⟨k, hk, -⟩ := hm; cases hk
      | interactive => cases hm
      | none => cases hm
      | other => cases hm)
  exact ⟨_, f, s, o, h1, h2, h5.1⟩

end Verif.Props
