import Verif.Spec.CtxFill
import Verif.Lemmas.CtxFill

/-! # Filling the context of a client session: properties (src/session_client.c:358-576, 702-898, 1111-1419) -/

namespace Verif.Props
open Verif.CtxFill
open Verif.ModSel (Text cpbltModule)

/-! ## A libyang that behaves -/

/-- A context gets the module parsed, unless the module is implemented in it. -/
def cfParse (c : List Mod) (t : Src) : Option (List Mod × Mod) :=
  if c.any (fun m => m.impl && m.name == t.name) then none else some (c ++ [⟨t.name, t.rev, true⟩], ⟨t.name, t.rev, true⟩)

/-- A module becomes implemented, unless another revision is. -/
def cfSet (c : List Mod) (m : Mod) : Option (List Mod) :=
  if c.any (fun x => x.impl && x.name == m.name && x.rev != m.rev) then none else some (c ++ [⟨m.name, m.rev, true⟩])

/-- Local files give every module: the latest revision of all is 2020-02-02. -/
def cfLocal (name : Text) (rev : Option Text) : Option (Src × Bool) := some (⟨name, some (rev.getD "2020-02-02".toList), 7⟩, true)

/-- Everything is in local files, the server gives nothing. -/
def cfEnv : Env := ⟨cfLocal, fun _ _ _ => .nothing, fun _ => .nothing, none, cfParse, cfSet, fun _ => true, true⟩

/-- A new session with a new context. -/
def cfNew : St := ⟨[], false, false, .before, true, true, 0⟩

def cfBase : Text := "x?module=ietf-netconf".toList
def cfA : Text := "y?module=a&revision=2011-11-11".toList
def cfYl : Text := "urn:ietf:params:netconf:capability:yang-library:1.0?revision=2016-06-21".toList
def cfMon : Text := "urn:ietf:params:xml:ns:yang:ietf-netconf-monitoring?x".toList

/-- The modules of the session above with the base module and `a`. -/
def cfMods : List Mod := [⟨"ietf-netconf".toList, some "2020-02-02".toList, true⟩, ⟨"ietf-netconf".toList, some "2020-02-02".toList, true⟩,
  ⟨"a".toList, some "2011-11-11".toList, true⟩]

theorem cfParse_some {c t c' m} (h : cfParse c t = some (c', m)) :
    (∀ x ∈ c, x.impl = true → x.name ≠ t.name) ∧ c' = c ++ [⟨t.name, t.rev, true⟩] ∧ m = ⟨t.name, t.rev, true⟩ := by
  unfold cfParse at h
  split at h
  · cases h
  · rename_i hn
    injection h with h; injection h with h1 h2
    refine ⟨fun x hx hi he => hn ?_, h1.symm, h2.symm⟩
    rw [List.any_eq_true]
    exact ⟨x, hx, by simp [hi, he]⟩

theorem cfSet_some {c m c'} (h : cfSet c m = some c') :
    (∀ x ∈ c, x.impl = true → x.name = m.name → x.rev = m.rev) ∧ c' = c ++ [⟨m.name, m.rev, true⟩] := by
  unfold cfSet at h
  split at h
  · cases h
  · rename_i hn
    injection h with h
    refine ⟨fun x hx hi he => ?_, h.symm⟩
    cases hr : decide (x.rev = m.rev) with
    | true => exact of_decide_eq_true hr
    | false =>
      refine absurd ?_ hn
      rw [List.any_eq_true]
      exact ⟨x, hx, by simp [hi, he, of_decide_eq_false hr]⟩

theorem cf_libOk {env : Env} (hp : env.parse = cfParse) (hs : env.setImpl = cfSet) : LibOk env where
  parse c t c' m h := by
    rw [hp] at h
    obtain ⟨_, rfl, rfl⟩ := cfParse_some h
    exact ⟨rfl, rfl, by simp, fun x hx _ => List.mem_append_left _ hx⟩
  setImpl c m c' h := by
    rw [hs] at h
    obtain ⟨_, rfl⟩ := cfSet_some h
    exact ⟨by simp, fun x hx _ => List.mem_append_left _ hx⟩

theorem cf_libOnly {env : Env} (hp : env.parse = cfParse) (hs : env.setImpl = cfSet) : LibOnly env where
  parse c t c' m h x hx _ := by
    rw [hp] at h
    obtain ⟨_, rfl, rfl⟩ := cfParse_some h
    simpa using hx
  setImpl c m c' h x hx _ := by
    rw [hs] at h
    obtain ⟨_, rfl⟩ := cfSet_some h
    simpa using hx

theorem cf_libOne {env : Env} (hp : env.parse = cfParse) (hs : env.setImpl = cfSet) : LibOne env where
  parse c t c' m ho h := by
    rw [hp] at h
    obtain ⟨hn, rfl, rfl⟩ := cfParse_some h
    intro x hx y hy hix hiy he
    rcases List.mem_append.1 hx with hx | hx <;> rcases List.mem_append.1 hy with hy | hy
    · exact ho x hx y hy hix hiy he
    · rw [List.mem_singleton] at hy; subst hy; exact absurd he (hn x hx hix)
    · rw [List.mem_singleton] at hx; subst hx; exact absurd he.symm (hn y hy hiy)
    · rw [List.mem_singleton] at hx hy; rw [hx, hy]
  setImpl c m c' ho h := by
    rw [hs] at h
    obtain ⟨hn, rfl⟩ := cfSet_some h
    have key : ∀ x ∈ c, x.impl = true → x.name = m.name → x = ⟨m.name, m.rev, true⟩ := by
      intro x hx hi he
      have := hn x hx hi he
      cases x; simp_all
    intro x hx y hy hix hiy he
    rcases List.mem_append.1 hx with hx | hx <;> rcases List.mem_append.1 hy with hy | hy
    · exact ho x hx y hy hix hiy he
    · rw [List.mem_singleton] at hy; subst hy; exact key x hx hix he
    · rw [List.mem_singleton] at hx; subst hx; exact (key y hy hiy he.symm).symm
    · rw [List.mem_singleton] at hx hy; rw [hx, hy]

theorem cf_setOk {env : Env} (hs : env.setImpl = cfSet) : SetOk env := by
  intro c m _ hone
  rw [hs]
  unfold cfSet
  split
  · rename_i ha
    rw [List.any_eq_true] at ha
    obtain ⟨x, hx, h⟩ := ha
    simp only [Bool.and_eq_true, beq_iff_eq, bne_iff_ne] at h
    exact absurd (congrArg Mod.rev (hone x hx h.1.1 h.1.2)) h.2
  · rfl

theorem cfLocal_fits {name rev t b} (h : cfLocal name rev = some (t, b)) : t.name = name ∧ (b = true → fits name rev t) := by
  injection h with h; injection h with h1 h2
  subst h1
  refine ⟨rfl, fun _ => ⟨rfl, ?_⟩⟩
  cases rev with
  | none => exact .inl rfl
  | some r => exact .inr rfl

theorem cf_honest : Honest cfEnv where
  localFile _ _ _ _ h := cfLocal_fits h
  server n name rev t h := by cases h
  user f name rev t fr h := by cases h

theorem cf_available : Available cfEnv where
  localFile _ _ := ⟨_, rfl⟩
  parse c t h := by
    change (cfParse c t).isSome = true
    unfold cfParse
    split
    · rename_i ha
      rw [List.any_eq_true] at ha
      obtain ⟨x, hx, hxt⟩ := ha
      simp only [Bool.and_eq_true, beq_iff_eq] at hxt
      exact absurd hxt.2 (h x hx hxt.1)
    · rfl
  compile _ := rfl
  mountOk := rfl

theorem cf_one_nil : One [] := fun _ h => by cases h

/-! ## C148: the context of a strict session has all modules of the server -/

/-- If nc_ctx_check_and_fill succeeds and the session is still strict, then, provided that libyang behaves, all sources give the texts asked for and
modules in the context can be made implemented: all modules of one of the lists that the server gave (capabilities or yang-library data) are implemented
in the context, and nothing is lost from it. A module is implemented in the listed revision, if it is listed in one revision only, was not implemented
before and is none of the modules loaded before the list is there. -/
theorem strict_complete_partial {env : Env} (hl : LibOk env) (hone : LibOne env) (hh : Honest env) (hset : SetOk env) {shared : Bool}
    {cpblts : List Text} {s s1 : St} (ho : One s.ctx) (h : checkAndFill env true shared cpblts s = .ok (s1, true)) (hs : s1.strict = true) :
    s.strict = true ∧ Keeps s.ctx s1.ctx ∧ One s1.ctx ∧
      ∃ mods, (mods = fromCpblts cpblts ∨ ∃ n, env.oper n = .data mods) ∧ Complete mods s1.ctx ∧
        (LibOnly env → ∀ m ∈ mods, m.impl = true → (∀ m' ∈ mods, m'.impl = true → m'.name = m.name → m'.rev = m.rev) →
          m.name ∉ early → (∀ x ∈ s.ctx, x.impl = true → x.name ≠ m.name) → m.rev ≠ none → (⟨m.name, m.rev, true⟩ : Mod) ∈ s1.ctx) := by
  unfold checkAndFill at h
  simp only [if_true] at h
  cases hb : body env shared cpblts s with
  | ub => rw [hb] at h; cases h
  | ok q =>
    obtain ⟨t, b⟩ := q
    rw [hb] at h
    injection h with h; injection h with h1 h2
    subst h1; subst h2
    obtain ⟨s4, s5, gs, yl, mods, hP, hstep, hmods, hfill, hctx, hstr, _, _, _, _⟩ := body_cut
      ((inv_one hone).and (inv_early' hh s.ctx)) hl (show One s.ctx ∧ (LibOnly env → ∀ x ∈ s.ctx, x.impl = true → x ∈ s.ctx ∨ x.name ∈ early) from
        ⟨ho, fun _ x hx _ => .inl hx⟩) hb
    obtain ⟨hP, hE⟩ := hP
    have hs5 : s5.strict = true := by rw [← hstr]; exact hs
    obtain ⟨hk, hst, _⟩ := fill_frame hl gs mods s4 s5 true hfill
    have hone5 : ∀ (ms : List SMod) (s s1 : St) b, One s.ctx → fill env gs ms s = .ok (s1, b) → One s1.ctx := by
      intro ms
      induction ms with
      | nil => intro s s1 b ho h; injection h with h; injection h with h; subst h; exact ho
      | cons m ms ih =>
        intro s s1 b ho h
        unfold fill at h
        split at h
        · cases hL : load env s gs m.name m.rev with
          | ub => rw [hL] at h; cases h
          | ok r =>
            obtain ⟨s2, b2, om⟩ := r
            have ho2 := load_one hone hL ho
            rw [hL] at h
            cases om with
            | some x => exact ih s2 s1 b ho2 h
            | none =>
              simp only at h
              split at h
              · have hk := fun hx => ih _ s1 b hx h; exact hk ho2
              · injection h with h; injection h with h; subst h; exact ho2
        · exact ih s s1 b ho h
    have hcomp := fill_complete hl hone hh hset gs mods s4 s5 hP hfill hs5
    refine ⟨hstep.strict (hst hs5), ?_, ?_, mods, hmods, ?_, ?_⟩
    · show Keeps s.ctx t.ctx; rw [hctx]; exact hstep.keeps.trans hk
    · show One t.ctx; rw [hctx]; exact hone5 mods s4 s5 true hP hfill
    · show Complete mods t.ctx; rw [hctx]; exact hcomp
    · intro hlo m hm hi huniq hne hnew hrev
      show _ ∈ t.ctx
      obtain ⟨x, hx, hxi, hxn⟩ := hcomp m hm hi
      rw [hctx]
      rcases fill_only hlo hh gs mods s4 s5 true hfill x hx hxi with hx4 | ⟨m', hm', hi', hn', hr'⟩
      · rcases hE hlo x hx4 hxi with hx0 | hx0
        · exact absurd hxn (hnew x hx0 hxi)
        · exact absurd (hxn ▸ hx0) hne
      · have e := huniq m' hm' hi' (hn'.symm.trans hxn)
        rcases hr' with hr' | hr'
        · exact absurd (e.symm.trans hr') hrev
        · have : x = ⟨m.name, m.rev, true⟩ := by
            cases x; simp only at hxi hxn hr'; subst hxi; subst hxn; rw [hr', e]
          exact this ▸ hx

/-- A server with `a` in one revision: the context has the base module and `a` in that revision. -/
example : checkAndFill cfEnv true false [cfBase, cfA] cfNew = .ok ({ cfNew with ctx := cfMods }, true) ∧
    (⟨"a".toList, some "2011-11-11".toList, true⟩ : Mod) ∈ cfMods := by decide +kernel

example : ∃ s1, checkAndFill cfEnv true false [cfBase, cfA] cfNew = .ok (s1, true) ∧ s1.strict = true ∧
    ∃ mods, (mods = fromCpblts [cfBase, cfA] ∨ ∃ n, cfEnv.oper n = .data mods) ∧ Complete mods s1.ctx := by
  have h : checkAndFill cfEnv true false [cfBase, cfA] cfNew = .ok ({ cfNew with ctx := cfMods }, true) := by decide +kernel
  obtain ⟨_, _, _, mods, h1, h2, _⟩ := strict_complete_partial (cf_libOk rfl rfl) (cf_libOne rfl rfl) cf_honest (cf_setOk rfl) cf_one_nil h rfl
  exact ⟨_, h, rfl, mods, h1, h2⟩

/-- A module that cannot be got makes the session not strict. -/
def cfNoA : Env := { cfEnv with localFile := fun name rev => if name == "a".toList then none else cfLocal name rev }

example : checkAndFill cfNoA true false [cfBase, cfA] cfNew = .ok ({ cfNew with ctx := cfMods.take 2, strict := false }, true) := by decide +kernel

/-- If everything can be got and the server lists the base module, a session is established that is strict, and all modules that the server announced are
implemented in its context. -/
theorem available_complete {env : Env} (hl : LibOk env) (hone : LibOne env) (hh : Honest env) (hset : SetOk env) (hav : Available env)
    (hno : ∀ n, env.oper n ≠ .broken) {s : St} (ho : One s.ctx) (ha : s.alive = true) (hst : s.strict = true) (shared : Bool) {cpblts : List Text}
    (hb : ∃ c ∈ cpblts, ∃ m, cpbltModule c = some m ∧ m.name = "ietf-netconf".toList) :
    ∃ s1, checkAndFill env true shared cpblts s = .ok (s1, true) ∧ s1.strict = true ∧ s1.alive = true ∧
      Complete (announced env cpblts s.rpcs) s1.ctx := by
  have hb' : (fromCpblts cpblts).any (fun m => m.name == netconf) = true := by
    obtain ⟨c, hc, m, hm, hn⟩ := hb
    rw [List.any_eq_true]
    refine ⟨⟨m.name, m.rev, true⟩, ?_, ?_⟩
    · unfold fromCpblts Verif.ModSel.cpbltModules
      exact List.mem_map.2 ⟨m, List.mem_filterMap.2 ⟨c, hc, hm⟩, rfl⟩
    · exact beq_iff_eq.2 hn
  obtain ⟨s1, h, h1, h2, h3⟩ := body_available hl hone hh hset hav hno ho ha hst shared hb'
  refine ⟨{ s1 with clb := .before, noDirs := false, explicit := false }, ?_, h1, h2, h3⟩
  unfold checkAndFill
  simp only [if_true, h]

/-- A server with yang-library: modules that are only in its data are implemented, modules only imported there are not. -/
def cfYlEnv : Env := { cfEnv with oper := fun _ => .data [⟨"b".toList, some "2012-12-12".toList, true⟩, ⟨"c".toList, none, false⟩] }

def cfYlMods : List Mod := [⟨"ietf-netconf".toList, some "2020-02-02".toList, true⟩, ⟨"ietf-yang-library".toList, some "2016-06-21".toList, true⟩,
  ⟨"b".toList, some "2012-12-12".toList, true⟩]

example : checkAndFill cfYlEnv true false [cfBase, cfYl] cfNew = .ok ({ cfNew with ctx := cfYlMods, rpcs := 2 }, true) ∧
    announced cfYlEnv [cfBase, cfYl] 0 = [⟨"b".toList, some "2012-12-12".toList, true⟩, ⟨"c".toList, none, false⟩] := by decide +kernel

/-- It is not enough that libyang and all sources are honest: the result of making a module of the context implemented is ignored, so that a session may
be strict though a module of the server is not implemented in the user's context. -/
theorem strict_complete_false :
    ¬ ∀ (env : Env) (shared : Bool) (cpblts : List Text) (s s1 : St), LibOk env → LibOne env → LibOnly env → Honest env → One s.ctx →
      checkAndFill env true shared cpblts s = .ok (s1, true) → s1.strict = true → Complete (announced env cpblts s.rpcs) s1.ctx := by
  intro h
  have hx := h { cfEnv with setImpl := fun _ _ => none } true [cfBase, cfA] { cfNew with ctx := [⟨"a".toList, some "2011-11-11".toList, false⟩] }
    { cfNew with ctx := [⟨"a".toList, some "2011-11-11".toList, false⟩, ⟨"ietf-netconf".toList, some "2020-02-02".toList, true⟩] }
    ⟨(cf_libOk (env := cfEnv) rfl rfl).parse, fun _ _ _ h => by cases h⟩ ⟨(cf_libOne (env := cfEnv) rfl rfl).parse, fun _ _ _ _ h => by cases h⟩
    ⟨(cf_libOnly (env := cfEnv) rfl rfl).parse, fun _ _ _ h => by cases h⟩ ⟨cf_honest.localFile, cf_honest.server, cf_honest.user⟩
    (by intro x hx y _ hi; rw [List.mem_singleton] at hx; subst hx; cases hi) (by decide +kernel) rfl
    ⟨"a".toList, some "2011-11-11".toList, true⟩ (by decide +kernel) rfl
  obtain ⟨x, hx, hi, hn⟩ := hx
  have : ∀ x ∈ [(⟨"a".toList, some "2011-11-11".toList, false⟩ : Mod), ⟨"ietf-netconf".toList, some "2020-02-02".toList, true⟩],
    ¬ (x.impl = true ∧ x.name = "a".toList) := by decide +kernel
  exact this x hx ⟨hi, hn⟩

/-- Nor is it checked that a text is that of the module: if the server sends the text of another module, the session is strict without the module. -/
theorem strict_complete_text_false :
    ¬ ∀ (env : Env) (shared : Bool) (cpblts : List Text) (s s1 : St), LibOk env → LibOne env → LibOnly env → SetOk env → One s.ctx →
      checkAndFill env true shared cpblts s = .ok (s1, true) → s1.strict = true → Complete (announced env cpblts s.rpcs) s1.ctx := by
  intro h
  have hx := h { cfNoA with server := fun _ _ _ => .text ⟨"z".toList, none, 0⟩ } true [cfBase, cfMon, cfA] cfNew
    { cfNew with
      ctx := [⟨"ietf-netconf-monitoring".toList, some "2010-10-04".toList, true⟩, ⟨"ietf-netconf".toList, some "2020-02-02".toList, true⟩,
        ⟨"ietf-netconf".toList, some "2020-02-02".toList, true⟩, ⟨"z".toList, none, true⟩],
      rpcs := 1 } (cf_libOk rfl rfl) (cf_libOne rfl rfl) (cf_libOnly rfl rfl) (cf_setOk rfl) cf_one_nil (by decide +kernel) rfl
    ⟨"a".toList, some "2011-11-11".toList, true⟩ (by decide +kernel) rfl
  obtain ⟨x, hx, hi, hn⟩ := hx
  have : ∀ x ∈ [(⟨"ietf-netconf-monitoring".toList, some "2010-10-04".toList, true⟩ : Mod), ⟨"ietf-netconf".toList, some "2020-02-02".toList, true⟩,
        ⟨"ietf-netconf".toList, some "2020-02-02".toList, true⟩, ⟨"z".toList, none, true⟩], ¬ (x.impl = true ∧ x.name = "a".toList) := by decide +kernel
  exact this x hx ⟨hi, hn⟩

/-- The revision need not be that of the server, even if everything is available and the context is new: the base module is loaded in whatever revision
is found. -/
theorem strict_revision_false :
    ¬ ∀ (env : Env) (shared : Bool) (cpblts : List Text) (s s1 : St), LibOk env → LibOne env → LibOnly env → Honest env → SetOk env → Available env →
      s.ctx = [] → checkAndFill env true shared cpblts s = .ok (s1, true) → s1.strict = true →
      ∀ m ∈ announced env cpblts s.rpcs, m.impl = true → m.rev ≠ none → (⟨m.name, m.rev, true⟩ : Mod) ∈ s1.ctx := by
  intro h
  have hx := h cfEnv true ["x?module=ietf-netconf&revision=2011-06-01".toList] cfNew
    { cfNew with ctx := cfMods.take 2 } (cf_libOk rfl rfl) (cf_libOne rfl rfl) (cf_libOnly rfl rfl) cf_honest (cf_setOk rfl) cf_available rfl
    (by decide +kernel) rfl ⟨"ietf-netconf".toList, some "2011-06-01".toList, true⟩ (by decide +kernel) rfl (by decide +kernel)
  revert hx
  decide +kernel

/-! ## C149: a session that broke while its context was filled is not returned -/

/-- With a context of its own, a session of a server with yang-library is returned only if it is running, if everything is available. -/
theorem broken_not_returned_partial {env : Env} (hl : LibOk env) (hone : LibOne env) (hh : Honest env) (hset : SetOk env) (hav : Available env)
    {cpblts : List Text} {s s1 : St} (ho : One s.ctx) (hy : (ylRevision cpblts).isSome = true)
    (h : checkAndFill env true false cpblts s = .ok (s1, true)) : s1.alive = true := by
  unfold checkAndFill at h
  simp only [if_true] at h
  cases hb : body env false cpblts s with
  | ub => rw [hb] at h; cases h
  | ok q =>
    obtain ⟨t, b⟩ := q
    rw [hb] at h
    injection h with h; injection h with h1 h2
    subst h1; subst h2
    obtain ⟨s4, s5, gs, yl, mods, _, _, _, _, _, _, _, hal, _, s2, s3, ho2, hyl⟩ := body_cut (inv_one hone) hl ho hb
    obtain ⟨c, q, hyl', _⟩ := yl_available hone hh hset hav ho2 gs cpblts
    rw [hyl] at hyl'
    injection hyl' with hyl'; injection hyl' with _ hyl'
    exact hal rfl (by rw [hyl', hy])

/-- So does a session without callback of the user whose first modules are in local files: if get-schema breaks it while the modules of the server are
loaded, it is not returned, in any context. -/
theorem broken_modules_not_returned_partial {env : Env} (hu : env.user = none) (hno : ∀ n, env.oper n ≠ .broken)
    (he : ∀ name ∈ early, ∀ rev, ∃ t, env.localFile name rev = some (t, true)) {auto shared : Bool} {cpblts : List Text} {s s1 : St} (ha : s.alive = true)
    (h : checkAndFill env auto shared cpblts s = .ok (s1, true)) : s1.alive = true := by
  unfold checkAndFill at h
  cases auto with
  | false => injection h with h; injection h with h; subst h; exact ha
  | true =>
    simp only [if_true] at h
    cases hb : body env shared cpblts s with
    | ub => rw [hb] at h; cases h
    | ok q =>
      obtain ⟨t, b⟩ := q
      rw [hb] at h
      injection h with h; injection h with h1 h2
      subst h1; subst h2
      have hk := body_alive hu hno he ha hb
      exact hk

/-- A server that breaks every session in get-schema, with `a` not in local files. -/
def cfBreak : Env := { cfNoA with server := fun _ _ _ => .broken }

def cfMonMods : List Mod := [⟨"ietf-netconf-monitoring".toList, some "2010-10-04".toList, true⟩, ⟨"ietf-netconf".toList, some "2020-02-02".toList, true⟩,
  ⟨"ietf-netconf".toList, some "2020-02-02".toList, true⟩]

/-- The break is reported. -/
example : checkAndFill cfBreak true false [cfBase, cfMon, cfA] cfNew = .ok ({ cfNew with ctx := cfMonMods, alive := false, rpcs := 1 }, false) := by
  decide +kernel

example : ∀ shared s1, checkAndFill cfBreak true shared [cfBase, cfMon, cfA] cfNew = .ok (s1, true) → s1.alive = true :=
  fun _ _ h => broken_modules_not_returned_partial rfl (by intro n h; cases h)
    (by
      intro name hn rev
      refine ⟨⟨name, some (rev.getD "2020-02-02".toList), 7⟩, ?_⟩
      have : name ≠ "a".toList := by
        intro he; subst he; exact absurd hn (by decide +kernel)
      show (if name == "a".toList then none else cfLocal name rev) = _
      rw [if_neg (by rw [beq_iff_eq]; exact this)]
      rfl) rfl h

/-- A server that breaks every session that asks for operational data: with a context of its own the break is reported, in a shared context the session
is returned. -/
def cfBreakOper : Env := { cfEnv with oper := fun _ => .broken }

example : checkAndFill cfBreakOper true false [cfBase, cfYl] cfNew =
    .ok ({ cfNew with
      ctx := [⟨"ietf-netconf".toList, some "2020-02-02".toList, true⟩, ⟨"ietf-yang-library".toList, some "2016-06-21".toList, true⟩,
        ⟨"ietf-netconf".toList, some "2020-02-02".toList, true⟩], alive := false, rpcs := 1 }, false) := by decide +kernel

/-- A broken session may be returned as if nothing had happened, though everything is available: the result of asking for yang-library data is ignored
if the context is shared. -/
theorem broken_not_returned_false :
    ¬ ∀ (env : Env) (shared : Bool) (cpblts : List Text) (s s1 : St), LibOk env → LibOne env → Honest env → SetOk env → Available env → One s.ctx →
      s.alive = true → checkAndFill env true shared cpblts s = .ok (s1, true) → s1.alive = true := by
  intro h
  have := h cfBreakOper true [cfBase, cfYl] cfNew
    { cfNew with
      ctx := [⟨"ietf-netconf".toList, some "2020-02-02".toList, true⟩, ⟨"ietf-yang-library".toList, some "2016-06-21".toList, true⟩,
        ⟨"ietf-netconf".toList, some "2020-02-02".toList, true⟩], alive := false, rpcs := 1 }
    (cf_libOk rfl rfl) (cf_libOne rfl rfl) ⟨cf_honest.localFile, cf_honest.server, cf_honest.user⟩ (cf_setOk rfl)
    ⟨cf_available.localFile, cf_available.parse, cf_available.compile, cf_available.mountOk⟩ cf_one_nil rfl (by decide +kernel)
  cases this

/-- Also with a context of its own and without callback of the user: get-schema breaks the session while the base module is asked for, and the text in
the library is used instead. -/
theorem broken_base_not_returned_false :
    ¬ ∀ (env : Env) (cpblts : List Text) (s s1 : St), LibOk env → LibOne env → Honest env → SetOk env → env.user = none → One s.ctx →
      s.alive = true → checkAndFill env true false cpblts s = .ok (s1, true) → s1.alive = true := by
  intro h
  have := h { cfEnv with localFile := fun _ _ => none, server := fun _ _ _ => .broken } [cfBase, cfMon] cfNew
    { cfNew with
      ctx := [⟨"ietf-netconf-monitoring".toList, some "2010-10-04".toList, true⟩, ⟨"ietf-netconf".toList, some "2013-09-29".toList, true⟩,
        ⟨"ietf-netconf".toList, some "2013-09-29".toList, true⟩], alive := false, rpcs := 1 }
    (cf_libOk rfl rfl) (cf_libOne rfl rfl) ⟨fun _ _ _ _ h => (nomatch h), fun _ _ _ _ h => (nomatch h), cf_honest.user⟩ (cf_setOk rfl) rfl cf_one_nil rfl
    (by decide +kernel)
  cases this

/-! ## C150: data of the user's callback are freed as it says -/

/-- Filling the context never frees data in the wrong way if the callback of the user (if any) gives only data that `free` frees, whatever the server
and libyang do. -/
theorem user_data_freed_partial {env : Env} (hu : UserLibc env) (auto shared : Bool) (cpblts : List Text) (s : St) :
    checkAndFill env auto shared cpblts s ≠ .ub := by
  unfold checkAndFill
  cases auto with
  | false => intro h; cases h
  | true =>
    obtain ⟨⟨s1, b⟩, h⟩ := body_no_ub hu shared cpblts s
    simp only [if_true, h]
    intro h; cases h

/-- Nothing is local, the callback gives every module, freed as told. -/
def cfUser (f : Free) : Env := { cfEnv with localFile := fun _ _ => none, user := some (fun name rev => some (⟨name, rev, 3⟩, f)) }

example : checkAndFill (cfUser .libc) true false [cfBase] cfNew =
    .ok ({ cfNew with ctx := [⟨"ietf-netconf".toList, none, true⟩, ⟨"ietf-netconf".toList, none, true⟩] }, true) ∧ UserLibc (cfUser .libc) := by
  refine ⟨by decide +kernel, ?_⟩
  intro f name rev t fr h h'
  injection h with h; subst h
  injection h' with h'; injection h' with _ h'; exact h'.symm

/-- A callback whose data are freed by its own function, or not at all, is not supported: `free` is used instead. -/
theorem user_data_freed_false : ¬ ∀ (env : Env) (auto shared : Bool) (cpblts : List Text) (s : St), checkAndFill env auto shared cpblts s ≠ .ub := by
  intro h
  exact h (cfUser .own) true false [cfBase] cfNew (by decide +kernel)

theorem user_data_freed_false' : checkAndFill (cfUser .untouched) true false [cfBase] cfNew = .ub := by decide +kernel

/-! ## C151: the context is given back as it was -/

/-- The callback is that of before, and so are the options of a context that had them unset; without filling nothing is changed at all. -/
theorem context_options_restored_partial {env : Env} {auto shared : Bool} {cpblts : List Text} {s s1 : St} {b : Bool}
    (h : checkAndFill env auto shared cpblts s = .ok (s1, b)) :
    (s.clb = .before → s1.clb = .before) ∧ (s.noDirs = false → s1.noDirs = false) ∧ (s.explicit = false → s1.explicit = false) ∧
      (auto = false → s1 = s ∧ b = true) := by
  unfold checkAndFill at h
  cases auto with
  | false => injection h with h; injection h with h h'; subst h; exact ⟨id, id, id, fun _ => ⟨rfl, h'.symm⟩⟩
  | true =>
    simp only [if_true] at h
    cases hb : body env shared cpblts s with
    | ub => rw [hb] at h; cases h
    | ok q =>
      obtain ⟨t, b'⟩ := q
      rw [hb] at h
      injection h with h; injection h with h1 h2
      subst h1
      exact ⟨fun _ => rfl, fun _ => rfl, fun _ => rfl, fun h => by cases h⟩

example : ∃ s1, checkAndFill cfEnv true true [cfBase, cfA] { cfNew with ctx := [⟨"u".toList, none, true⟩] } = .ok (s1, true) ∧ s1.noDirs = false ∧
    s1.explicit = false ∧ s1.clb = .before :=
  ⟨{ cfNew with ctx := ⟨"u".toList, none, true⟩ :: cfMods }, by decide +kernel, rfl, rfl, rfl⟩

/-- Options that the user has set are lost. -/
theorem context_options_restored_false :
    ¬ ∀ (env : Env) (shared : Bool) (cpblts : List Text) (s s1 : St) (b : Bool), checkAndFill env true shared cpblts s = .ok (s1, b) →
      s1.noDirs = s.noDirs ∧ s1.explicit = s.explicit := by
  intro h
  have := (h cfEnv true [cfBase, cfA] { cfNew with noDirs := true, explicit := true } { cfNew with ctx := cfMods } true (by decide +kernel)).1
  cases this

/-! ## C152: what a server has to announce -/

/-- A session is established only with a server one of whose capabilities names the module ietf-netconf. -/
theorem base_module_required {env : Env} {shared : Bool} {cpblts : List Text} {s s1 : St} (hl : LibOk env)
    (h : checkAndFill env true shared cpblts s = .ok (s1, true)) :
    ∃ c ∈ cpblts, ∃ m, cpbltModule c = some m ∧ m.name = "ietf-netconf".toList := by
  unfold checkAndFill at h
  simp only [if_true] at h
  cases hb : body env shared cpblts s with
  | ub => rw [hb] at h; cases h
  | ok q =>
    obtain ⟨t, b⟩ := q
    rw [hb] at h
    injection h with h; injection h with h1 h2
    subst h1; subst h2
    obtain ⟨_, _, _, _, _, _, _, _, _, _, _, _, _, hn, _⟩ := body_cut (P := fun _ => True)
      ⟨fun _ _ _ _ _ _ _ _ _ _ => trivial, fun _ _ _ _ _ => trivial, fun _ _ _ _ _ => trivial, fun _ _ _ _ _ _ => trivial⟩ hl trivial hb
    rw [List.any_eq_true] at hn
    obtain ⟨x, hx, hxn⟩ := hn
    unfold fromCpblts Verif.ModSel.cpbltModules at hx
    obtain ⟨m, hm, rfl⟩ := List.mem_map.1 hx
    obtain ⟨c, hc, hcm⟩ := List.mem_filterMap.1 hm
    exact ⟨c, hc, m, hcm, eq_of_beq hxn⟩

example : checkAndFill cfEnv true false [cfBase] cfNew = .ok ({ cfNew with ctx := cfMods.take 2 }, true) ∧
    cpbltModule cfBase = some ⟨"ietf-netconf".toList, none, []⟩ := by decide +kernel

/-- A server that announces the base capabilities and yang-library with everything in its data, and whose modules are all available, is refused: the
base capability, which is all that RFC 6241 requires in a hello message (8.1), does not name the module. -/
theorem base_capability_accepted_false :
    ¬ ∀ (env : Env) (cpblts : List Text) (s : St), LibOk env → LibOne env → Honest env → SetOk env → Available env → (∀ n, env.oper n ≠ .broken) →
      One s.ctx → s.alive = true → s.strict = true → "urn:ietf:params:netconf:base:1.1".toList ∈ cpblts → (ylRevision cpblts).isSome = true →
      ∃ s1, checkAndFill env true false cpblts s = .ok (s1, true) := by
  intro h
  obtain ⟨s1, h1⟩ := h { cfEnv with oper := fun _ => .data [⟨"ietf-netconf".toList, some "2011-06-01".toList, true⟩] }
    ["urn:ietf:params:netconf:base:1.1".toList, cfYl] cfNew (cf_libOk rfl rfl) (cf_libOne rfl rfl)
    ⟨cf_honest.localFile, cf_honest.server, cf_honest.user⟩ (cf_setOk rfl)
    ⟨cf_available.localFile, cf_available.parse, cf_available.compile, cf_available.mountOk⟩ (by intro n h; cases h) cf_one_nil rfl rfl
    (by simp) (by decide +kernel)
  obtain ⟨c, hc, m, hm, hn⟩ := base_module_required (cf_libOk rfl rfl) h1
  have : ∀ c ∈ ["urn:ietf:params:netconf:base:1.1".toList, cfYl], cpbltModule c = none := by decide +kernel
  rw [this c hc] at hm
  cases hm

/-! ## C153: files without revision -/

/-- Files that have no revision in their name have no influence where a revision is asked for: everything is as if they were not there. -/
theorem files_without_revision_unused (env : Env) (auto shared : Bool) (cpblts : List Text) (s : St) :
    checkAndFill (dropUnknown env) auto shared cpblts s = checkAndFill env auto shared cpblts s := by
  rw [checkAndFill_drop]

/-- The local file of `a` has no revision and another content; the text of the server is used. -/
def cfStale : Env :=
  { cfEnv with
    localFile := fun name rev => if name == "a".toList then some (⟨name, some "2009-09-09".toList, 8⟩, false) else cfLocal name rev
    server := fun _ name rev => .text ⟨name, rev, 9⟩ }

example : checkAndFill cfStale true false [cfBase, cfMon, cfA] cfNew =
    .ok ({ cfNew with ctx := cfMonMods ++ [⟨"a".toList, some "2011-11-11".toList, true⟩], rpcs := 1 }, true) := by decide +kernel

/-- Without a revision in the capability, the file is used. -/
example : checkAndFill cfStale true false [cfBase, cfMon, "y?module=a".toList] cfNew =
    .ok ({ cfNew with ctx := cfMonMods ++ [⟨"a".toList, some "2009-09-09".toList, true⟩] }, true) := by decide +kernel

end Verif.Props
