import Verif.Spec.CtxFill
import Verif.Lemmas.CtxFillServer
import Verif.Props.CtxFill

/-! # Filling the context of a client session: modules sent by the server, RPCs that break the session (src/session_client.c:358-576, 702-898, 1111-1419) -/

namespace Verif.Props
open Verif.CtxFill
open Verif.ModSel (Text cpbltModule)

/-! ## C148: the modules may come from the server -/

/-- If the server announces get-schema and each module is in a local file, sent by the server when it is asked, or given by the callback of the user, then a
session is established that is strict, and all modules that the server announced are implemented in its context. -/
theorem provided_complete {env : Env} (hl : LibOk env) (hone : LibOne env) (hh : Honest env) (hset : SetOk env) (hav : Provided env)
    (hno : ∀ n, env.oper n ≠ .broken) {s : St} (ho : One s.ctx) (ha : s.alive = true) (hst : s.strict = true) (shared : Bool) {cpblts : List Text}
    (hb : ∃ c ∈ cpblts, ∃ m, cpbltModule c = some m ∧ m.name = "ietf-netconf".toList)
    (hm : ∃ c ∈ cpblts, "urn:ietf:params:xml:ns:yang:ietf-netconf-monitoring?".toList.isPrefixOf c = true)
    (hp : ∀ x ∈ s.ctx, x.impl = true → x.name ≠ "ietf-netconf-monitoring".toList) :
    ∃ s1 n, checkAndFill env true shared cpblts s = .ok (s1, true) ∧ s1.strict = true ∧ s1.alive = true ∧ Complete (announced env cpblts n) s1.ctx := by
  have hb' : (fromCpblts cpblts).any (fun m => m.name == netconf) = true := by
    obtain ⟨c, hc, m, hm, hn⟩ := hb
    rw [List.any_eq_true]
    refine ⟨⟨m.name, m.rev, true⟩, ?_, ?_⟩
    · unfold fromCpblts Verif.ModSel.cpbltModules
      exact List.mem_map.2 ⟨m, List.mem_filterMap.2 ⟨c, hc, hm⟩, rfl⟩
    · exact beq_iff_eq.2 hn
  have hm' : (cpblt "urn:ietf:params:xml:ns:yang:ietf-netconf-monitoring?".toList cpblts).isSome = true := by
    obtain ⟨c, hc, hp⟩ := hm
    unfold cpblt
    cases hg : (cpblts.filter (fun c => "urn:ietf:params:xml:ns:yang:ietf-netconf-monitoring?".toList.isPrefixOf c)).getLast? with
    | some x => rfl
    | none =>
      rw [List.getLast?_eq_none_iff] at hg
      exact absurd (List.mem_filter.2 ⟨hc, hp⟩) (by rw [hg]; nofun)
  obtain ⟨s1, n, h, h1, h2, h3⟩ := body_provided hl hone hh hset hav hno ho ha hst shared hb' hm' (hav.parse _ _ hp)
  refine ⟨{ s1 with clb := .before, noDirs := false, explicit := false }, n, ?_, h1, h2, h3⟩
  unfold checkAndFill
  simp only [if_true, h]

/-- A server that sends every module, without any local files. -/
def cfServer : Env :=
  { cfEnv with localFile := fun _ _ => none, server := fun _ name rev => .text ⟨name, some (rev.getD "2020-02-02".toList), 7⟩ }

theorem cfServer_honest : Honest cfServer where
  localFile _ _ _ _ h := (nomatch h)
  server n name rev t h := by
    have h' : Reply.text ⟨name, some (rev.getD "2020-02-02".toList), 7⟩ = Reply.text t := h
    injection h' with h'; subst h'
    refine ⟨rfl, ?_⟩
    cases rev with
    | none => exact .inl rfl
    | some r => exact .inr rfl
  user f name rev t fr h := (nomatch h)

theorem cfServer_provided : Provided cfServer where
  source _ _ := .inr (.inl ⟨rfl, fun _ => ⟨_, rfl⟩⟩)
  parse := cf_available.parse
  compile _ := rfl
  mountOk := rfl

/-- The base module and `a` are sent by the server in two RPCs. -/
example : checkAndFill cfServer true false [cfBase, cfMon, cfA] cfNew =
    .ok ({ cfNew with
      ctx := [⟨"ietf-netconf-monitoring".toList, some "2010-10-04".toList, true⟩, ⟨"ietf-netconf".toList, some "2020-02-02".toList, true⟩,
        ⟨"ietf-netconf".toList, some "2020-02-02".toList, true⟩, ⟨"a".toList, some "2011-11-11".toList, true⟩], rpcs := 2 }, true) := by decide +kernel

example : ∃ s1 n, checkAndFill cfServer true false [cfBase, cfMon, cfA] cfNew = .ok (s1, true) ∧ s1.strict = true ∧ s1.alive = true ∧
    Complete (announced cfServer [cfBase, cfMon, cfA] n) s1.ctx :=
  provided_complete (cf_libOk rfl rfl) (cf_libOne rfl rfl) cfServer_honest (cf_setOk rfl) cfServer_provided (fun _ h => (nomatch h)) cf_one_nil rfl rfl false
    ⟨cfBase, by decide, by decide +kernel⟩ ⟨cfMon, by decide, by decide +kernel⟩ (fun _ h => (nomatch h))

/-! ## C149: RPCs that break the session -/

/-- Whatever is in the context, whatever the sources give and libyang does: a session that is running after its context was filled has sent no RPC that breaks
it. -/
theorem running_not_broken {env : Env} {auto shared : Bool} {cpblts : List Text} {s s1 : St} {b : Bool}
    (h : checkAndFill env auto shared cpblts s = .ok (s1, b)) (ha : s1.alive = true) :
    s.rpcs ≤ s1.rpcs ∧ ∀ n, s.rpcs ≤ n → n < s1.rpcs → ¬ (env.oper n = .broken ∧ ∀ name rev, env.server n name rev = .broken) := by
  unfold checkAndFill at h
  cases auto with
  | false =>
    injection h with h; injection h with h; subst h
    exact ⟨Nat.le_refl _, fun n h1 h2 => absurd h2 (by omega)⟩
  | true =>
    simp only [if_true] at h
    cases hb : body env shared cpblts s with
    | ub => rw [hb] at h; cases h
    | ok q =>
      obtain ⟨t, b'⟩ := q
      rw [hb] at h
      injection h with h; injection h with h1 h2
      subst h1
      have hq := body_q (unbroken_inv env s.rpcs) (s := s) ⟨Nat.le_refl _, fun _ n h1 h2 => absurd h2 (by omega)⟩ hb
      exact ⟨hq.1, hq.2 ha⟩

/-- A session that sent an RPC that breaks it is not returned, for contexts of their own of servers with yang-library, if everything is available. -/
theorem broken_rpc_not_returned_partial {env : Env} (hl : LibOk env) (hone : LibOne env) (hh : Honest env) (hset : SetOk env) (hav : Available env)
    {cpblts : List Text} {s s1 : St} {b : Bool} (ho : One s.ctx) (hy : (ylRevision cpblts).isSome = true)
    (h : checkAndFill env true false cpblts s = .ok (s1, b)) {n : Nat} (h0 : s.rpcs ≤ n) (h1 : n < s1.rpcs) (h2 : env.oper n = .broken)
    (h3 : ∀ name rev, env.server n name rev = .broken) : b = false ∧ s1.alive = false := by
  have hal : s1.alive = false := by
    cases ha : s1.alive with
    | false => rfl
    | true => exact absurd ⟨h2, h3⟩ ((running_not_broken h ha).2 n h0 h1)
  refine ⟨?_, hal⟩
  cases b with
  | false => rfl
  | true => rw [broken_not_returned_partial hl hone hh hset hav ho hy h] at hal; cases hal

/-- A server whose second RPC breaks the session: the first one, for yang-library data, is answered. -/
def cfSecond : Env := { cfYlEnv with oper := fun n => if n = 1 then .broken else .data [⟨"b".toList, none, true⟩], server := fun _ _ _ => .broken }

example : ∃ s1, checkAndFill cfSecond true false [cfBase, cfYl] cfNew = .ok (s1, false) ∧ s1.rpcs = 2 ∧ s1.alive = false := by
  have h : ∃ s1, checkAndFill cfSecond true false [cfBase, cfYl] cfNew = .ok (s1, false) ∧ s1.rpcs = 2 := 
    ⟨{ cfNew with
      ctx := [⟨"ietf-netconf".toList, some "2020-02-02".toList, true⟩, ⟨"ietf-yang-library".toList, some "2016-06-21".toList, true⟩,
        ⟨"b".toList, some "2020-02-02".toList, true⟩], alive := false, rpcs := 2 }, by decide +kernel, rfl⟩
  obtain ⟨s1, h, hr⟩ := h
  exact ⟨s1, h, hr, (broken_rpc_not_returned_partial (env := cfSecond) (cf_libOk rfl rfl) (cf_libOne rfl rfl) ⟨cf_honest.localFile, fun _ _ _ _ h => (nomatch h), cf_honest.user⟩
    (cf_setOk rfl) ⟨cf_available.localFile, cf_available.parse, cf_available.compile, cf_available.mountOk⟩ cf_one_nil (by decide +kernel) h
    (n := 1) (by decide) (by rw [hr]; decide) rfl (fun _ _ => rfl)).2⟩

end Verif.Props
