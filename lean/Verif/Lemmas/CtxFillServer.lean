import Verif.Lemmas.CtxFill

/-! # More lemmas for filling the context of a client session: RPCs that break it, modules from the server -/

namespace Verif.CtxFill
open Verif.ModSel (Text strGt strstr cpbltModule cpbltModules)

/-! ## What every RPC keeps -/

/-- A property of the session that every RPC keeps. -/
structure RpcInv (env : Env) (Q : Bool → Nat → Prop) : Prop where
  schema : ∀ s s1 name rev o, Q s.alive s.rpcs → getSchema env s name rev = (s1, o) → Q s1.alive s1.rpcs
  oper : ∀ s s1 o b, Q s.alive s.rpcs → operData env s = (s1, o, b) → Q s1.alive s1.rpcs

theorem retrieve_q {env : Env} {Q} (hi : RpcInv env Q) {s s1 : St} {gs name rev o} (hQ : Q s.alive s.rpcs) (h : retrieve env s gs name rev = (s1, o)) :
    Q s1.alive s1.rpcs := by
  unfold retrieve at h
  split at h
  · injection h with h; subst h; exact hQ
  · have key : ∀ s' o', (if gs = true then getSchema env s name rev else (s, none)) = (s', o') → Q s'.alive s'.rpcs := by
      intro s' o' he
      cases gs with
      | true => exact hi.schema _ _ _ _ _ hQ (by simpa using he)
      | false => simp at he; rw [← he.1]; exact hQ
    split at h
    · rename_i he; injection h with h; subst h; exact key _ _ he
    · rename_i he; injection h with h; subst h; exact key _ _ he

theorem load_q {env : Env} {Q} (hi : RpcInv env Q) {s s1 : St} {gs name rev b om} (hQ : Q s.alive s.rpcs)
    (h : load env s gs name rev = .ok (s1, b, om)) : Q s1.alive s1.rpcs := by
  cases load_cases h with
  | there m c hp hc hs => subst hs; exact hQ
  | stuck m hp hc hs => subst hs; exact hQ
  | missing hp hr => exact retrieve_q hi hQ hr
  | parsed s' t c m hp hr hc hs => subst hs; have h := retrieve_q hi hQ hr; exact h
  | bad s' t hp hr hc hs => subst hs; have h := retrieve_q hi hQ hr; exact h

theorem fill_q {env : Env} {Q} (hi : RpcInv env Q) (gs : Bool) : ∀ (ms : List SMod) (s s1 : St) (b : Bool), Q s.alive s.rpcs →
    fill env gs ms s = .ok (s1, b) → Q s1.alive s1.rpcs
  | [], s, s1, b, hQ, h => by unfold fill at h; injection h with h; injection h with h; subst h; exact hQ
  | m :: ms, s, s1, b, hQ, h => by
    unfold fill at h
    split at h
    · split at h
      · cases h
      · rename_i hL; exact fill_q hi gs ms _ _ _ (load_q hi hQ hL) h
      · rename_i hL
        have := load_q hi hQ hL
        split at h
        · exact fill_q hi gs ms _ _ _ (by exact this) h
        · injection h with h; injection h with h; subst h; exact this
    · exact fill_q hi gs ms _ _ _ hQ h

theorem netconf_q {env : Env} {Q} (hi : RpcInv env Q) {mods : List SMod} {gs : Bool} {s s1 : St} {b : Bool} (hQ : Q s.alive s.rpcs)
    (h : fillNetconf env mods gs s = .ok (s1, b)) : Q s1.alive s1.rpcs := by
  unfold fillNetconf at h
  split at h
  · injection h with h; injection h with h; subst h; exact hQ
  · split at h
    · split at h
      · split at h <;> (injection h with h; injection h with h; subst h; exact hQ)
      · split at h
        · cases h
        · rename_i hL; injection h with h; injection h with h; subst h; exact load_q hi hQ hL
        · rename_i hL
          have := load_q hi hQ hL
          split at h <;> (injection h with h; injection h with h; subst h; exact this)
    · cases h

theorem yl_q {env : Env} {Q} (hi : RpcInv env Q) {cpblts : List Text} {gs : Bool} {s s1 : St} {b : Bool} (hQ : Q s.alive s.rpcs)
    (h : loadYanglib env s gs cpblts = .ok (s1, b)) : Q s1.alive s1.rpcs := by
  unfold loadYanglib at h
  split at h
  · split at h
    · cases h
    · rename_i hL
      have h1 := load_q hi hQ hL
      split at h
      · injection h with h; injection h with h; subst h; exact h1
      · split at h
        · cases h
        · rename_i hL2; injection h with h; injection h with h; subst h; exact load_q hi h1 hL2
  · injection h with h; injection h with h; subst h; exact hQ

theorem mods_q {env : Env} {Q} (hi : RpcInv env Q) {l0 mods : List SMod} {gs yl : Bool} {s s1 : St} (hQ : Q s.alive s.rpcs)
    (h : serverMods env s gs yl l0 = .ok (s1, mods)) : Q s1.alive s1.rpcs := by
  unfold serverMods at h
  split at h
  · split at h
    · rename_i ho; injection h with h; injection h with h; subst h; exact hi.oper _ _ _ _ hQ ho
    · rename_i ho
      have h1 := hi.oper _ _ _ _ hQ ho
      split at h
      · split at h
        · cases h
        · rename_i hL; injection h with h; injection h with h; subst h; exact load_q hi h1 hL
      · injection h with h; injection h with h; subst h; exact h1
  · injection h with h; injection h with h; subst h; exact hQ

theorem mount_q {env : Env} {Q} (hi : RpcInv env Q) {shared : Bool} {s s1 : St} {b : Bool} (hQ : Q s.alive s.rpcs)
    (h : schemaMount env shared s = (s1, b)) : Q s1.alive s1.rpcs := by
  unfold schemaMount at h
  split at h
  · injection h with h; subst h; exact hQ
  · split at h
    · injection h with h; subst h; exact hQ
    · split at h
      · rename_i ho; injection h with h; subst h; exact hi.oper _ _ _ _ hQ ho
      · rename_i ho; injection h with h; subst h; exact hi.oper _ _ _ _ hQ ho

theorem body_q {env : Env} {Q} (hi : RpcInv env Q) {shared : Bool} {cpblts : List Text} {s s1 : St} {b : Bool} (hQ : Q s.alive s.rpcs)
    (h : body env shared cpblts s = .ok (s1, b)) : Q s1.alive s1.rpcs := by
  unfold body at h
  generalize hq : loadMonitoring env { s with noDirs := true, clb := .none } cpblts = q at h
  obtain ⟨s2, gs⟩ := q
  have h2 : Q s2.alive s2.rpcs := by
    unfold loadMonitoring at hq
    split at hq
    · split at hq <;> (injection hq with hq; subst hq; exact hQ)
    · injection hq with hq; subst hq; exact hQ
  simp only at h
  split at h
  · cases h
  · rename_i hn; injection h with h; injection h with h; subst h; exact netconf_q hi h2 hn
  · rename_i hn
    have h3 := netconf_q hi h2 hn
    split at h
    · cases h
    · rename_i hy
      have h4 := yl_q hi h3 hy
      split at h
      · cases h
      · rename_i hm
        have h5 := mods_q hi h4 hm
        unfold finishFill at h
        split at h
        · cases h
        · rename_i hf; injection h with h; injection h with h; subst h; exact fill_q hi _ _ _ _ _ (by exact h5) hf
        · rename_i hf
          have h6 := fill_q hi _ _ _ _ _ (by exact h5) hf
          split at h
          · split at h
            · injection h with h; exact mount_q hi h6 h
            · injection h with h; injection h with h; subst h; exact h6
          · injection h with h; injection h with h; subst h; exact h6

/-- A running session has not sent an RPC that breaks it. -/
def Unbroken (env : Env) (n0 : Nat) (alive : Bool) (rpcs : Nat) : Prop :=
  n0 ≤ rpcs ∧ (alive = true → ∀ n, n0 ≤ n → n < rpcs → ¬ (env.oper n = .broken ∧ ∀ name rev, env.server n name rev = .broken))

theorem unbroken_inv (env : Env) (n0 : Nat) : RpcInv env (Unbroken env n0) where
  schema s s1 name rev o hQ h := by
    unfold getSchema at h
    split at h
    · rename_i ha
      split at h <;> (rename_i hr; injection h with h; subst h)
      · refine ⟨by have := hQ.1; simp; omega, ?_⟩
        intro _ n h1 h2 hb
        by_cases hn : n < s.rpcs
        · exact hQ.2 ha n h1 hn hb
        · have : n = s.rpcs := by simp at h2; omega
          subst this; rw [hb.2] at hr; cases hr
      · refine ⟨by have := hQ.1; simp; omega, ?_⟩
        intro _ n h1 h2 hb
        by_cases hn : n < s.rpcs
        · exact hQ.2 ha n h1 hn hb
        · have : n = s.rpcs := by simp at h2; omega
          subst this; rw [hb.2] at hr; cases hr
      · exact ⟨by have := hQ.1; simp; omega, nofun⟩
    · injection h with h; subst h; exact hQ
  oper s s1 o b hQ h := by
    unfold operData at h
    split at h
    · rename_i ha
      split at h <;> (rename_i hr; injection h with h; subst h)
      · refine ⟨by have := hQ.1; simp; omega, ?_⟩
        intro _ n h1 h2 hb
        by_cases hn : n < s.rpcs
        · exact hQ.2 ha n h1 hn hb
        · have : n = s.rpcs := by simp at h2; omega
          subst this; rw [hb.1] at hr; cases hr
      · refine ⟨by have := hQ.1; simp; omega, ?_⟩
        intro _ n h1 h2 hb
        by_cases hn : n < s.rpcs
        · exact hQ.2 ha n h1 hn hb
        · have : n = s.rpcs := by simp at h2; omega
          subst this; rw [hb.1] at hr; cases hr
      · exact ⟨by have := hQ.1; simp; omega, nofun⟩
    · injection h with h; subst h; exact hQ

/-! ## Everything provided by files, the server or the user -/

theorem load_provided {env : Env} (hh : Honest env) (hset : SetOk env) (hav : Provided env) {s : St} (ho : One s.ctx) (ha : s.alive = true) (name : Text)
    (rev : Option Text) :
    ∃ c m q k, load env s true name rev = .ok ({ s with ctx := c, clb := q, rpcs := k }, true, some m) := by
  unfold load
  cases hp : present s.ctx name rev with
  | some m =>
    have := present_set hset ho hp
    obtain ⟨c, hc⟩ := Option.isSome_iff_exists.1 this
    simp only [hc]; exact ⟨c, m, s.clb, s.rpcs, rfl⟩
  | none =>
    have hn := implemented_none (present_none hp)
    have hr : ∃ k t, retrieve env s true name rev = ({ s with rpcs := k }, some (t, .libc)) ∧ t.name = name := by
      rcases hav.source name rev with ⟨t, ht⟩ | ⟨h0, ht⟩ | ⟨h0, hs, f, t, hu, ht⟩
      · exact ⟨s.rpcs, t, by simp [retrieve, localText, ht], (hh.localFile name rev t true ht).1⟩
      · obtain ⟨t, ht⟩ := ht s.rpcs
        exact ⟨s.rpcs + 1, t, by simp [retrieve, localText, h0, getSchema, ha, ht], (hh.server _ name rev t ht).1⟩
      · exact ⟨s.rpcs + 1, t, by simp [retrieve, localText, h0, getSchema, ha, hs, userText, hu, ht], (hh.user f name rev t .libc hu ht).1⟩
    obtain ⟨k, t, hr, hname⟩ := hr
    obtain ⟨r, hc⟩ := Option.isSome_iff_exists.1 (hav.parse s.ctx t (by rw [hname]; exact hn))
    obtain ⟨c, m⟩ := r
    simp only [hr, hc]
    exact ⟨c, m, .none, k, rfl⟩

theorem fill_provided {env : Env} (hone : LibOne env) (hh : Honest env) (hset : SetOk env) (hav : Provided env) :
    ∀ (ms : List SMod) (s : St), One s.ctx → s.alive = true → ∃ c q k, fill env true ms s = .ok ({ s with ctx := c, clb := q, rpcs := k }, true)
  | [], s, _, _ => ⟨s.ctx, s.clb, s.rpcs, rfl⟩
  | m :: ms, s, ho, ha => by
    unfold fill
    split
    · obtain ⟨c, x, q, k, h⟩ := load_provided hh hset hav ho ha m.name m.rev
      rw [h]
      have ho' := load_one hone h ho
      obtain ⟨c', q', k', h'⟩ := fill_provided hone hh hset hav ms _ ho' ha
      exact ⟨c', q', k', h'⟩
    · exact fill_provided hone hh hset hav ms s ho ha

theorem yl_provided {env : Env} (hone : LibOne env) (hh : Honest env) (hset : SetOk env) (hav : Provided env) {s : St} (ho : One s.ctx)
    (ha : s.alive = true) (cpblts : List Text) :
    ∃ c q k, loadYanglib env s true cpblts = .ok ({ s with ctx := c, clb := q, rpcs := k }, (ylRevision cpblts).isSome) ∧ One c := by
  unfold loadYanglib ylRevision cpblt
  cases hg : (cpblts.filter (fun c => "urn:ietf:params:netconf:capability:yang-library:".toList.isPrefixOf c)).getLast? with
  | none => exact ⟨s.ctx, s.clb, s.rpcs, rfl, ho⟩
  | some c =>
    simp only [Option.map_some, Option.bind_some]
    cases hr : strstr "revision=".toList c with
    | none => exact ⟨s.ctx, s.clb, s.rpcs, rfl, ho⟩
    | some r =>
      simp only [Option.map_some, Option.isSome_some]
      obtain ⟨c1, m1, q1, k1, h1⟩ := load_provided hh hset hav ho ha "ietf-yang-library".toList (some ((r.drop 9).take 10))
      have ho1 := load_one hone h1 ho
      rw [h1]; simp only
      split
      · exact ⟨c1, q1, k1, rfl, ho1⟩
      · obtain ⟨c2, m2, q2, k2, h2⟩ := load_provided hh hset hav ho1 ha "ietf-datastores".toList none
        have ho2 := load_one hone h2 ho1
        rw [h2]; exact ⟨c2, q2, k2, rfl, ho2⟩

theorem mods_provided {env : Env} (hone : LibOne env) (hh : Honest env) (hset : SetOk env) (hav : Provided env) {s : St} (ho : One s.ctx)
    (ha : s.alive = true) (hno : ∀ n, env.oper n ≠ .broken) (yl : Bool) (l0 : List SMod) :
    ∃ c q k, serverMods env s true yl l0 =
        .ok ({ s with ctx := c, clb := q, rpcs := k }, if yl then (match env.oper s.rpcs with | .data l => l | _ => l0) else l0) ∧ One c := by
  unfold serverMods
  cases yl with
  | false => exact ⟨s.ctx, s.clb, s.rpcs, rfl, ho⟩
  | true =>
    simp only [if_true, operData, ha]
    cases hop : env.oper s.rpcs with
    | broken => exact absurd hop (hno _)
    | nothing => exact ⟨s.ctx, s.clb, s.rpcs + 1, rfl, ho⟩
    | data l =>
      simp only
      split
      · obtain ⟨c1, m1, q1, k1, h1⟩ := load_provided hh hset hav (s := { s with rpcs := s.rpcs + 1, alive := true }) ho rfl "ietf-netconf-nmda".toList none
        have ho1 := load_one hone h1 ho
        rw [h1]; exact ⟨c1, q1, k1, rfl, ho1⟩
      · exact ⟨s.ctx, s.clb, s.rpcs + 1, rfl, ho⟩

theorem netconf_provided {env : Env} (hone : LibOne env) (hh : Honest env) (hset : SetOk env) (hav : Provided env) {s : St} (ho : One s.ctx)
    (ha : s.alive = true) {cpblts : List Text} (hb : (fromCpblts cpblts).any (fun m => m.name == netconf) = true) :
    ∃ c q k, fillNetconf env (fromCpblts cpblts) true s = .ok ({ s with ctx := c, clb := q, rpcs := k }, true) ∧ One c := by
  unfold fillNetconf
  cases hf : (fromCpblts cpblts).find? (fun m => m.name == netconf) with
  | none =>
    obtain ⟨m, h1, h2⟩ := List.any_eq_true.1 hb
    exact absurd h2 (List.find?_eq_none.1 hf m h1)
  | some m =>
    have hm : m.impl = true := by
      have := List.mem_of_find?_eq_some hf
      unfold fromCpblts at this
      obtain ⟨c, _, hc⟩ := List.mem_map.1 this
      rw [← hc]
    simp only [hm, if_true]
    cases hi : implemented s.ctx netconf with
    | some x =>
      cases hc : env.setImpl s.ctx x with
      | some c => simp only [hc]; exact ⟨c, s.clb, s.rpcs, rfl, hone.setImpl _ _ _ ho hc⟩
      | none => simp only [hc]; exact ⟨s.ctx, s.clb, s.rpcs, rfl, ho⟩
    | none =>
      obtain ⟨c, x, q, k, h⟩ := load_provided hh hset hav ho ha netconf none
      have ho' := load_one hone h ho
      simp only [h]
      exact ⟨c, q, k, rfl, ho'⟩

theorem body_provided {env : Env} (hl : LibOk env) (hone : LibOne env) (hh : Honest env) (hset : SetOk env) (hav : Provided env)
    (hno : ∀ n, env.oper n ≠ .broken) {s : St} (ho : One s.ctx) (ha : s.alive = true) (hst : s.strict = true) (shared : Bool) {cpblts : List Text}
    (hb : (fromCpblts cpblts).any (fun m => m.name == netconf) = true)
    (hm : (cpblt "urn:ietf:params:xml:ns:yang:ietf-netconf-monitoring?".toList cpblts).isSome = true) (hp : (env.parse s.ctx builtinMonitoring).isSome = true) :
    ∃ s1 n, body env shared cpblts s = .ok (s1, true) ∧ s1.strict = true ∧ s1.alive = true ∧ Complete (announced env cpblts n) s1.ctx := by
  unfold body
  obtain ⟨⟨c1, m1⟩, hc1⟩ := Option.isSome_iff_exists.1 hp
  have hq : loadMonitoring env { s with noDirs := true, clb := .none } cpblts = ({ s with noDirs := true, clb := .none, ctx := c1 }, true) := by
    unfold loadMonitoring; simp only [hm, if_true, hc1]
  have ho1 : One c1 := hone.parse _ _ _ _ ho hc1
  simp only [hq]
  obtain ⟨c2, q2, k2, h2, ho2⟩ := netconf_provided hone hh hset hav (s := { s with noDirs := true, clb := .none, ctx := c1 }) ho1 ha hb
  simp only [h2]
  obtain ⟨c3, q3, k3, h3, ho3⟩ := yl_provided hone hh hset hav (s := { s with noDirs := true, clb := q2, ctx := c2, rpcs := k2 }) ho2 ha cpblts
  simp only [h3]
  obtain ⟨c4, q4, k4, h4, ho4⟩ := mods_provided hone hh hset hav (s := { s with noDirs := true, clb := q3, ctx := c3, rpcs := k3 }) ho3 ha hno
    (ylRevision cpblts).isSome (fromCpblts cpblts)
  have hmods : (if (ylRevision cpblts).isSome = true then (match env.oper k3 with | .data l => l | _ => fromCpblts cpblts) else fromCpblts cpblts) =
      announced env cpblts k3 := by
    unfold announced
    cases ylRevision cpblts with
    | none => rfl
    | some r => cases env.oper k3 <;> rfl
  simp only [hmods] at h4
  simp only [h4]
  unfold finishFill
  obtain ⟨c5, q5, k5, h5⟩ := fill_provided hone hh hset hav (announced env cpblts k3)
    { s with noDirs := true, ctx := c4, clb := q4, rpcs := k4, explicit := true } ho4 ha
  have hcomp := fill_complete hl hone hh hset true _ _ _ ho4 h5 hst
  have hk5 := (fill_frame hl true _ _ _ _ h5).1
  simp only [h5, hav.compile, if_true]
  cases hyl : (ylRevision cpblts).isSome with
  | false => exact ⟨_, k3, rfl, hst, ha, hcomp⟩
  | true =>
    simp only [if_true]
    cases shared with
    | true => exact ⟨_, k3, rfl, hst, ha, hcomp⟩
    | false =>
      rw [hyl] at h3
      obtain ⟨x, hx, hxi, hxn⟩ := yl_implemented hl hh hset ho2 h3
      have hx4 : x ∈ c4 := (mods_ok (inv_one hone) hl ho3 h4).2.1.keeps x hx hxi
      have hx5 : x ∈ c5 := hk5 x hx4 hxi
      have himp : ∃ y, implemented c5 "ietf-yang-library".toList = some y := by
        cases hy : implemented c5 "ietf-yang-library".toList with
        | some y => exact ⟨y, rfl⟩
        | none => exact absurd hxn (implemented_none hy x hx5 hxi)
      obtain ⟨y, hy⟩ := himp
      simp only [schemaMount, hy, operData, ha, if_true, Bool.false_eq_true, if_false]
      cases hop : env.oper k5 with
      | broken => exact absurd hop (hno _)
      | nothing => exact ⟨_, k3, rfl, hst, rfl, hcomp⟩
      | data l => simp only [hav.mountOk]; exact ⟨_, k3, rfl, hst, rfl, hcomp⟩

end Verif.CtxFill
