import Verif.Lemmas.ClientRpc
import Verif.Props.ClientMsg

/-!
# Properties of RPC objects of the client (C49, C94–C96)
-/

namespace Verif.Props
open Verif.ClientRpc

/-- The strings of an RPC. -/
def rpcStrings {σ α : Type} : Rpc σ α → List σ
  | .generic data => [data]
  | .genericXml xml => [xml]
  | .getconfig _ filter _ => [filter]
  | .edit _ _ _ _ cont => [cont]
  | .copy _ urlTrg _ src _ => [urlTrg, src]
  | .delete _ url => [url]
  | .lock _ => []
  | .unlock _ => []
  | .get filter _ => [filter]
  | .kill _ => []
  | .commit _ _ persist persistId => [persist, persistId]
  | .discard => []
  | .cancel persistId => [persistId]
  | .validate _ src => [src]
  | .getschema ident version format => [ident, version, format]
  | .subscribe stream filter start stop => [stream, filter, start, stop]
  | .getdata ds filter config _ _ _ _ _ => [ds, filter, config]
  | .editdata ds _ cont => [ds, cont]
  | .establishsub filter stream start stop encoding => [filter, stream, start, stop, encoding]
  | .modifysub _ filter stop => [filter, stop]
  | .deletesub _ => []
  | .killsub _ => []
  | .pushPeriodic ds filter stop encoding _ anchor => [ds, filter, stop, encoding, anchor]
  | .pushOnchange ds filter stop encoding _ _ _ => [ds, filter, stop, encoding]
  | .modpushPeriodic _ ds filter stop _ anchor => [ds, filter, stop, anchor]
  | .modpushOnchange _ ds filter stop _ => [ds, filter, stop]
  | .resyncsub _ => []

/-- The array of strings of an RPC. -/
def rpcArray {σ α : Type} : Rpc σ α → Option α
  | .getdata _ _ _ origin _ _ _ _ => some origin
  | .pushOnchange _ _ _ _ _ _ excluded => some excluded
  | _ => none

/-- All blocks given to a constructor. -/
def givenBlocks (c : PRpc) : List Nat :=
  (rpcStrings c).filterMap id ++ (match rpcArray c with | some (some (a, es)) => a :: es | _ => [])

theorem filterMap_map_some (l : List Nat) : (l.map some).filterMap id = l := by induction l <;> simp_all

/-- `nc_rpc_free` releases everything an object consists of. -/
theorem freed_perm (c : PRpc) : ((freed c).filterMap id).Perm (givenBlocks c) := by
  cases c <;> simp only [freed, givenBlocks, rpcStrings, rpcArray, List.append_nil] <;> try exact List.Perm.refl _
  case copy t u s x w => exact (List.Perm.swap _ _ _ : [x, u].Perm [u, x]).filterMap id
  case getdata d f c o _ _ _ _ =>
    cases o with
    | none =>
      simp only [List.append_nil, Option.map_none, List.filterMap_append, List.filterMap_cons, id, List.filterMap_nil]
      exact List.Perm.refl _
    | some o =>
      obtain ⟨a, es⟩ := o
      simp only [List.filterMap_append, filterMap_map_some, List.append_assoc]
      refine List.Perm.append_left _ ?_
      simp only [Option.map_some, List.filterMap_cons, id, List.filterMap_nil]
      exact (List.perm_append_comm (l₁ := es) (l₂ := [a]))
  case pushOnchange d f s e _ _ o =>
    cases o with
    | none => simp
    | some o =>
      obtain ⟨a, es⟩ := o
      simp only [List.filterMap_append, filterMap_map_some]
      refine List.Perm.append_left _ ?_
      simp only [List.filterMap_cons, id, List.filterMap_nil]
      exact (List.perm_append_comm (l₁ := es) (l₂ := [a]))

/-- What the caller can rely on: no undefined behaviour; without an object nothing changed; an object changes no string of the caller; freeing it
releases the given strings if they were handed over and leaves everything else as before. -/
def Owns (pt : ParamType) (c : PRpc) (m : Mem) : Res → Prop
  | .ub => False
  | .null m' => m'.live = m.live
  | .made o m' => (∀ p ∈ m.live, p ∈ m'.live ∧ m'.text p = m.text p) ∧
      ∃ m'', rpcFree o m' = some m'' ∧ m''.live = if pt = .free then m.live.filter (fun p => decide (p ∉ givenBlocks c)) else m.live

theorem owns_keep {pt : ParamType} (hpt : pt ≠ .dupAndFree) {c : PRpc} {m m1 : Mem} {self : Nat} (hw : m.WF) (h : m.malloc = (some self, m1))
    (hl : ∀ p ∈ givenBlocks c, p ∈ m.live) (hn : (givenBlocks c).Nodup) : Owns pt c m (.made ⟨self, c, pt != .const⟩ m1) := by
  obtain ⟨w1, h1, h2, _, h4, _, _⟩ := malloc_self hw h
  refine ⟨fun p hp => ⟨by rw [h1]; exact List.mem_cons_of_mem _ hp, by rw [h4]⟩, ?_⟩
  cases pt with
  | dupAndFree => exact absurd rfl hpt
  | const =>
    obtain ⟨m3, k1, k2⟩ := free_self h1 h2
    exact ⟨m3, by simp [rpcFree, k1], by simpa using k2⟩
  | free =>
    have hp := freed_perm c
    have hs := freeAll_spec (freed c) m1 (hp.nodup_iff.mpr hn) (fun p hm => by rw [h1]; exact List.mem_cons_of_mem _ (hl p (hp.mem_iff.mp hm)))
    have e : m1.live.filter (fun p => decide (p ∉ (freed c).filterMap id)) = self :: m.live.filter (fun p => decide (p ∉ givenBlocks c)) := by
      rw [h1, List.filter_cons_of_pos (by simp only [decide_eq_true_eq]; exact fun hm => h2 (hl _ (hp.mem_iff.mp hm)))]
      congr 1
      apply List.filter_congr
      intro q _
      simp only [hp.mem_iff]
    obtain ⟨m3, k1, k2⟩ := free_self (m := { m1 with live := m1.live.filter (fun p => decide (p ∉ (freed c).filterMap id)) }) e (fun hm => h2 (List.mem_filter.mp hm).1)
    exact ⟨m3, by simp only [rpcFree, show (ParamType.free != ParamType.const) = true from rfl, if_true, hs, Option.bind_some, k1], by rw [if_pos rfl]; exact k2⟩

theorem owns_made {c : PRpc} {m m1 m2 : Mem} {self : Nat} {rpc : PRpc} {os : List (Option Nat)} (hw : m.WF) (h : m.malloc = (some self, m1)) (ho : Own m1 m2 os)
    (hp : ((freed rpc).filterMap id).Perm (os.filterMap id)) : Owns .dupAndFree c m (.made ⟨self, rpc, ParamType.dupAndFree != ParamType.const⟩ m2) := by
  obtain ⟨⟨m3, g1, g3⟩, g2⟩ := own_made hw h ho hp
  exact ⟨g2, m3, g1, by rw [if_neg (by simp)]; exact g3⟩

/-- A failed constructor gives back what it had. -/
theorem owns_failed {c : PRpc} {m m1 m2 : Mem} {self : Nat} {rpc : PRpc} {os : List (Option Nat)} (hw : m.WF) (h : m.malloc = (some self, m1)) (ho : Own m1 m2 os)
    (hp : ((freed rpc).filterMap id).Perm (os.filterMap id)) :
    Owns .dupAndFree c m (match rpcFree ⟨self, rpc, ParamType.dupAndFree != ParamType.const⟩ m2 with | some m => .null m | none => .ub) := by
  obtain ⟨⟨m3, g1, g3⟩, _⟩ := own_made hw h ho hp
  rw [show (ParamType.dupAndFree != ParamType.const) = true from rfl, g1]
  exact g3

theorem owns_begin_dup {ok : Bool} {c : PRpc} {m : Mem} {k : Mem → PRpc × Mem} (hw : m.WF) (hk : ∀ m1, ∃ os, Own m1 (k m1).2 os ∧ ((freed (k m1).1).filterMap id).Perm (os.filterMap id)) :
    Owns .dupAndFree c m (begin ok .dupAndFree m k) := by
  unfold begin
  cases ok
  · rfl
  · simp only [Bool.not_true, Bool.false_eq_true, if_false]
    rcases h : m.malloc with ⟨_ | self, m1⟩
    · exact malloc_null h
    · obtain ⟨os, h1, h2⟩ := hk m1
      exact owns_made hw h h1 h2

theorem owns_begin_keep {pt : ParamType} (hpt : pt ≠ .dupAndFree) {ok : Bool} {c : PRpc} {m : Mem} {k : Mem → PRpc × Mem} (hw : m.WF) (hk : ∀ m1, k m1 = (c, m1))
    (hl : ∀ p ∈ givenBlocks c, p ∈ m.live) (hn : (givenBlocks c).Nodup) : Owns pt c m (begin ok pt m k) := by
  unfold begin
  cases ok
  · rfl
  · simp only [Bool.not_true, Bool.false_eq_true, if_false]
    rcases h : m.malloc with ⟨_ | self, m1⟩
    · exact malloc_null h
    · simp only [hk]
      exact owns_keep hpt hw h hl hn

/-- **C49, part.** Whatever the arguments, the mode and the allocations that fail: creating an RPC and freeing it releases each string that was copied or handed over
exactly once and none that stayed with the caller.

Missing of the full claim: allocations failing in `nc_rpc_establishpush_onchange` (`rpc_ownership_false`). -/
theorem rpc_ownership_partial (single : Bool) (pt : ParamType) (c : PRpc) (m : Mem) (hw : m.WF) (hl : ∀ p ∈ givenBlocks c, p ∈ m.live)
    (hn : (givenBlocks c).Nodup) (hf : ∀ ds f s e d y x, c = .pushOnchange ds f s e d y x → ∀ n, m.fails n = false) : Owns pt c m (create single pt c m) := by
  by_cases hpt : pt = .dupAndFree
  · subst hpt
    cases c
    case generic data =>
      simp only [create]
      split
      · rfl
      · rcases h : m.malloc with ⟨_ | self, m1⟩
        · exact malloc_null h
        · obtain ⟨w1, h1, h2, _⟩ := malloc_self hw h
          have ho := (Own.refl m1).field data
          simp only
          rcases hd : field .dupAndFree data m1 with ⟨_ | d, m2⟩
          · rw [hd] at ho
            obtain ⟨m3, k1, k2⟩ := free_self (m := m2) (by simpa using ho.live.trans (by simpa using h1)) h2
            simp only [k1]
            exact k2
          · rw [hd] at ho
            exact owns_made hw h ho (rpc := .generic (some d)) (List.Perm.refl _)
    case getdata ds filter config origin negated maxDepth withOrigin wd =>
      simp only [create]
      split
      · rfl
      · rcases h : m.malloc with ⟨_ | self, m1⟩
        · exact malloc_null h
        · have ho := (((Own.refl m1).field ds).field filter).field config
          have hp3 : ∀ a b c : Option Nat, ([a, b, c].filterMap id).Perm ([c, b, a].filterMap id) := fun a b c => ((List.reverse_perm [c, b, a]).filterMap id)
          cases origin with
          | none =>
            refine owns_made hw h ho ?_
            simp only [freed, Option.map_none, List.append_nil]
            rw [List.filterMap_append, show List.filterMap id [(none : Option Nat)] = [] from rfl, List.append_nil]
            exact hp3 _ _ _
          | some o =>
            obtain ⟨arr, es⟩ := o
            simp only [if_true]
            have ha := ho.malloc
            rcases hm : (field .dupAndFree config (field .dupAndFree filter (field .dupAndFree ds m1).2).2).2.malloc with ⟨_ | arr', m2⟩
            · rw [hm] at ha
              refine owns_failed hw h ha ?_
              simp only [freed, Option.map_none, List.append_nil]
              rw [List.filterMap_append, show List.filterMap id [(none : Option Nat)] = [] from rfl, List.append_nil]
              exact hp3 _ _ _
            · rw [hm] at ha
              obtain ⟨os', g1, g2⟩ := dupOrigins_own es ha
              have hperm : ∀ (a b c : Option Nat) (es' : List Nat) (os' : List (Option Nat)), os'.filterMap id = es'.reverse →
                  (([a, b, c] ++ es'.map some ++ [some arr']).filterMap id).Perm ((os' ++ some arr' :: c :: b :: a :: []).filterMap id) := by
                intro a b c es' os' he
                simp only [List.filterMap_append, filterMap_map_some, he]
                rw [show List.filterMap id (some arr' :: [c, b, a]) = arr' :: List.filterMap id [c, b, a] from rfl, show List.filterMap id [some arr'] = [arr'] from rfl]
                refine ((((hp3 a b c).append_right es').append_right _).trans ?_)
                refine List.perm_append_comm.trans ?_
                refine (List.Perm.trans ?_ (List.perm_middle.symm))
                refine List.Perm.cons arr' ?_
                show (List.filterMap id [c, b, a] ++ es').Perm _
                exact List.perm_append_comm.trans ((List.reverse_perm es').symm.append_right _)
              rcases hd : dupOrigins es m2 with ⟨es', b, m3⟩
              rw [hd] at g1 g2
              simp only [hd]
              cases b
              · refine owns_failed hw h g1 ?_
                exact hperm _ _ _ _ _ g2
              · refine owns_made hw h g1 ?_
                exact hperm _ _ _ _ _ g2
    case pushOnchange ds filter stop encoding damp sync excluded =>
      have hff := hf _ _ _ _ _ _ _ rfl
      simp only [create]
      split
      · rfl
      · rcases h : m.malloc with ⟨_ | self, m1⟩
        · exact malloc_null h
        · obtain ⟨w1, _, _, hfl, _⟩ := malloc_self hw h
          have ho := ((((Own.refl m1).field ds).field filter).field stop).field encoding
          have hp4 : ∀ a b c d : Option Nat, ([a, b, c, d].filterMap id).Perm ([d, c, b, a].filterMap id) := fun a b c d => ((List.reverse_perm [d, c, b, a]).filterMap id)
          cases excluded with
          | none =>
            refine owns_made hw h ho ?_
            simp only [freed, List.append_nil]
            exact hp4 _ _ _ _
          | some o =>
            obtain ⟨arr, es⟩ := o
            simp only [if_true]
            obtain ⟨x, m', os', r1, r2, r3⟩ := dupExcluded_own w1 (by rw [hfl]; exact hff) _ es none [] _ _ ho (List.Perm.refl _) (by simp)
            simp only [r1]
            refine owns_made hw h r2 ?_
            refine List.Perm.trans ?_ r3.symm
            simp only [freed]
            rw [List.filterMap_append]
            exact List.perm_append_comm.trans ((hp4 _ _ _ _).append_left _)
    all_goals
      simp only [create]
      refine owns_begin_dup hw (fun m1 => ?_)
      apply Exists.intro
      constructor
      · dsimp only
        repeat (first | exact Own.refl _ | apply Own.field)
      · first | exact (List.reverse_perm _).symm.filterMap id | exact List.Perm.refl _
  · cases c
    case generic data =>
      simp only [create]
      split
      · rfl
      · rename_i hc
        cases data with
        | none => simp at hc
        | some d =>
          rcases h : m.malloc with ⟨_ | self, m1⟩
          · exact malloc_null h
          · simp only [field_keep hpt]
            exact owns_keep hpt hw h hl hn
    case getdata ds filter config origin negated maxDepth withOrigin wd =>
      simp only [create]
      split
      · rfl
      · rcases h : m.malloc with ⟨_ | self, m1⟩
        · exact malloc_null h
        · simp only [field_keep hpt]
          cases origin <;> exact owns_keep hpt hw h hl hn
    case pushOnchange ds filter stop encoding damp sync excluded =>
      simp only [create]
      split
      · rfl
      · rcases h : m.malloc with ⟨_ | self, m1⟩
        · exact malloc_null h
        · simp only [field_keep hpt]
          cases excluded <;> exact owns_keep hpt hw h hl hn
    all_goals
      simp only [create, field_keep hpt]
      exact owns_begin_keep hpt hw (fun _ => rfl) hl hn

/-- Three strings and an array. -/
def exampleMem (fails : Nat → Bool) : Mem := ⟨[1, 2, 3, 4], 10, fun p => if p = 1 then lit "/a:b" else lit "delete", fails⟩

example : Owns .dupAndFree (.get (some 1) 0) (exampleMem fun _ => false) (create true .dupAndFree (.get (some 1) 0) (exampleMem fun _ => false)) :=
  rpc_ownership_partial _ _ _ _ (by unfold Mem.WF; decide) (by decide) (by decide) (by simp)

/-- **C49 is false in general.** If the second allocation of the array of excluded changes fails, the copy of the first change is lost. -/
theorem rpc_ownership_false : ∃ (c : PRpc) (fails : Nat → Bool) (o : Obj) (m' m'' : Mem), (∀ p ∈ givenBlocks c, p ∈ (exampleMem fails).live) ∧ (givenBlocks c).Nodup ∧
    create true .dupAndFree c (exampleMem fails) = .made o m' ∧ rpcFree o m' = some m'' ∧ m''.live = 13 :: (exampleMem fails).live := by
  exact ⟨.pushOnchange (some 1) none none none 0 false (some (4, [2, 3])), (· == 14), ⟨10, .pushOnchange (some 11) none none none 0 false none, true⟩, _, _, by decide, by decide, rfl, rfl, by decide⟩

/-! ## C94: objects contain the arguments -/

theorem begin_made {ok : Bool} {pt : ParamType} {m m' : Mem} {k : Mem → PRpc × Mem} {o : Obj} (h : begin ok pt m k = .made o m') :
    ∃ self m1, m.malloc = (some self, m1) ∧ o.rpc = (k m1).1 ∧ m' = (k m1).2 := by
  unfold begin at h
  split at h
  · cases h
  · rcases hm : m.malloc with ⟨_ | self, m1⟩
    · rw [hm] at h; cases h
    · rw [hm] at h
      simp only [Res.made.injEq] at h
      exact ⟨self, m1, rfl, by rw [← h.1], h.2.symm⟩

/-- **C94, part.** If no copy fails, a created RPC contains the texts of all arguments.

Missing of the full claim: a copy that fails (`rpc_contents_false`). -/
theorem rpc_contents_partial (single : Bool) (pt : ParamType) (c : PRpc) (m : Mem) (hw : m.WF) (hl : ∀ p ∈ givenBlocks c, p ∈ m.live) (hf : NoFail pt m) (o : Obj) (m' : Mem)
    (hc : create single pt c m = .made o m') : says m' o.rpc = says m c := by
  have hlt : ∀ a ∈ rpcStrings c, ∀ p, a = some p → p < m.next := by
    intro a ha p hp
    exact hw p (hl p (by unfold givenBlocks; exact List.mem_append_left _ (List.mem_filterMap.mpr ⟨a, ha, by simp [hp]⟩)))
  cases c
  case generic data =>
    simp only [create] at hc
    split at hc
    · cases hc
    · rcases h : m.malloc with ⟨_ | self, m1⟩
      · rw [h] at hc; cases hc
      · rw [h] at hc
        obtain ⟨_, _, _, h3, h4, h5, _⟩ := malloc_self hw h
        simp only at hc
        have hs := field_says (Grow.refl m1) (Grow.refl _) (fun p hp => by have := hlt data (by simp [rpcStrings]) p hp; omega) (fun e n => by rw [h3]; exact hf e n)
        rcases hd : field pt data m1 with ⟨_ | d, m2⟩
        · rw [hd] at hc
          simp only at hc
          split at hc <;> cases hc
        · rw [hd] at hc hs
          simp only [Res.made.injEq] at hc
          obtain ⟨rfl, rfl⟩ := hc
          simp only [says]
          rw [h4] at hs
          rw [hs]
  case getdata ds filter config origin negated maxDepth withOrigin wd =>
    simp only [create] at hc
    split at hc
    · cases hc
    · rcases h : m.malloc with ⟨_ | self, m1⟩
      · rw [h] at hc; cases hc
      · rw [h] at hc
        obtain ⟨_, _, _, h3, h4, h5, _⟩ := malloc_self hw h
        have hf1 : NoFail pt m1 := fun e n => by rw [h3]; exact hf e n
        have key : ∀ (mF : Mem), Grow (field pt config (field pt filter (field pt ds m1).2).2).2 mF →
            (field pt ds m1).1.map mF.text = ds.map m.text ∧ (field pt filter (field pt ds m1).2).1.map mF.text = filter.map m.text ∧
            (field pt config (field pt filter (field pt ds m1).2).2).1.map mF.text = config.map m.text := by
          intro mF hF
          rw [← h4]
          refine ⟨field_says (Grow.refl _) ?_ ?_ hf1, field_says ?_ ?_ ?_ hf1, field_says ?_ hF ?_ hf1⟩
          · exact (((Grow.refl _).field).field).trans hF
          · intro p hp; have := hlt ds (by simp [rpcStrings]) p hp; omega
          · exact (Grow.refl _).field
          · exact ((Grow.refl _).field).trans hF
          · intro p hp; have := hlt filter (by simp [rpcStrings]) p hp; omega
          · exact ((Grow.refl _).field).field
          · intro p hp; have := hlt config (by simp [rpcStrings]) p hp; omega
        cases origin with
        | none =>
          simp only [Res.made.injEq] at hc
          obtain ⟨rfl, rfl⟩ := hc
          obtain ⟨k1, k2, k3⟩ := key _ (Grow.refl _)
          simp only [says, k1, k2, k3]
        | some ar =>
          obtain ⟨arr, es⟩ := ar
          have hes : ∀ p ∈ es, p < m.next := fun p hp => hw p (hl p (by simp [givenBlocks, rpcArray, hp]))
          simp only at hc
          split at hc
          · rename_i hpt
            rcases hm : (field pt config (field pt filter (field pt ds m1).2).2).2.malloc with ⟨_ | arr', m2⟩
            · rw [hm] at hc
              simp only at hc
              split at hc <;> cases hc
            · rw [hm] at hc
              have hg : Grow (field pt config (field pt filter (field pt ds m1).2).2).2 m2 := by
                have := (Grow.refl (field pt config (field pt filter (field pt ds m1).2).2).2).malloc
                rw [hm] at this; exact this
              have hg1 : Grow m1 m2 := (((Grow.refl _).field).field).field.trans hg
              have hd := dupOrigins_says es hg1 (Grow.refl _) (fun p hp => by have := hes p hp; omega) (fun n => hf1 hpt n)
              have hgr := dupOrigins_grow es hg
              rcases hd2 : dupOrigins es m2 with ⟨es', b, m3⟩
              simp only at hc
              rw [hd2] at hc hd hgr
              obtain ⟨hb, hd⟩ := hd
              simp only at hb
              subst hb
              simp only [Res.made.injEq] at hc
              obtain ⟨rfl, rfl⟩ := hc
              obtain ⟨k1, k2, k3⟩ := key _ hgr
              simp only [says, k1, k2, k3]
              simp only at hd
              rw [hd, h4]
          · simp only [Res.made.injEq] at hc
            obtain ⟨rfl, rfl⟩ := hc
            obtain ⟨k1, k2, k3⟩ := key _ (Grow.refl _)
            simp only [says, k1, k2, k3]
            congr 1
            refine List.map_congr_left (fun p hp => ?_)
            have hg : Grow m1 (field pt config (field pt filter (field pt ds m1).2).2).2 := (((Grow.refl _).field).field).field
            rw [hg.text p (by have := hes p hp; omega), h4]
  case pushOnchange ds filter stop encoding damp sync excluded =>
    simp only [create] at hc
    split at hc
    · cases hc
    · rcases h : m.malloc with ⟨_ | self, m1⟩
      · rw [h] at hc; cases hc
      · rw [h] at hc
        obtain ⟨_, _, _, h3, h4, h5, _⟩ := malloc_self hw h
        have hf1 : NoFail pt m1 := fun e n => by rw [h3]; exact hf e n
        have key : ∀ (mF : Mem), Grow (field pt encoding (field pt stop (field pt filter (field pt ds m1).2).2).2).2 mF →
            (field pt ds m1).1.map mF.text = ds.map m.text ∧ (field pt filter (field pt ds m1).2).1.map mF.text = filter.map m.text ∧
            (field pt stop (field pt filter (field pt ds m1).2).2).1.map mF.text = stop.map m.text ∧
            (field pt encoding (field pt stop (field pt filter (field pt ds m1).2).2).2).1.map mF.text = encoding.map m.text := by
          intro mF hF
          rw [← h4]
          refine ⟨field_says (Grow.refl _) ?_ ?_ hf1, field_says ?_ ?_ ?_ hf1, field_says ?_ ?_ ?_ hf1, field_says ?_ hF ?_ hf1⟩
          · exact ((((Grow.refl _).field).field).field).trans hF
          · intro p hp; have := hlt ds (by simp [rpcStrings]) p hp; omega
          · exact (Grow.refl _).field
          · exact (((Grow.refl _).field).field).trans hF
          · intro p hp; have := hlt filter (by simp [rpcStrings]) p hp; omega
          · exact ((Grow.refl _).field).field
          · exact ((Grow.refl _).field).trans hF
          · intro p hp; have := hlt stop (by simp [rpcStrings]) p hp; omega
          · exact (((Grow.refl _).field).field).field
          · intro p hp; have := hlt encoding (by simp [rpcStrings]) p hp; omega
        cases excluded with
        | none =>
          simp only [Res.made.injEq] at hc
          obtain ⟨rfl, rfl⟩ := hc
          obtain ⟨k1, k2, k3, k4⟩ := key _ (Grow.refl _)
          simp only [says, k1, k2, k3, k4]
        | some ar =>
          obtain ⟨arr, es⟩ := ar
          have hes : ∀ p ∈ es, p < m.next := fun p hp => hw p (hl p (by simp [givenBlocks, rpcArray, hp]))
          have hg1 : Grow m1 (field pt encoding (field pt stop (field pt filter (field pt ds m1).2).2).2).2 := ((((Grow.refl _).field).field).field).field
          simp only at hc
          split at hc
          · rename_i hpt
            split at hc
            · rename_i x m3 hx
              simp only [Res.made.injEq] at hc
              obtain ⟨rfl, rfl⟩ := hc
              obtain ⟨k1, k2, k3, k4⟩ := key _ (dupExcluded_grow es none [] false (Grow.refl _) hx)
              simp only [says, k1, k2, k3, k4]
              have := dupExcluded_says es none [] hg1 (fun p hp => by have := hes p hp; omega) (fun n => hf1 hpt n) (by simp) (by simp) hx
              rw [h4] at this
              congr 1
            · cases hc
          · simp only [Res.made.injEq] at hc
            obtain ⟨rfl, rfl⟩ := hc
            obtain ⟨k1, k2, k3, k4⟩ := key _ (Grow.refl _)
            simp only [says, k1, k2, k3, k4]
            congr 1
            refine List.map_congr_left (fun p hp => ?_)
            rw [hg1.text p (by have := hes p hp; omega), h4]
  all_goals
    simp only [create] at hc
    obtain ⟨self, m1, h, e1, e2⟩ := begin_made hc
    obtain ⟨_, _, _, h3, h4, h5, _⟩ := malloc_self hw h
    have hf1 : NoFail pt m1 := fun e n => by rw [h3]; exact hf e n
    have hlt1 : ∀ a ∈ rpcStrings _, ∀ p, a = some p → p < m1.next := fun a ha p hp => by have := hlt a ha p hp; omega
    rw [e1, e2]
    simp only [says]
    try (congr 1 <;> (rw [← h4]; refine field_says ?_ ?_ (hlt1 _ (by simp [rpcStrings])) hf1 <;> (repeat (first | exact Grow.refl _ | apply Grow.field))))

example : ∃ o m', create true .dupAndFree (.get (some 1) 3) (exampleMem fun _ => false) = .made o m' ∧ says m' o.rpc = .get (some (lit "/a:b")) 3 ∧ o.rpc ≠ .get (some 1) 3 :=
  ⟨⟨10, .get (some 11) 3, true⟩, _, rfl, by decide, by decide⟩

/-- A filter as documented: a subtree in XML, an XPath or a name; or an empty one. -/
def goodFilter (m : Mem) : Option Nat → Prop
  | none => True
  | some p => m.text p = [] ∨ ∃ c t, m.text p = c :: t ∧ (c = 60 ∨ c = 47 ∨ (65 ≤ c ∧ c ≤ 90) ∨ (97 ≤ c ∧ c ≤ 122))

/-- A config as documented: XML or a URL; or an empty one. -/
def goodCont (m : Mem) : Option Nat → Prop
  | none => True
  | some p => m.text p = [] ∨ ∃ c t, m.text p = c :: t ∧ (c = 60 ∨ (65 ≤ c ∧ c ≤ 90) ∨ (97 ≤ c ∧ c ≤ 122))

/-- The arguments an application may use. -/
def goodArgs (m : Mem) : PRpc → Prop
  | .generic data => data.isSome
  | .genericXml xml => xml.isSome
  | .getconfig source filter _ => source ≠ 0 ∧ goodFilter m filter
  | .edit target _ _ _ cont => target ≠ 0 ∧ cont.isSome ∧ goodCont m cont
  | .copy target _ source src _ => target ≠ 0 ∧ source ≠ 0 ∧ goodCont m src
  | .delete target _ | .lock target | .unlock target => target ≠ 0
  | .get filter _ | .subscribe _ filter _ _ => goodFilter m filter
  | .kill sid => sid ≠ 0
  | .commit .. | .discard | .cancel _ => True
  | .validate source src => source ≠ 0 ∧ goodCont m src
  | .getschema ident _ _ => ident.isSome
  | .getdata ds filter _ _ _ _ _ _ => ds.isSome ∧ goodFilter m filter
  | .editdata ds _ cont => ds.isSome ∧ cont.isSome ∧ goodCont m cont
  | .establishsub filter stream _ _ _ => stream.isSome ∧ goodFilter m filter
  | .modifysub id filter _ => id ≠ 0 ∧ goodFilter m filter
  | .deletesub id | .killsub id | .resyncsub id => id ≠ 0
  | .pushPeriodic ds filter _ _ period _ => ds.isSome ∧ period ≠ 0 ∧ goodFilter m filter
  | .pushOnchange ds filter _ _ _ _ _ => ds.isSome ∧ goodFilter m filter
  | .modpushPeriodic id ds filter _ _ _ | .modpushOnchange id ds filter _ _ => id ≠ 0 ∧ ds.isSome ∧ goodFilter m filter

theorem filterOk_iff (m : Mem) (f : Option Nat) : filterOk m f = true ↔ goodFilter m f := by
  rcases f with _ | p
  · simp [filterOk, goodFilter]
  · simp only [filterOk, goodFilter]
    rcases h : m.text p with _ | ⟨c, t⟩
    · simp
    · simp [isAlpha, or_assoc]

theorem contOk_iff (m : Mem) (f : Option Nat) : contOk m f = true ↔ goodCont m f := by
  rcases f with _ | p
  · simp [contOk, goodCont]
  · simp only [contOk, goodCont]
    rcases h : m.text p with _ | ⟨c, t⟩
    · simp
    · simp [isAlpha]

theorem begin_ok {ok : Bool} {pt : ParamType} {m : Mem} {k : Mem → PRpc × Mem} (hf : ∀ n, m.fails n = false) : (∃ o m', begin ok pt m k = .made o m') ↔ ok = true := by
  unfold begin
  rw [show m.malloc = (some m.next, { m with next := m.next + 1, live := m.next :: m.live }) by simp [Mem.malloc, hf]]
  cases ok <;> simp

/-- **C94, second half.** While memory lasts, exactly the documented arguments give an object. -/
theorem rpc_created (pt : ParamType) (c : PRpc) (m : Mem) (hw : m.WF) (hl : ∀ p ∈ givenBlocks c, p ∈ m.live) (hf : ∀ n, m.fails n = false) :
    (∃ o m', create true pt c m = .made o m') ↔ goodArgs m c := by
  have hm : m.malloc = (some m.next, { m with next := m.next + 1, live := m.next :: m.live }) := by simp [Mem.malloc, hf]
  have hg : Grow m { m with next := m.next + 1, live := m.next :: m.live } := ⟨rfl, Nat.le_succ _, fun _ _ => rfl⟩
  cases c
  case generic data =>
    cases data with
    | none => simp [create, goodArgs]
    | some d => by_cases hpt : pt = .dupAndFree <;> simp [create, goodArgs, hm, field, Mem.strdup, hf, hpt]
  case getdata ds filter config origin negated maxDepth withOrigin wd =>
    simp only [create, goodArgs, ← filterOk_iff, hm]
    rcases hd : ds with _ | d
    · simp
    · rcases hfl : filterOk m filter
      · simp
      · rw [← hd]
        simp only [Bool.not_true, Bool.or_false, show ds.isNone = false by simp [hd], if_neg Bool.false_ne_true, show ds.isSome = true by simp [hd], and_self, iff_true]
        cases origin with
        | none => exact ⟨_, _, rfl⟩
        | some ar =>
          obtain ⟨arr, es⟩ := ar
          have hes : ∀ p ∈ es, p < m.next := fun p hp => hw p (hl p (by simp [givenBlocks, rpcArray, hp]))
          simp only
          by_cases hpt : pt = .dupAndFree
          · rw [if_pos hpt]
            have hg3 := ((hg.field (pt := pt) (a := ds)).field (pt := pt) (a := filter)).field (pt := pt) (a := config)
            have hm3 := hg3.malloc
            rcases h3 : (field pt config (field pt filter (field pt ds { m with next := m.next + 1, live := m.next :: m.live }).2).2).2.malloc with ⟨_ | arr', m2⟩
            · unfold Mem.malloc at h3
              rw [hg3.fails, hf] at h3
              simp at h3
            · simp only [h3] at hm3 ⊢
              have hd := (dupOrigins_says es hm3 (Grow.refl _) hes hf).1
              rcases h4 : dupOrigins es m2 with ⟨es', b, m3⟩
              rw [h4] at hd
              simp only at hd
              subst hd
              exact ⟨_, _, rfl⟩
          · rw [if_neg hpt]
            exact ⟨_, _, rfl⟩
  case pushOnchange ds filter stop encoding damp sync excluded =>
    simp only [create, goodArgs, ← filterOk_iff, hm]
    rcases hd : ds with _ | d
    · simp
    · rcases hfl : filterOk m filter
      · simp
      · rw [← hd]
        simp only [Bool.not_true, Bool.or_false, show ds.isNone = false by simp [hd], if_neg Bool.false_ne_true, show ds.isSome = true by simp [hd], and_self, iff_true]
        cases excluded with
        | none => exact ⟨_, _, rfl⟩
        | some ar =>
          obtain ⟨arr, es⟩ := ar
          simp only
          by_cases hpt : pt = .dupAndFree
          · rw [if_pos hpt]
            subst hpt
            have ho := ((((Own.refl { m with next := m.next + 1, live := m.next :: m.live }).field ds).field filter).field stop).field encoding
            obtain ⟨w1, _⟩ := malloc_self hw hm
            obtain ⟨x, m', os', r1, r2, r3⟩ := dupExcluded_own w1 hf _ es none [] _ _ ho (List.Perm.refl _) (by simp)
            simp only [r1]
            exact ⟨_, _, rfl⟩
          · rw [if_neg hpt]
            exact ⟨_, _, rfl⟩
  all_goals
    simp only [create, goodArgs]
    rw [begin_ok hf]
    try simp only [← filterOk_iff, ← contOk_iff, Bool.and_eq_true, bne_iff_ne, and_assoc]

/-- **C94 is false in general.** A filter that cannot be copied is left out, and the RPC gets everything; a config that cannot be copied is `NULL`, which sending reads. -/
theorem rpc_contents_false : (∃ fails o m', create true .dupAndFree (.get (some 1) 0) (exampleMem fails) = .made o m' ∧ says m' o.rpc = .get none 0) ∧
    (∃ fails o m', create true .dupAndFree (.edit 3 0 0 0 (some 2)) (exampleMem fails) = .made o m' ∧ ∀ ctx, send ctx (says m' o.rpc) = .ub) :=
  ⟨⟨(· == 11), ⟨10, .get none 0, true⟩, _, rfl, rfl⟩, ⟨(· == 11), ⟨10, .edit 3 0 0 0 none, true⟩, _, rfl, fun _ => rfl⟩⟩

/-! ## C95: what is sent says what the object says -/

/-- The leaves of a name. -/
def leafs (cs : List Child) (mod name : String) : List Leaf :=
  cs.filterMap fun | .leaf l => if l.mod = mod ∧ l.name = name then some l else none | .cont .. => none

/-- The contents of the containers of a name. -/
def conts (cs : List Child) (mod name : String) : List (List Leaf) :=
  cs.filterMap fun | .cont m n ls => if m = mod ∧ n = name then some ls else none | .leaf _ => none

/-- The value of a leaf. -/
def rdText : List Leaf → Option (List Byte)
  | [l] => if l.any = false ∧ l.metas = [] then l.value else none
  | _ => none

/-- A number, 0 if there is none. -/
def rdNum (ls : List Leaf) : Nat :=
  match rdText ls with
  | some t => strtoul t
  | none => 0

/-- The number of a name in a list, from 1; 0 if it is not there. -/
def nameNum (names : List String) (t : List Byte) : Nat :=
  match names.findIdx? (fun s => s.toList.map Char.toNat == t) with
  | some i => i + 1
  | none => 0

/-- An enumeration, 0 if there is none. -/
def rdEnum (names : List String) (ls : List Leaf) : Nat :=
  match rdText ls with
  | some t => nameNum names t
  | none => 0

/-- XML, or nothing. -/
def isXml (t : List Byte) : Bool := t.isEmpty || t.head? == some 60

/-- The filter in the way of RFC 6241, 8.9.1: a subtree in the node or an XPath in the attribute `select`. -/
def rdFilter (ls : List Leaf) : Option (List Byte) :=
  match ls with
  | [⟨_, _, some t, true, [("type", k)]⟩] => if k = "subtree".toList.map Char.toNat ∧ isXml t then some t else none
  | [⟨_, _, none, true, [("type", k), ("select", t)]⟩] => if k = "xpath".toList.map Char.toNat ∧ !isXml t then some t else none
  | _ => none

/-- XML in an anydata node. -/
def rdXml (ls : List Leaf) : Option (List Byte) :=
  match ls with
  | [⟨_, _, some t, true, []⟩] => if isXml t then some t else none
  | _ => none

/-- A text satisfying `p`. -/
def rdIf (p : List Byte → Bool) (ls : List Leaf) : Option (List Byte) := (rdText ls).filter p

/-- One of several values. -/
def rdOne : List (Option (List Byte)) → Option (List Byte)
  | [] => none
  | some t :: _ => some t
  | none :: vs => rdOne vs

/-- A filter in one of three nodes. -/
def rdFilter3 (cs : List Child) (mod subtree xpath name : String) : Option (List Byte) :=
  rdOne [rdXml (leafs cs mod subtree), rdIf (fun t => t.head? == some 47) (leafs cs mod xpath), rdIf (fun t => !isXml t && t.head? != some 47) (leafs cs mod name)]

/-- XML in `config` or a URL in `url`. -/
def rdCont (cs : List Child) (mod : String) : Option (List Byte) := rdOne [rdXml (leafs cs mod "config"), rdIf (fun t => !isXml t) (leafs cs mod "url")]

/-- A datastore: its number and the URL or config. -/
def rdDs (cs : List Child) (name : String) : Nat × Option (List Byte) :=
  match conts cs "ietf-netconf" name with
  | [[⟨"ietf-netconf", n, v, any, []⟩]] =>
    if n = "config" then (1, if any then v.filter isXml else none)
    else if n = "url" then (2, if any then none else v)
    else if v = none ∧ any = false then (nameNum ["config", "url", "running", "startup", "candidate"] (n.toList.map Char.toNat), none)
    else (0, none)
  | _ => (0, none)

/-- Modes of `with-defaults` (RFC 6243). -/
def wdModes : List String := ["report-all", "report-all-tagged", "trim", "explicit"]

/-- The operations of RFC 6241. -/
def rdNetconf (name : String) (cs : List Child) : Option Req :=
  let mod := "ietf-netconf"
  let v (n : String) := rdText (leafs cs mod n)
  let wd := rdEnum wdModes (leafs cs "ietf-netconf-with-defaults" "with-defaults")
  if name = "get-config" then some (.getconfig (rdDs cs "source").1 (rdFilter (leafs cs mod "filter")) wd)
  else if name = "edit-config" then
    some (.edit (rdDs cs "target").1 (rdEnum ["merge", "replace", "none"] (leafs cs mod "default-operation"))
      (rdEnum ["test-then-set", "set", "test-only"] (leafs cs mod "test-option")) (rdEnum ["stop-on-error", "continue-on-error", "rollback-on-error"] (leafs cs mod "error-option")) (rdCont cs mod))
  else if name = "copy-config" then some (.copy (rdDs cs "target").1 (rdDs cs "target").2 (rdDs cs "source").1 (rdDs cs "source").2 wd)
  else if name = "delete-config" then some (.delete (rdDs cs "target").1 (rdDs cs "target").2)
  else if name = "lock" then some (.lock (rdDs cs "target").1)
  else if name = "unlock" then some (.unlock (rdDs cs "target").1)
  else if name = "get" then some (.get (rdFilter (leafs cs mod "filter")) wd)
  else if name = "kill-session" then some (.kill (rdNum (leafs cs mod "session-id")))
  else if name = "commit" then some (.commit (!(leafs cs mod "confirmed").isEmpty) (rdNum (leafs cs mod "confirm-timeout")) (v "persist") (v "persist-id"))
  else if name = "discard-changes" then some .discard
  else if name = "cancel-commit" then some (.cancel (v "persist-id"))
  else if name = "validate" then some (.validate (rdDs cs "source").1 (rdDs cs "source").2)
  else none

/-- The operations of RFC 8526. -/
def rdNmda (name : String) (cs : List Child) : Option Req :=
  let mod := "ietf-netconf-nmda"
  let v (n : String) := rdText (leafs cs mod n)
  let texts (n : String) := (leafs cs mod n).filterMap (·.value)
  if name = "get-data" then
    some (.getdata (v "datastore") (rdOne [rdXml (leafs cs mod "subtree-filter"), rdIf (fun t => !isXml t) (leafs cs mod "xpath-filter")]) (v "config-filter")
      (texts "origin-filter" ++ texts "negated-origin-filter") (!(texts "negated-origin-filter").isEmpty)
      (rdNum (leafs cs mod "max-depth")) (!(leafs cs mod "with-origin").isEmpty) (rdEnum wdModes (leafs cs mod "with-defaults")))
  else if name = "edit-data" then some (.editdata (v "datastore") (rdEnum ["merge", "replace", "none"] (leafs cs mod "default-operation")) (rdCont cs mod))
  else none

/-- Leaves in a container of RFC 8641. -/
def ypLeaf (ls : List Leaf) (n : String) : List Leaf := ls.filter fun l => l.mod == "ietf-yang-push" && l.name == n

/-- `establish-subscription` of RFC 8639 and 8641. -/
def rdEstablish (cs : List Child) : Option Req :=
  let mod := "ietf-subscribed-notifications"
  let yp := "ietf-yang-push"
  let v (n : String) := rdText (leafs cs mod n)
  let filter := rdFilter3 cs yp "datastore-subtree-filter" "datastore-xpath-filter" "selection-filter-ref"
  let ds := rdText (leafs cs yp "datastore")
  match conts cs yp "periodic", conts cs yp "on-change" with
  | [], [] => some (.establishsub (rdFilter3 cs mod "stream-subtree-filter" "stream-xpath-filter" "stream-filter-name") (v "stream") (v "replay-start-time") (v "stop-time") (v "encoding"))
  | [p], [] => some (.pushPeriodic ds filter (v "stop-time") (v "encoding") (rdNum (ypLeaf p "period")) (rdText (ypLeaf p "anchor-time")))
  | [], [c] =>
    some (.pushOnchange ds filter (v "stop-time") (v "encoding") (rdNum (ypLeaf c "dampening-period")) (rdText (ypLeaf c "sync-on-start") == some ("true".toList.map Char.toNat))
      ((ypLeaf c "excluded-change").filterMap (·.value)))
  | _, _ => none

/-- `modify-subscription` of RFC 8639 and 8641. -/
def rdModify (cs : List Child) : Option Req :=
  let mod := "ietf-subscribed-notifications"
  let yp := "ietf-yang-push"
  let v (n : String) := rdText (leafs cs mod n)
  let filter := rdFilter3 cs yp "datastore-subtree-filter" "datastore-xpath-filter" "selection-filter-ref"
  let ds := rdText (leafs cs yp "datastore")
  match conts cs yp "periodic", conts cs yp "on-change" with
  | [], [] => some (.modifysub (rdNum (leafs cs mod "id")) (rdFilter3 cs mod "stream-subtree-filter" "stream-xpath-filter" "stream-filter-name") (v "stop-time"))
  | [p], [] => some (.modpushPeriodic (rdNum (leafs cs mod "id")) ds filter (v "stop-time") (rdNum (ypLeaf p "period")) (rdText (ypLeaf p "anchor-time")))
  | [], [c] => some (.modpushOnchange (rdNum (leafs cs mod "id")) ds filter (v "stop-time") (rdNum (ypLeaf c "dampening-period")))
  | _, _ => none

/-- The RPC a server understands, by the YANG modules of RFC 6241, 6243, 6022, 5277, 8526, 8639, 8641. -/
def understand : Sent → Option Req
  | .tree t => some (.generic (some t))
  | .xml t => some (.genericXml (some t))
  | .op ⟨mod, name, cs⟩ =>
    let v (n : String) := rdText (leafs cs mod n)
    if mod = "ietf-netconf" then rdNetconf name cs
    else if mod = "ietf-netconf-monitoring" ∧ name = "get-schema" then some (.getschema (v "identifier") (v "version") (v "format"))
    else if mod = "notifications" ∧ name = "create-subscription" then some (.subscribe (v "stream") (rdFilter (leafs cs mod "filter")) (v "startTime") (v "stopTime"))
    else if mod = "ietf-netconf-nmda" then rdNmda name cs
    else if mod = "ietf-subscribed-notifications" then
      if name = "establish-subscription" then rdEstablish cs
      else if name = "modify-subscription" then rdModify cs
      else if name = "delete-subscription" then some (.deletesub (rdNum (leafs cs mod "id")))
      else if name = "kill-subscription" then some (.killsub (rdNum (leafs cs mod "id")))
      else none
    else if mod = "ietf-yang-push" ∧ name = "resync-subscription" then some (.resyncsub (rdNum (leafs cs mod "id")))
    else none

/-- The datastore and the URL or config belong together. -/
def dsFits (ds : Nat) : Option (List Byte) → Prop
  | none => ds ≠ 1 ∧ ds ≠ 2
  | some t => ds = if isXml t then 1 else 2

/-- Objects an application can make sense of: numbers have 32 bits, enumerations are in range, a URL is given for the datastore URL and only for it. -/
def sensible : Req → Prop
  | .getconfig _ _ wd | .get _ wd => wd ≤ 4
  | .edit _ defop testopt erropt _ => defop ≤ 3 ∧ testopt ≤ 3 ∧ erropt ≤ 3
  | .copy target urlTrg source src wd => (urlTrg.isSome ↔ target = 2) ∧ target ≠ 1 ∧ dsFits source src ∧ wd ≤ 4
  | .delete target url => (url.isSome ↔ target = 2) ∧ target ≠ 1
  | .kill n | .modifysub n _ _ | .deletesub n | .killsub n | .resyncsub n | .pushPeriodic _ _ _ _ n _ | .pushOnchange _ _ _ _ n _ _ => n < 2 ^ 32
  | .commit _ timeout _ _ => timeout < 2 ^ 32
  | .validate source src => dsFits source src
  | .getdata _ _ _ origin negated maxDepth _ wd => (negated = true → origin ≠ []) ∧ maxDepth < 2 ^ 32 ∧ wd ≤ 4
  | .editdata _ defop _ => defop ≤ 3
  | .modpushPeriodic n _ _ _ k _ | .modpushOnchange n _ _ _ k => n < 2 ^ 32 ∧ k < 2 ^ 32
  | _ => True

set_option linter.unusedSimpArgs false

theorem finish_sent {ctx : Ctx} {mod name : String} {cs : List Child} {s : Sent} (h : finish ctx mod name cs = .sent s) : s = .op ⟨mod, name, cs⟩ := by
  unfold finish at h
  split at h
  · cases h; rfl
  · cases h

theorem finish?_sent {ctx : Ctx} {mod name : String} {o : Option (List Child)} {s : Sent} (h : finish? ctx mod name o = .sent s) : ∃ cs, o = some cs ∧ s = .op ⟨mod, name, cs⟩ := by
  cases o with
  | none => cases h
  | some cs => exact ⟨cs, rfl, finish_sent h⟩

theorem wdNode_some {ctx : Ctx} {wd : Nat} {w : List Child} (h : wdNode ctx wd = some w) : w = optEnum "ietf-netconf-with-defaults" "with-defaults" wd2str wd := by
  unfold wdNode at h
  unfold optEnum
  split at h
  · rw [if_pos ‹_›]; cases h; rfl
  · rw [if_neg ‹_›]
    split at h
    · cases h; rfl
    · cases h

theorem leafs_append (a b : List Child) (mod name : String) : leafs (a ++ b) mod name = leafs a mod name ++ leafs b mod name := List.filterMap_append

theorem conts_append (a b : List Child) (mod name : String) : conts (a ++ b) mod name = conts a mod name ++ conts b mod name := List.filterMap_append

theorem leafs_nil (mod name : String) : leafs [] mod name = [] := rfl

theorem conts_nil (mod name : String) : conts [] mod name = [] := rfl

theorem leafs_leaf (l : Leaf) (cs : List Child) (mod name : String) : leafs (.leaf l :: cs) mod name = if l.mod = mod ∧ l.name = name then l :: leafs cs mod name else leafs cs mod name := by
  unfold leafs
  rw [List.filterMap_cons]
  by_cases h : l.mod = mod ∧ l.name = name <;> simp [h]

theorem leafs_cont (m n : String) (ls : List Leaf) (cs : List Child) (mod name : String) : leafs (.cont m n ls :: cs) mod name = leafs cs mod name := rfl

theorem conts_leaf (l : Leaf) (cs : List Child) (mod name : String) : conts (.leaf l :: cs) mod name = conts cs mod name := rfl

theorem conts_cont (m n : String) (ls : List Leaf) (cs : List Child) (mod name : String) : conts (.cont m n ls :: cs) mod name = if m = mod ∧ n = name then ls :: conts cs mod name else conts cs mod name := by
  unfold conts
  rw [List.filterMap_cons]
  by_cases h : m = mod ∧ n = name <;> simp [h]

theorem leafs_optTerm (m n mod name : String) (t : Option (List Byte)) : leafs (optTerm m n t) mod name = if m = mod ∧ n = name then (t.map fun t => (⟨m, n, some t, false, []⟩ : Leaf)).toList else [] := by
  cases t <;> simp [optTerm, leafs_nil, leafs_leaf]

theorem leafs_optNum (m n mod name : String) (k : Nat) : leafs (optNum m n k) mod name = if m = mod ∧ n = name then (if k = 0 then [] else [⟨m, n, some (dec k), false, []⟩]) else [] := by
  by_cases h : k = 0 <;> simp [optNum, leafs_nil, leafs_leaf, h]

theorem leafs_optEnum (m n mod name : String) (tab : Nat → Option String) (k : Nat) :
    leafs (optEnum m n tab k) mod name = if m = mod ∧ n = name then (if k = 0 then [] else [⟨m, n, (tab k).map lit, false, []⟩]) else [] := by
  by_cases h : k = 0 <;> simp [optEnum, leafs_nil, leafs_leaf, h]

/-- The leaf of a filter. -/
def filterLeafs (m : String) : Option (List Byte) → List Leaf
  | none => []
  | some t =>
    if isConfig t then [⟨m, "filter", some t, true, [("type", lit "subtree")]⟩] else [⟨m, "filter", none, true, [("type", lit "xpath"), ("select", t)]⟩]

theorem leafs_filterNode (m mod name : String) (t : Option (List Byte)) : leafs (filterNode m t) mod name = if m = mod ∧ "filter" = name then filterLeafs m t else [] := by
  cases t with
  | none => simp [filterNode, leafs_nil, filterLeafs]
  | some t => by_cases h : isConfig t = true <;> simp [filterNode, leafs_nil, leafs_leaf, h, filterLeafs]

theorem conts_optTerm (m n mod name : String) (t : Option (List Byte)) : conts (optTerm m n t) mod name = [] := by cases t <;> rfl

theorem conts_optNum (m n mod name : String) (k : Nat) : conts (optNum m n k) mod name = [] := by unfold optNum; split <;> rfl

theorem conts_optEnum (m n mod name : String) (tab : Nat → Option String) (k : Nat) : conts (optEnum m n tab k) mod name = [] := by unfold optEnum; split <;> rfl

theorem conts_filterNode (m mod name : String) (t : Option (List Byte)) : conts (filterNode m t) mod name = [] := by
  cases t with
  | none => rfl
  | some t => by_cases h : isConfig t = true <;> simp [filterNode, conts_leaf, conts_nil, h]

theorem conts_filter3 (m a b c mod name : String) (t : Option (List Byte)) : conts (filter3 m a b c t) mod name = [] := by
  cases t with
  | none => rfl
  | some t => by_cases h : isConfig t = true <;> by_cases h' : t.head? = some 47 <;> simp [filter3, conts_leaf, conts_nil, h, h']

theorem isConfig_eq (t : List Byte) : isConfig t = isXml t := by cases t <;> simp [isConfig, isXml]

theorem leafs_filter3 (m a b c mod name : String) (t : Option (List Byte)) : leafs (filter3 m a b c t) mod name =
    if m = mod then (match t with
      | none => []
      | some t => if isXml t then (if a = name then [⟨m, a, some t, true, []⟩] else []) else if t.head? = some 47 then (if b = name then [⟨m, b, some t, false, []⟩] else [])
        else (if c = name then [⟨m, c, some t, false, []⟩] else [])) else [] := by
  cases t with
  | none => simp [filter3, leafs_nil]
  | some t =>
    rcases h : isXml t
    · by_cases h' : t.head? = some 47 <;> by_cases hm : m = mod <;> simp [filter3, isConfig_eq, leafs_leaf, leafs_nil, h, h', hm]
    · by_cases hm : m = mod <;> simp [filter3, isConfig_eq, leafs_leaf, leafs_nil, h, hm]

theorem leafs_contLeaf (m mod name : String) (t : List Byte) (cs : List Child) : leafs (.leaf (contLeaf m t) :: cs) mod name =
    (if isXml t then (if m = mod ∧ "config" = name then [⟨m, "config", some t, true, []⟩] else []) else (if m = mod ∧ "url" = name then [⟨m, "url", some t, false, []⟩] else [])) ++ leafs cs mod name := by
  rw [leafs_leaf]
  unfold contLeaf
  rw [isConfig_eq]
  rcases h : isXml t <;> (simp only [if_true, if_neg Bool.false_ne_true]; split <;> simp)

theorem rdText_opt (m n : String) (t : Option (List Byte)) : rdText (t.map fun t => (⟨m, n, some t, false, []⟩ : Leaf)).toList = t := by cases t <;> rfl

theorem rdText_nil : rdText [] = none := rfl

theorem rdText_one (m n : String) (t : Option (List Byte)) : rdText [⟨m, n, t, false, []⟩] = t := rfl

theorem rdNum_one (m n : String) (k : Nat) (hk : k < 2 ^ 32) : rdNum [⟨m, n, some (dec k), false, []⟩] = k := strtoul_dec_end k (by omega)

theorem rdNum_opt (m n : String) (k : Nat) (hk : k < 2 ^ 32) : rdNum (if k = 0 then [] else [⟨m, n, some (dec k), false, []⟩]) = k := by
  split
  · rename_i h; rw [h]; rfl
  · exact rdNum_one m n k hk

theorem rdEnum_wd (m n : String) (k : Nat) (hk : k ≤ 4) : rdEnum wdModes (if k = 0 then [] else [⟨m, n, (wd2str k).map lit, false, []⟩]) = k := by
  have : k = 0 ∨ k = 1 ∨ k = 2 ∨ k = 3 ∨ k = 4 := by omega
  rcases this with rfl | rfl | rfl | rfl | rfl <;> (simp [rdEnum, rdText, wd2str]; try decide +kernel)

theorem rdEnum_defop (m n : String) (k : Nat) (hk : k ≤ 3) : rdEnum ["merge", "replace", "none"] (if k = 0 then [] else [⟨m, n, (dfltop2str k).map lit, false, []⟩]) = k := by
  have : k = 0 ∨ k = 1 ∨ k = 2 ∨ k = 3 := by omega
  rcases this with rfl | rfl | rfl | rfl <;> (simp [rdEnum, rdText, dfltop2str]; try decide +kernel)

theorem rdEnum_testopt (m n : String) (k : Nat) (hk : k ≤ 3) : rdEnum ["test-then-set", "set", "test-only"] (if k = 0 then [] else [⟨m, n, (testopt2str k).map lit, false, []⟩]) = k := by
  have : k = 0 ∨ k = 1 ∨ k = 2 ∨ k = 3 := by omega
  rcases this with rfl | rfl | rfl | rfl <;> (simp [rdEnum, rdText, testopt2str]; try decide +kernel)

theorem rdEnum_erropt (m n : String) (k : Nat) (hk : k ≤ 3) :
    rdEnum ["stop-on-error", "continue-on-error", "rollback-on-error"] (if k = 0 then [] else [⟨m, n, (erropt2str k).map lit, false, []⟩]) = k := by
  have : k = 0 ∨ k = 1 ∨ k = 2 ∨ k = 3 := by omega
  rcases this with rfl | rfl | rfl | rfl <;> (simp [rdEnum, rdText, erropt2str]; try decide +kernel)

theorem rdFilter_node (m : String) (t : Option (List Byte)) : rdFilter (filterLeafs m t) = t := by
  cases t with
  | none => rfl
  | some t =>
    rcases h : isXml t <;> simp [filterLeafs, isConfig_eq, h, rdFilter, lit]

theorem ds_some {n : Nat} {l : Leaf} (h : dsLeaf n = some l) : n ≤ 5 ∧ n ≠ 0 := by
  unfold dsLeaf at h
  unfold ncds2str at h
  split at h <;> first | omega | simp at h

theorem rdDs_ds {n : Nat} {l : Leaf} (h : dsLeaf n = some l) (name : String) (cs : List Child) (hc : conts cs "ietf-netconf" name = [[l]]) : (rdDs cs name).1 = n ∧ (rdDs cs name).2 = none := by
  obtain ⟨h1, h2⟩ := ds_some h
  have : n = 1 ∨ n = 2 ∨ n = 3 ∨ n = 4 ∨ n = 5 := by omega
  unfold rdDs
  rw [hc]
  rcases this with rfl | rfl | rfl | rfl | rfl <;> cases h <;> exact ⟨by decide +kernel, by decide +kernel⟩

theorem rdDs_url (u : List Byte) (name : String) (cs : List Child) (hc : conts cs "ietf-netconf" name = [[⟨"ietf-netconf", "url", some u, false, []⟩]]) :
    (rdDs cs name).1 = 2 ∧ (rdDs cs name).2 = some u := by
  unfold rdDs; rw [hc]; exact ⟨rfl, rfl⟩

theorem rdDs_cont (t : List Byte) (name : String) (cs : List Child) (hc : conts cs "ietf-netconf" name = [[contLeaf "ietf-netconf" t]]) :
    (rdDs cs name).1 = (if isXml t then 1 else 2) ∧ (rdDs cs name).2 = some t := by
  unfold rdDs; rw [hc]
  unfold contLeaf
  rw [isConfig_eq]
  rcases h : isXml t <;> simp [h]

theorem rdOne_filter3 (m a b c : String) (t : Option (List Byte)) (hab : a ≠ b) (hac : a ≠ c) (hbc : b ≠ c) (cs : List Child)
    (h : ∀ n, n = a ∨ n = b ∨ n = c → leafs cs m n = leafs (filter3 m a b c t) m n) : rdFilter3 cs m a b c = t := by
  unfold rdFilter3
  rw [h a (by simp), h b (by simp), h c (by simp)]
  simp only [leafs_filter3, if_true]
  cases t with
  | none => simp [rdXml, rdIf, rdText, rdOne]
  | some t =>
    rcases hx : isXml t
    · by_cases h' : t.head? = some 47
      · simp [h', hx, rdXml, rdIf, rdText, hbc, hab.symm]; simp [rdOne, Option.filter, h']
      · simp [h', hx, rdXml, rdIf, rdText, rdOne, hbc.symm, hac.symm]; simp [rdOne, Option.filter, h', hx]
    · simp [hx, rdXml, rdOne, hab, hac]

theorem values_comp (m n : String) (ts : List (List Byte)) : ts.filterMap ((·.value) ∘ fun t => (⟨m, n, some t, false, []⟩ : Leaf)) = ts := by
  induction ts <;> simp_all

theorem ypLeaf_append (a b : List Leaf) (n : String) : ypLeaf (a ++ b) n = ypLeaf a n ++ ypLeaf b n := List.filter_append ..

theorem ypLeaf_nil (n : String) : ypLeaf [] n = [] := rfl

theorem ypLeaf_cons (l : Leaf) (ls : List Leaf) (n : String) : ypLeaf (l :: ls) n = if l.mod = "ietf-yang-push" ∧ l.name = n then l :: ypLeaf ls n else ypLeaf ls n := by
  unfold ypLeaf
  rw [List.filter_cons]
  simp only [Bool.and_eq_true, beq_iff_eq]

theorem ypLeaf_map (m n : String) (ts : List (List Byte)) :
    ypLeaf (ts.map fun t => (⟨"ietf-yang-push", m, some t, false, []⟩ : Leaf)) n = if m = n then ts.map fun t => (⟨"ietf-yang-push", m, some t, false, []⟩ : Leaf) else [] := by
  induction ts with
  | nil => simp [ypLeaf_nil]
  | cons t ts ih =>
    rw [List.map_cons, ypLeaf_cons, ih]
    by_cases h : m = n <;> simp [h]

theorem rdDs_trg {target : Nat} {url : Option (List Byte)} {d : Leaf} (h : trgLeaf target url = some d)
    (h2 : url.isSome ↔ target = 2) (name : String) (cs : List Child) (hc : conts cs "ietf-netconf" name = [[d]]) : (rdDs cs name).1 = target ∧ (rdDs cs name).2 = url := by
  cases url with
  | none => exact rdDs_ds h name cs hc
  | some u =>
    cases h
    rw [h2.mp rfl]
    exact rdDs_url u name cs hc

theorem rdDs_src {source : Nat} {src : Option (List Byte)} {d : Leaf} (h : srcLeaf source src = some d)
    (h2 : dsFits source src) (name : String) (cs : List Child) (hc : conts cs "ietf-netconf" name = [[d]]) : (rdDs cs name).1 = source ∧ (rdDs cs name).2 = src := by
  cases src with
  | none => exact rdDs_ds h name cs hc
  | some u =>
    cases h
    have := rdDs_cont u name cs hc
    rw [show source = if isXml u then 1 else 2 from h2]
    exact this

theorem ite_sent {c : Prop} [Decidable c] {x s : Sent} (h : (if c then SendRes.sent x else .err) = .sent s) : s = x := by
  split at h
  · cases h; rfl
  · cases h

theorem takeWhile_all {α : Type} {p : α → Bool} {l : List α} (h : ∀ a ∈ l, p a = true) : l.takeWhile p = l := by
  have := List.takeWhile_append_of_pos (l₁ := l) (l₂ := []) h
  simpa using this

theorem leafs_map (m n mod name : String) (ts : List (List Byte)) :
    leafs (ts.map fun t => Child.leaf ⟨m, n, some t, false, []⟩) mod name = if m = mod ∧ n = name then ts.map (fun t => (⟨m, n, some t, false, []⟩ : Leaf)) else [] := by
  induction ts with
  | nil => simp [leafs_nil]
  | cons t ts ih =>
    rw [List.map_cons, leafs_leaf, ih]
    by_cases h : m = mod ∧ n = name <;> simp [h]

theorem values_map (m n : String) (ts : List (List Byte)) : (ts.map fun t => (⟨m, n, some t, false, []⟩ : Leaf)).filterMap (·.value) = ts := by
  induction ts <;> simp_all

/-- **C95, part.** What is sent for a sensible object is understood as exactly this object.

Missing of the full claim: origin filters that libyang rejects (`rpc_sent_false`). -/
theorem rpc_sent_partial (ctx : Ctx) (r : Req) (hr : sensible r)
    (ho : ∀ ds filter config origin negated maxDepth withOrigin wd, r = .getdata ds filter config origin negated maxDepth withOrigin wd →
      ∀ t ∈ origin, ∀ n, ctx.ok (.leaf ⟨"ietf-netconf-nmda", n, some t, false, []⟩)) (s : Sent) (hs : send ctx r = .sent s) : understand s = some r := by
  cases r
  case generic d => cases d <;> cases hs; rfl
  case genericXml d =>
    cases d with
    | none => cases hs
    | some t => cases ite_sent hs; rfl
  case getconfig source filter wd =>
    obtain ⟨cs, hcs, rfl⟩ := finish?_sent hs
    rcases hd : dsLeaf source with _ | d
    · rw [hd] at hcs; cases hcs
    · rcases hw : wdNode ctx wd with _ | w
      · rw [hd, hw] at hcs; cases hcs
      · rw [hd, hw] at hcs
        obtain rfl := wdNode_some hw
        cases hcs
        have h1 := rdDs_ds hd "source" ([.cont "ietf-netconf" "source" [d]] ++ filterNode "ietf-netconf" filter ++ optEnum "ietf-netconf-with-defaults" "with-defaults" wd2str wd)
          (by simp [conts_append, conts_cont, conts_filterNode, conts_optEnum])
        simp only [understand, rdNetconf, h1.1]
        simp [leafs_append, leafs_cont, leafs_nil, leafs_optEnum, leafs_filterNode, rdFilter_node, rdEnum_wd _ _ wd hr]
  case edit target defop testopt erropt cont =>
    cases cont with
    | none => cases hs
    | some t =>
      obtain ⟨cs, hcs, rfl⟩ := finish?_sent hs
      rcases hd : dsLeaf target with _ | d
      · rw [hd] at hcs; cases hcs
      · rw [hd] at hcs
        cases hcs
        have h1 := rdDs_ds hd "target" ([.cont "ietf-netconf" "target" [d]] ++ optEnum "ietf-netconf" "default-operation" dfltop2str defop ++ optEnum "ietf-netconf" "test-option" testopt2str testopt ++
          optEnum "ietf-netconf" "error-option" erropt2str erropt ++ [.leaf (contLeaf "ietf-netconf" t)])
          (by simp [conts_append, conts_cont, conts_nil, conts_leaf, conts_optEnum])
        simp only [understand, rdNetconf, h1.1]
        simp [leafs_append, leafs_cont, leafs_nil, leafs_optEnum, rdCont, leafs_contLeaf, rdEnum_defop _ _ defop hr.1, rdEnum_testopt _ _ testopt hr.2.1, rdEnum_erropt _ _ erropt hr.2.2]
        rcases h : isXml t <;> simp [rdXml, rdOne, rdIf, rdText, h, Option.filter]
  case copy target urlTrg source src wd =>
    obtain ⟨cs, hcs, rfl⟩ := finish?_sent hs
    rcases hd : trgLeaf target urlTrg with _ | d
    · rw [hd] at hcs; cases hcs
    · rcases hd2 : srcLeaf source src with _ | d2
      · rw [hd, hd2] at hcs; cases hcs
      · rcases hw : wdNode ctx wd with _ | w
        · rw [hd, hd2, hw] at hcs; cases hcs
        · rw [hd, hd2, hw] at hcs
          obtain rfl := wdNode_some hw
          cases hcs
          have h1 := rdDs_trg hd hr.1 "target" ([.cont "ietf-netconf" "target" [d], .cont "ietf-netconf" "source" [d2]] ++ optEnum "ietf-netconf-with-defaults" "with-defaults" wd2str wd)
            (by simp [conts_append, conts_cont, conts_nil, conts_optEnum])
          have h2 := rdDs_src hd2 hr.2.2.1 "source" ([.cont "ietf-netconf" "target" [d], .cont "ietf-netconf" "source" [d2]] ++ optEnum "ietf-netconf-with-defaults" "with-defaults" wd2str wd)
            (by simp [conts_append, conts_cont, conts_nil, conts_optEnum])
          simp only [understand, rdNetconf, h1.1, h1.2, h2.1, h2.2]
          simp [leafs_append, leafs_cont, leafs_nil, leafs_optEnum, rdEnum_wd _ _ wd hr.2.2.2]
  case delete target url =>
    obtain ⟨cs, hcs, rfl⟩ := finish?_sent hs
    rcases hd : trgLeaf target url with _ | d
    · rw [hd] at hcs; cases hcs
    · rw [hd] at hcs
      cases hcs
      have h1 := rdDs_trg hd hr.1 "target" [.cont "ietf-netconf" "target" [d]] (by simp [conts_cont, conts_nil])
      simp [understand, rdNetconf, h1.1, h1.2]
  case lock target =>
    obtain ⟨cs, hcs, rfl⟩ := finish?_sent hs
    rcases hd : dsLeaf target with _ | d
    · rw [hd] at hcs; cases hcs
    · rw [hd] at hcs
      cases hcs
      simp [understand, rdNetconf, (rdDs_ds hd "target" [.cont "ietf-netconf" "target" [d]] (by simp [conts_cont, conts_nil])).1]
  case unlock target =>
    obtain ⟨cs, hcs, rfl⟩ := finish?_sent hs
    rcases hd : dsLeaf target with _ | d
    · rw [hd] at hcs; cases hcs
    · rw [hd] at hcs
      cases hcs
      simp [understand, rdNetconf, (rdDs_ds hd "target" [.cont "ietf-netconf" "target" [d]] (by simp [conts_cont, conts_nil])).1]
  case get filter wd =>
    obtain ⟨cs, hcs, rfl⟩ := finish?_sent hs
    rcases hw : wdNode ctx wd with _ | w
    · rw [hw] at hcs; cases hcs
    · rw [hw] at hcs
      obtain rfl := wdNode_some hw
      cases hcs
      simp [understand, rdNetconf, leafs_append, leafs_optEnum, leafs_filterNode, rdFilter_node, rdEnum_wd _ _ wd hr]
  case kill n =>
    obtain rfl := finish_sent hs
    simp [understand, rdNetconf, leafs_leaf, leafs_nil, rdNum_one _ _ n hr]
  case commit confirmed timeout persist persistId =>
    obtain rfl := finish_sent hs
    cases confirmed <;> simp [understand, rdNetconf, leafs_append, leafs_leaf, leafs_nil, leafs_optTerm, leafs_optNum, rdText_opt, rdNum_opt _ _ timeout hr]
  case discard =>
    obtain rfl := finish_sent hs
    simp [understand, rdNetconf]
  case cancel persistId =>
    obtain rfl := finish_sent hs
    simp [understand, rdNetconf, leafs_optTerm, rdText_opt]
  case validate source src =>
    obtain ⟨cs, hcs, rfl⟩ := finish?_sent hs
    rcases hd : srcLeaf source src with _ | d
    · rw [hd] at hcs; cases hcs
    · rw [hd] at hcs
      cases hcs
      have h1 := rdDs_src hd hr "source" [.cont "ietf-netconf" "source" [d]] (by simp [conts_cont, conts_nil])
      simp [understand, rdNetconf, h1.1, h1.2]
  case getschema ident version format =>
    obtain rfl := finish_sent hs
    simp [understand, leafs_append, leafs_leaf, leafs_nil, leafs_optTerm, rdText_opt, rdText_one]
  case subscribe stream filter start stop =>
    obtain rfl := finish_sent hs
    simp [understand, leafs_append, leafs_optTerm, leafs_filterNode, rdText_opt, rdFilter_node]
  case getdata ds filter config origin negated maxDepth withOrigin wd =>
    have ho' := ho _ _ _ _ _ _ _ _ rfl
    simp only [send] at hs
    obtain rfl := ite_sent hs
    clear hs ho
    rw [takeWhile_all (by
      intro c hc
      obtain ⟨t, ht, rfl⟩ := List.mem_map.mp hc
      exact ho' t ht _)]
    obtain ⟨hr1, hr2, hr3⟩ := hr
    simp only [understand, rdNmda]
    have hneg : negated = false ∨ (negated = true ∧ origin ≠ []) := by cases negated <;> simp_all
    cases filter with
    | none =>
      rcases hneg with rfl | ⟨rfl, hne⟩ <;> cases withOrigin <;>
      simp [leafs_append, leafs_leaf, leafs_nil, leafs_optTerm, leafs_optNum, leafs_optEnum, leafs_map, values_comp, values_map, rdText_opt, rdText_one, rdNum_opt _ _ maxDepth hr2, rdEnum_wd _ _ wd hr3,
        dataFilter, rdXml, rdIf, rdText_nil, rdOne, List.isEmpty_iff, *]
    | some t =>
      rcases hx : isXml t <;> rcases hneg with rfl | ⟨rfl, hne⟩ <;> cases withOrigin <;>
      simp [isConfig_eq, leafs_append, leafs_leaf, leafs_nil, leafs_optTerm, leafs_optNum, leafs_optEnum, leafs_map, values_comp, values_map, rdText_opt, rdText_one, rdNum_opt _ _ maxDepth hr2, rdEnum_wd _ _ wd hr3,
        dataFilter, rdXml, rdIf, rdText_nil, rdOne, Option.filter, List.isEmpty_iff, *]
  case editdata ds defop cont =>
    cases cont with
    | none => cases hs
    | some t =>
      obtain rfl := finish_sent hs
      rcases h : isXml t <;> simp [understand, rdNmda, contLeaf, isConfig_eq, leafs_append, leafs_leaf, leafs_nil, leafs_optEnum, rdCont, rdEnum_defop _ _ defop hr, rdText_one, rdXml, rdOne, rdIf,
        rdText_nil, h, Option.filter]
  case establishsub filter stream start stop encoding =>
    obtain rfl := finish_sent hs
    have h3 := rdOne_filter3 "ietf-subscribed-notifications" "stream-subtree-filter" "stream-xpath-filter" "stream-filter-name" filter (by decide) (by decide) (by decide)
    simp only [understand, rdEstablish]
    rw [h3]
    · simp [conts_append, conts_leaf, conts_nil, conts_optTerm, conts_filter3, leafs_append, leafs_leaf, leafs_nil, leafs_optTerm, leafs_filter3, rdText_opt, rdText_one]
      cases filter <;> simp [rdText_one, rdText_opt]
    · rintro n (rfl | rfl | rfl) <;> simp [leafs_append, leafs_leaf, leafs_nil, leafs_optTerm]
  case modifysub n filter stop =>
    obtain rfl := finish_sent hs
    have h3 := rdOne_filter3 "ietf-subscribed-notifications" "stream-subtree-filter" "stream-xpath-filter" "stream-filter-name" filter (by decide) (by decide) (by decide)
    simp only [understand, rdModify]
    rw [h3]
    · simp [conts_append, conts_leaf, conts_nil, conts_optTerm, conts_filter3, leafs_append, leafs_leaf, leafs_nil, leafs_optTerm, leafs_filter3, rdText_opt, rdText_one]
      cases filter <;> simp [rdText_one, rdText_opt, rdNum_one _ _ n hr]
    · rintro n (rfl | rfl | rfl) <;> simp [leafs_append, leafs_leaf, leafs_nil, leafs_optTerm]
  case deletesub n =>
    obtain rfl := finish_sent hs
    simp [understand, leafs_leaf, leafs_nil, rdNum_one _ _ n hr]
  case killsub n =>
    obtain rfl := finish_sent hs
    simp [understand, leafs_leaf, leafs_nil, rdNum_one _ _ n hr]
  case resyncsub n =>
    obtain rfl := finish_sent hs
    simp [understand, leafs_leaf, leafs_nil, rdNum_one _ _ n hr]
  case pushPeriodic ds filter stop encoding period anchor =>
    simp only [send] at hs
    split at hs
    · cases hs
    · obtain rfl := finish_sent hs
      have h3 := rdOne_filter3 "ietf-yang-push" "datastore-subtree-filter" "datastore-xpath-filter" "selection-filter-ref" filter (by decide) (by decide) (by decide)
      simp only [understand, rdEstablish]
      rw [h3]
      · simp [conts_append, conts_leaf, conts_cont, conts_nil, conts_optTerm, conts_filter3, leafs_append, leafs_leaf, leafs_cont, leafs_nil, leafs_optTerm, leafs_filter3, rdText_opt, rdText_one]
        cases filter <;> cases anchor <;> simp [ypLeaf, rdText_one, rdText_nil, rdNum_one _ _ period hr]
      · rintro n (rfl | rfl | rfl) <;> simp [leafs_append, leafs_leaf, leafs_cont, leafs_nil, leafs_optTerm]
  case pushOnchange ds filter stop encoding damp sync excluded =>
    simp only [send] at hs
    split at hs
    · cases hs
    · obtain rfl := finish_sent hs
      have h3 := rdOne_filter3 "ietf-yang-push" "datastore-subtree-filter" "datastore-xpath-filter" "selection-filter-ref" filter (by decide) (by decide) (by decide)
      simp only [understand, rdEstablish]
      rw [h3]
      · simp [conts_append, conts_leaf, conts_cont, conts_nil, conts_optTerm, conts_filter3, leafs_append, leafs_leaf, leafs_cont, leafs_nil, leafs_optTerm, leafs_filter3, rdText_opt, rdText_one]
        by_cases hd : damp = 0
        · subst hd
          cases filter <;>
            simp [ypLeaf_append, ypLeaf_cons, ypLeaf_nil, ypLeaf_map, values_comp, values_map, rdText_one, rdText_nil, rdNum]
          all_goals (cases sync <;> decide +kernel)
        · cases filter <;>
            simp [ypLeaf_append, ypLeaf_cons, ypLeaf_nil, ypLeaf_map, values_comp, values_map, rdText_one, rdText_nil, rdNum_one _ _ damp hr, hd]
          all_goals (cases sync <;> decide +kernel)
      · rintro n (rfl | rfl | rfl) <;> simp [leafs_append, leafs_leaf, leafs_cont, leafs_nil, leafs_optTerm]
  case modpushPeriodic n ds filter stop period anchor =>
    simp only [send] at hs
    split at hs
    · cases hs
    · obtain rfl := finish_sent hs
      have h3 := rdOne_filter3 "ietf-yang-push" "datastore-subtree-filter" "datastore-xpath-filter" "selection-filter-ref" filter (by decide) (by decide) (by decide)
      simp only [understand, rdModify]
      rw [h3]
      · simp [conts_append, conts_leaf, conts_cont, conts_nil, conts_optTerm, conts_filter3, leafs_append, leafs_leaf, leafs_cont, leafs_nil, leafs_optTerm, leafs_filter3, rdText_opt, rdText_one]
        cases filter <;> cases anchor <;> simp [ypLeaf, rdText_one, rdText_nil, rdNum_one _ _ period hr.2, rdNum_one _ _ n hr.1]
      · rintro n (rfl | rfl | rfl) <;> simp [leafs_append, leafs_leaf, leafs_cont, leafs_nil, leafs_optTerm]
  case modpushOnchange n ds filter stop damp =>
    simp only [send] at hs
    split at hs
    · cases hs
    · obtain rfl := finish_sent hs
      have h3 := rdOne_filter3 "ietf-yang-push" "datastore-subtree-filter" "datastore-xpath-filter" "selection-filter-ref" filter (by decide) (by decide) (by decide)
      simp only [understand, rdModify]
      rw [h3]
      · simp [conts_append, conts_leaf, conts_cont, conts_nil, conts_optTerm, conts_filter3, leafs_append, leafs_leaf, leafs_cont, leafs_nil, leafs_optTerm, leafs_filter3, rdText_opt, rdText_one]
        by_cases hd : damp = 0
        · subst hd
          cases filter <;> simp [ypLeaf_cons, ypLeaf_nil, rdText_one, rdText_nil, rdNum_one _ _ n hr.1]
          all_goals rfl
        · cases filter <;> simp [ypLeaf_cons, ypLeaf_nil, rdText_one, rdText_nil, rdNum_one _ _ damp hr.2, rdNum_one _ _ n hr.1, hd]
      · rintro n (rfl | rfl | rfl) <;> simp [leafs_append, leafs_leaf, leafs_cont, leafs_nil, leafs_optTerm]

example : understand (.op ⟨"ietf-netconf", "get", [.leaf ⟨"ietf-netconf", "filter", none, true, [("type", lit "xpath"), ("select", lit "/a:b")]⟩]⟩) = some (.get (some (lit "/a:b")) 0) ∧
    send ⟨fun _ => true, fun _ => true, fun _ => true⟩ (.get (some (lit "/a:b")) 0) = .sent (.op ⟨"ietf-netconf", "get", [.leaf ⟨"ietf-netconf", "filter", none, true, [("type", lit "xpath"), ("select", lit "/a:b")]⟩]⟩) := by
  decide +kernel

/-- **C95 is false in general.** If libyang rejects an origin filter, get-data is sent without it as long as another parameter follows: it gets data of any origin. -/
theorem rpc_sent_false : ∃ (ctx : Ctx) (r : Req) (s : Sent), sensible r ∧ send ctx r = .sent s ∧
    r = .getdata (some (lit "ietf-datastores:operational")) none none [lit "bad"] false 1 false 0 ∧ understand s = some (.getdata (some (lit "ietf-datastores:operational")) none none [] false 1 false 0) :=
  ⟨⟨fun _ => true, fun c => decide (c ≠ .leaf ⟨"ietf-netconf-nmda", "origin-filter", some (lit "bad"), false, []⟩), fun _ => true⟩, _,
    .op ⟨"ietf-netconf-nmda", "get-data", [.leaf ⟨"ietf-netconf-nmda", "datastore", some (lit "ietf-datastores:operational"), false, []⟩, .leaf ⟨"ietf-netconf-nmda", "max-depth", some (dec 1), false, []⟩]⟩,
    by simp [sensible], by decide +kernel, rfl, by decide +kernel⟩

theorem mem_takeWhile_pos {α : Type} {p : α → Bool} {a : α} : ∀ {l : List α}, a ∈ l.takeWhile p → p a = true
  | [], h => by simp at h
  | b :: l, h => by
    rw [List.takeWhile_cons] at h
    split at h
    · rcases List.mem_cons.mp h with rfl | h
      · assumption
      · exact mem_takeWhile_pos h
    · simp at h

theorem dec_length_le : ∀ (k n : Nat), 0 < k → n < 10 ^ k → (dec n).length ≤ k
  | 0, n, h, _ => by omega
  | k + 1, n, _, hn => by
    rw [dec]
    split
    · simp
    · rename_i h10
      rw [List.length_append]
      have : k ≠ 0 := by rintro rfl; simp at hn; omega
      have := dec_length_le k (n / 10) (by omega) (by rw [Nat.pow_succ] at hn; omega)
      simp
      omega

/-- Nothing that libyang rejects is sent. -/
theorem rpc_sent_accepted (ctx : Ctx) (r : Req) (o : Op) (hs : send ctx r = .sent (.op o)) : ctx.hasMod o.mod = true ∧ ∀ c ∈ o.children, ctx.ok c = true := by
  have fin : ∀ {mod name cs}, finish ctx mod name cs = .sent (.op o) → ctx.hasMod o.mod = true ∧ ∀ c ∈ o.children, ctx.ok c = true := by
    intro mod name cs h
    unfold finish at h
    split at h
    · rename_i hc
      cases h
      simpa using hc
    · cases h
  have fin? : ∀ {mod name cs}, finish? ctx mod name cs = .sent (.op o) → ctx.hasMod o.mod = true ∧ ∀ c ∈ o.children, ctx.ok c = true := by
    intro mod name cs h
    cases cs with
    | none => cases h
    | some cs => exact fin h
  cases r
  case generic d => cases d <;> cases hs
  case genericXml d =>
    cases d with
    | none => cases hs
    | some t => cases ite_sent hs
  case edit target defop testopt erropt cont =>
    cases cont with
    | none => cases hs
    | some t => exact fin? hs
  case editdata ds defop cont =>
    cases cont with
    | none => cases hs
    | some t => exact fin hs
  case getdata ds filter config origin negated maxDepth withOrigin wd =>
    simp only [send] at hs
    have h := ite_sent hs
    simp only [Sent.op.injEq] at h
    subst h
    generalize hP : [Child.leaf ⟨"ietf-netconf-nmda", "datastore", ds, false, []⟩] ++ dataFilter "ietf-netconf-nmda" filter ++ optTerm "ietf-netconf-nmda" "config-filter" config = P at *
    generalize hQ : optNum "ietf-netconf-nmda" "max-depth" maxDepth ++ (if withOrigin then [Child.leaf ⟨"ietf-netconf-nmda", "with-origin", none, false, []⟩] else []) ++
      optEnum "ietf-netconf-nmda" "with-defaults" wd2str wd = Q at *
    generalize (if negated then "negated-origin-filter" else "origin-filter") = nm at *
    split at hs
    · rename_i hc
      simp only [Bool.and_eq_true, List.all_eq_true] at hc
      refine ⟨hc.1.1.1, fun c hm => ?_⟩
      simp only [List.mem_append] at hm
      rcases hm with (hm | hm) | hm
      · exact hc.1.1.2 c hm
      · exact mem_takeWhile_pos hm
      · exact hc.2 c hm
    · cases hs
  case pushPeriodic =>
    simp only [send] at hs
    split at hs
    · cases hs
    · exact fin hs
  case pushOnchange =>
    simp only [send] at hs
    split at hs
    · cases hs
    · exact fin hs
  case modpushPeriodic =>
    simp only [send] at hs
    split at hs
    · cases hs
    · exact fin hs
  case modpushOnchange =>
    simp only [send] at hs
    split at hs
    · cases hs
    · exact fin hs
  all_goals first | exact fin hs | exact fin? hs

/-- A text is sent only if libyang could parse it. -/
theorem rpc_xml_parsed (ctx : Ctx) (r : Req) (t : List Byte) (hs : send ctx r = .sent (.xml t)) : r = .genericXml (some t) ∧ ctx.parse t = true := by
  have fin : ∀ {mod name cs}, finish ctx mod name cs ≠ .sent (.xml t) := fun h => by cases finish_sent h
  have fin? : ∀ {mod name cs}, finish? ctx mod name cs ≠ .sent (.xml t) := fun h => by obtain ⟨_, _, h⟩ := finish?_sent h; cases h
  cases r
  case generic d => cases d <;> cases hs
  case genericXml d =>
    cases d with
    | none => cases hs
    | some u =>
      simp only [send] at hs
      split at hs
      · cases hs; exact ⟨rfl, ‹_›⟩
      · cases hs
  case edit target defop testopt erropt cont =>
    cases cont with
    | none => cases hs
    | some t => exact absurd hs fin?
  case editdata ds defop cont =>
    cases cont with
    | none => cases hs
    | some t => exact absurd hs fin
  case getdata => simp only [send] at hs; cases ite_sent hs
  all_goals first
    | exact absurd hs fin
    | exact absurd hs fin?
    | (simp only [send] at hs
       split at hs
       · cases hs
       · exact absurd hs fin)

/-- The modules defining an operation and its parameters (RFC 6241, 6243, 6022, 5277, 8526, 8639, 8641). -/
def rpcModules : Req → List String
  | .generic _ | .genericXml _ => []
  | .getconfig _ _ wd | .get _ wd | .copy _ _ _ _ wd => if wd = 0 then ["ietf-netconf"] else ["ietf-netconf", "ietf-netconf-with-defaults"]
  | .edit .. | .delete .. | .lock _ | .unlock _ | .kill _ | .commit .. | .discard | .cancel _ | .validate .. => ["ietf-netconf"]
  | .getschema .. => ["ietf-netconf-monitoring"]
  | .subscribe .. => ["notifications"]
  | .getdata .. | .editdata .. => ["ietf-netconf-nmda"]
  | .establishsub .. | .modifysub .. | .deletesub _ | .killsub _ => ["ietf-subscribed-notifications"]
  | .pushPeriodic .. | .pushOnchange .. | .modpushPeriodic .. | .modpushOnchange .. => ["ietf-subscribed-notifications", "ietf-yang-push"]
  | .resyncsub _ => ["ietf-yang-push"]

/-- A datastore of the enumeration. -/
def isDatastore (n : Nat) : Prop := 1 ≤ n ∧ n ≤ 5

/-- Objects without a missing mandatory part. -/
def hasParts : Req → Prop
  | .generic d => d.isSome
  | .genericXml d => d.isSome
  | .getconfig source _ _ => isDatastore source
  | .edit target _ _ _ cont => isDatastore target ∧ cont.isSome
  | .copy target urlTrg source src _ => (urlTrg.isSome ∨ isDatastore target) ∧ (src.isSome ∨ isDatastore source)
  | .delete target url => url.isSome ∨ isDatastore target
  | .lock target | .unlock target => isDatastore target
  | .validate source src => src.isSome ∨ isDatastore source
  | .editdata _ _ cont => cont.isSome
  | _ => True

theorem dsLeaf_isSome {n : Nat} (h : isDatastore n) : ∃ l, dsLeaf n = some l := by
  obtain ⟨h1, h2⟩ := h
  match n with
  | 0 => omega
  | 1 | 2 | 3 | 4 | 5 => exact ⟨_, rfl⟩
  | n + 6 => omega

theorem trgLeaf_isSome {n : Nat} {u : Option (List Byte)} (h : u.isSome ∨ isDatastore n) : ∃ l, trgLeaf n u = some l := by
  cases u with
  | some u => exact ⟨_, rfl⟩
  | none => exact dsLeaf_isSome (h.resolve_left (by simp))

theorem srcLeaf_isSome {n : Nat} {u : Option (List Byte)} (h : u.isSome ∨ isDatastore n) : ∃ l, srcLeaf n u = some l := by
  cases u with
  | some u => exact ⟨_, rfl⟩
  | none => exact dsLeaf_isSome (h.resolve_left (by simp))

/-- **C95, readiness.** If libyang accepts everything, an object without missing parts is sent exactly if the context has the modules of its operation and parameters. -/
theorem rpc_sent_ready (ctx : Ctx) (r : Req) (hp : hasParts r) (ha : ∀ c, ctx.ok c = true) (hx : ∀ t, ctx.parse t = true) :
    (∃ s, send ctx r = .sent s) ↔ ∀ m ∈ rpcModules r, ctx.hasMod m = true := by
  have fin : ∀ {mod name cs}, (∃ s, finish ctx mod name cs = .sent s) ↔ ctx.hasMod mod = true := by
    intro mod name cs
    unfold finish
    cases ctx.hasMod mod <;> simp [ha]
  have wd0 : ∀ wd, (∃ w, wdNode ctx wd = some w) ∨ wdNode ctx wd = none ∧ wd ≠ 0 ∧ ctx.hasMod "ietf-netconf-with-defaults" = false := by
    intro wd
    unfold wdNode
    split
    · exact .inl ⟨_, rfl⟩
    · split
      · exact .inl ⟨_, rfl⟩
      · exact .inr ⟨rfl, ‹_›, by simpa using ‹¬ ctx.hasMod _ = true›⟩
  have wd1 : ∀ {wd w}, wdNode ctx wd = some w → wd = 0 ∨ ctx.hasMod "ietf-netconf-with-defaults" = true := by
    intro wd w h
    unfold wdNode at h
    split at h
    · exact .inl ‹_›
    · split at h
      · exact .inr ‹_›
      · cases h
  cases r
  case generic d => cases d <;> simp_all [hasParts, send, rpcModules]
  case genericXml d => cases d <;> simp_all [hasParts, send, rpcModules]
  case edit target defop testopt erropt cont =>
    obtain ⟨l, hl⟩ := dsLeaf_isSome hp.1
    cases cont with
    | none => cases hp.2
    | some t => simp [send, hl, finish?, fin, rpcModules]
  case editdata ds defop cont =>
    cases cont with
    | none => cases hp
    | some t => simp [send, fin, rpcModules]
  case getconfig source filter wd =>
    obtain ⟨l, hl⟩ := dsLeaf_isSome hp
    rcases wd0 wd with ⟨w, hw⟩ | ⟨hw, h0, hm⟩
    · rcases wd1 hw with h | h <;> by_cases h0 : wd = 0 <;> simp_all [send, finish?, rpcModules]
    · simp [send, hl, hw, finish?, rpcModules, h0, hm]
  case get filter wd =>
    rcases wd0 wd with ⟨w, hw⟩ | ⟨hw, h0, hm⟩
    · rcases wd1 hw with h | h <;> by_cases h0 : wd = 0 <;> simp_all [send, finish?, rpcModules]
    · simp [send, hw, finish?, rpcModules, h0, hm]
  case copy target urlTrg source src wd =>
    obtain ⟨l, hl⟩ := trgLeaf_isSome hp.1
    obtain ⟨k, hk⟩ := srcLeaf_isSome hp.2
    rcases wd0 wd with ⟨w, hw⟩ | ⟨hw, h0, hm⟩
    · rcases wd1 hw with h | h <;> by_cases h0 : wd = 0 <;> simp_all [send, finish?, rpcModules]
    · simp [send, hl, hk, hw, finish?, rpcModules, h0, hm]
  case delete target url =>
    obtain ⟨l, hl⟩ := trgLeaf_isSome hp
    simp [send, hl, finish?, fin, rpcModules]
  case lock target =>
    obtain ⟨l, hl⟩ := dsLeaf_isSome hp
    simp [send, hl, finish?, fin, rpcModules]
  case unlock target =>
    obtain ⟨l, hl⟩ := dsLeaf_isSome hp
    simp [send, hl, finish?, fin, rpcModules]
  case validate source src =>
    obtain ⟨l, hl⟩ := srcLeaf_isSome hp
    simp [send, hl, finish?, fin, rpcModules]
  case getdata =>
    simp only [send, rpcModules]
    cases h : ctx.hasMod "ietf-netconf-nmda" <;> simp [h, ha]
  all_goals first
    | (simp only [send, fin, rpcModules]; simp; done)
    | (simp only [send, rpcModules]
       cases h : ctx.hasMod "ietf-yang-push"
       · simp [h]
       · simp [h, fin])

example : (∃ s, send ⟨fun m => m == "ietf-netconf", fun _ => true, fun _ => true⟩ (.get none 0) = .sent s) ∧
    send ⟨fun m => m == "ietf-netconf", fun _ => true, fun _ => true⟩ (.get none 1) = .err := ⟨⟨_, rfl⟩, by decide⟩

/-- A 32-bit number and the terminating zero fit into the buffer used for printing (`char str[11]`). -/
theorem rpc_number_fits (n : Nat) (hn : n < 2 ^ 32) : (dec n).length + 1 ≤ 11 := by
  have := dec_length_le 10 n (by decide) (by omega)
  omega

/-! ## C96: the reply is parsed for the operation sent -/

/-- **C96.** -/
theorem rpc_reply_op (ctx : Ctx) (r : Req) (o : Op) (hs : send ctx r = .sent (.op o)) : replyOp ctx.hasMod r = some (o.mod, o.name) := by
  have fin : ∀ {mod name cs}, finish ctx mod name cs = .sent (.op o) → o.mod = mod ∧ o.name = name ∧ ctx.hasMod mod = true := by
    intro mod name cs h
    unfold finish at h
    split at h
    · rename_i hc
      cases h
      exact ⟨rfl, rfl, (Bool.and_eq_true _ _ ▸ hc).1⟩
    · cases h
  have fin? : ∀ {mod name cs}, finish? ctx mod name cs = .sent (.op o) → o.mod = mod ∧ o.name = name ∧ ctx.hasMod mod = true := by
    intro mod name cs h
    cases cs with
    | none => cases h
    | some cs => exact fin h
  cases r
  case generic d => cases d <;> cases hs
  case genericXml d =>
    cases d with
    | none => cases hs
    | some t => cases ite_sent hs
  case edit target defop testopt erropt cont =>
    cases cont with
    | none => cases hs
    | some t => obtain ⟨e1, e2, e3⟩ := fin? hs; simp [replyOp, e1, e2, e3]
  case editdata ds defop cont =>
    cases cont with
    | none => cases hs
    | some t => obtain ⟨e1, e2, e3⟩ := fin hs; simp [replyOp, e1, e2, e3]
  case getdata =>
    simp only [send] at hs
    have h := ite_sent hs
    simp only [Sent.op.injEq] at h
    subst h
    by_cases hm : ctx.hasMod "ietf-netconf-nmda" = true
    · simp [replyOp, hm]
    · simp [hm] at hs
  case pushPeriodic =>
    simp only [send] at hs
    split at hs
    · cases hs
    · obtain ⟨e1, e2, e3⟩ := fin hs; simp_all [replyOp]
  case pushOnchange =>
    simp only [send] at hs
    split at hs
    · cases hs
    · obtain ⟨e1, e2, e3⟩ := fin hs; simp_all [replyOp]
  case modpushPeriodic =>
    simp only [send] at hs
    split at hs
    · cases hs
    · obtain ⟨e1, e2, e3⟩ := fin hs; simp_all [replyOp]
  case modpushOnchange =>
    simp only [send] at hs
    split at hs
    · cases hs
    · obtain ⟨e1, e2, e3⟩ := fin hs; simp_all [replyOp]
  case getconfig => obtain ⟨e1, e2, e3⟩ := fin? hs; simp [replyOp, e1, e2, e3]
  case copy => obtain ⟨e1, e2, e3⟩ := fin? hs; simp [replyOp, e1, e2, e3]
  case delete => obtain ⟨e1, e2, e3⟩ := fin? hs; simp [replyOp, e1, e2, e3]
  case lock => obtain ⟨e1, e2, e3⟩ := fin? hs; simp [replyOp, e1, e2, e3]
  case unlock => obtain ⟨e1, e2, e3⟩ := fin? hs; simp [replyOp, e1, e2, e3]
  case get => obtain ⟨e1, e2, e3⟩ := fin? hs; simp [replyOp, e1, e2, e3]
  case validate => obtain ⟨e1, e2, e3⟩ := fin? hs; simp [replyOp, e1, e2, e3]
  all_goals
    obtain ⟨e1, e2, e3⟩ := fin hs
    simp [replyOp, e1, e2, e3]

example : replyOp (fun _ => true) (.pushPeriodic (some (lit "ds")) none none none 5 none) = some ("ietf-subscribed-notifications", "establish-subscription") := by decide

end Verif.Props
