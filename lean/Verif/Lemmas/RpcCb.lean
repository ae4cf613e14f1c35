import Verif.Spec.RpcCb

/-!
# Lemmas: which callback deals with a request
-/

namespace Verif.RpcCb

/-- Events from the last one to the first one. -/
def past (r : List Event) : State := r.foldr (fun e s => step s e) start

theorem run_past (h : List Event) : run h = past h.reverse := by rw [run, past, List.foldr_reverse]

/-- The context has the operation, in the state. -/
def Ctx.avail (x : Ctx) : Op → Bool
  | .getSchema => x.monitoring
  | .closeSession => x.netconf
  | .other _ => true

theorem initCtx_priv (g : Option Nat) (x : Ctx) (op : Op) : (initCtx g x).priv op =
    match g, x.priv op with
    | none, none => if x.avail op then dflt op else none
    | _, f => f := by
  cases g with
  | some g => rfl
  | none =>
    obtain ⟨m, n, p⟩ := x
    cases h1 : p .getSchema <;> cases h2 : p .closeSession <;> cases m <;> cases n <;> cases op <;> simp [initCtx, Ctx.set, Ctx.avail, dflt, h1, h2] <;>
      (split <;> simp_all)

theorem initCtx_mods (g : Option Nat) (x : Ctx) : (initCtx g x).monitoring = x.monitoring ∧ (initCtx g x).netconf = x.netconf := by
  cases g with
  | some g => exact ⟨rfl, rfl⟩
  | none =>
    simp only [initCtx]
    split <;> split <;> exact ⟨rfl, rfl⟩

theorem past_glob (r : List Event) : (past r).glob = globOf r := by
  induction r with
  | nil => rfl
  | cons e r ih => cases e <;> first | rfl | exact ih

theorem past_cons (e : Event) (r : List Event) : past (e :: r) = step (past r) e := rfl

theorem past_avail (r : List Event) (c : Nat) (op : Op) (h : hasOp c op r = true) : ((past r).ctxs c).avail op = true := by
  induction r with
  | nil => cases h
  | cons e r ih =>
    rw [past_cons]
    cases e with
    | global g => exact ih h
    | own d o f =>
      have := ih h
      simp only [step, State.at]
      split
      · rename_i hd; subst hd; cases op <;> exact this
      · exact this
    | fresh d m n =>
      simp only [hasOp] at h
      simp only [step, State.at]
      by_cases hd : d = c
      · subst hd
        rw [if_pos rfl] at h
        rw [if_pos rfl]
        cases op <;> exact h
      · rw [if_neg hd] at h
        rw [if_neg (Ne.symm hd)]
        exact ih h
    | session d =>
      have := ih h
      simp only [step, State.at]
      split
      · rename_i hd
        subst hd
        have hm := initCtx_mods (past r).glob ((past r).ctxs c)
        cases op with
        | getSchema => exact hm.1.trans this
        | closeSession => exact hm.2.trans this
        | other n => rfl
      · exact this

/-- The field of an operation is what the application has set, or the default where it has set nothing. -/
theorem past_priv (r : List Event) (c : Nat) (op : Op) :
    ((past r).ctxs c).priv op = (ownOf c op r).map .app ∨ (ownOf c op r = none ∧ ((past r).ctxs c).priv op = dflt op ∧ used c r = true) := by
  induction r with
  | nil => exact .inl rfl
  | cons e r ih =>
    rw [past_cons]
    cases e with
    | global g => exact ih
    | own d o f =>
      simp only [step, State.at, ownOf, used]
      by_cases hd : d = c
      · subst hd
        rw [if_pos rfl]
        simp only [Ctx.set]
        by_cases ho : o = op
        · subst ho; left; simp
        · rw [if_neg (Ne.symm ho), if_neg (by simp [ho])]; exact ih
      · rw [if_neg (Ne.symm hd), if_neg (by simp [hd])]; exact ih
    | fresh d m n =>
      simp only [step, State.at, ownOf, used]
      by_cases hd : d = c
      · subst hd; left; simp
      · rw [if_neg (Ne.symm hd), if_neg hd, if_neg hd]; exact ih
    | session d =>
      simp only [step, State.at, ownOf, used]
      by_cases hd : d = c
      · subst hd
        rw [if_pos rfl, if_pos rfl, initCtx_priv]
        rcases ih with h | ⟨h1, h2, -⟩
        · rw [h]
          cases ho : ownOf d op r with
          | some f => left; cases (past r).glob <;> rfl
          | none =>
            cases (past r).glob with
            | some g => left; rfl
            | none =>
              simp only [Option.map_none]
              split
              · right; simp
              · left; rfl
        · right
          refine ⟨h1, ?_, rfl⟩
          rw [h2]
          cases (past r).glob with
          | some g => cases dflt op <;> rfl
          | none =>
            cases hx : dflt op with
            | some f => rfl
            | none => simp only [ite_self]
      · rw [if_neg (Ne.symm hd), if_neg hd]; exact ih

/-- If nothing is changed while there are sessions, the default is there exactly if there is no other callback. -/
theorem past_settled (r : List Event) (c : Nat) (op : Op) (hs : Settled c op r) (hu : used c r = true) (hh : hasOp c op r = true) (ho : ownOf c op r = none) :
    ((past r).ctxs c).priv op = if (globOf r).isNone then dflt op else none := by
  induction r with
  | nil => cases hu
  | cons e r ih =>
    rw [past_cons]
    cases e with
    | global g => exact absurd ((hs.1 : used c r = false).symm.trans hu) (by simp)
    | own d o f =>
      simp only [ownOf] at ho
      by_cases hc : d = c ∧ o = op
      · rw [if_pos hc] at ho
        exact absurd ((hs.1 hc.1 hc.2 ho : used c r = false).symm.trans hu) (by simp)
      · rw [if_neg hc] at ho
        have := ih hs.2 hu hh ho
        simp only [step, State.at, globOf]
        by_cases hd : d = c
        · subst hd
          rw [if_pos rfl]
          simp only [Ctx.set]
          rw [if_neg (fun he => hc ⟨rfl, he.symm⟩)]
          exact this
        · rw [if_neg (Ne.symm hd)]; exact this
    | fresh d m n =>
      simp only [used] at hu
      simp only [hasOp] at hh
      simp only [ownOf] at ho
      simp only [Settled] at hs
      by_cases hd : d = c
      · rw [if_pos hd] at hu; cases hu
      · rw [if_neg hd] at hu hh ho hs
        simp only [step, State.at, globOf]
        rw [if_neg (Ne.symm hd)]
        exact ih hs hu hh ho
    | session d =>
      simp only [used] at hu
      simp only [step, State.at, globOf]
      by_cases hd : d = c
      · subst hd
        rw [if_pos rfl, initCtx_priv, past_glob]
        have hav := past_avail r d op hh
        have hg : globOf r = none ∨ ∃ g, globOf r = some g := by cases globOf r <;> simp
        rcases past_priv r d op with h | ⟨-, h2, hu'⟩
        · have ho' : ownOf d op r = none := ho
          rw [h, ho']
          rcases hg with hg | ⟨g, hg⟩ <;> simp [hg, hav]
        · have h3 := ih hs hu' hh ho
          rw [h3]
          rcases hg with hg | ⟨g, hg⟩
          · rcases hx : dflt op with _ | f <;> simp [hg]
          · simp [hg]
      · rw [if_neg hd] at hu
        rw [if_neg (Ne.symm hd)]
        exact ih hs hu hh ho

end Verif.RpcCb
