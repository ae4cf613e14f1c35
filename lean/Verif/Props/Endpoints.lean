import Verif.Lemmas.Endpoints

namespace Verif.Props

open Verif.Endpoints

/-! ## C24: adding and removing listening endpoints -/

/-- Operations: creation of an endpoint by configuration or API, removal by configuration, removal of a UNIX endpoint by API. -/
inductive EOp where
  | create (e : Endpt) (sock : Option Nat)
  | delConf (name : Nat)
  | delUnix (name : Nat)
  deriving DecidableEq, Repr

/-- The model over a sequence of operations; `none` is an access outside the arrays. -/
def eRun : List EOp → Srv → Option Srv
  | [], s => some s
  | .create e b :: ops, s => eRun ops (create s e b)
  | .delConf n :: ops, s => (delConf s n).bind (eRun ops)
  | .delUnix n :: ops, s => (delUnix s n).bind (eRun ops)

/-- Specification: the endpoint without its reference to `n`. -/
def clearRef (n : Nat) (e : Endpt) : Endpt := if e.ref.map (·.1) = some n then { e with ref := none } else e

/-- Specification over a collection of endpoints paired with their sockets. -/
def eSpecStep (l : List (Endpt × Option Nat)) : EOp → List (Endpt × Option Nat)
  | .create e b => l ++ [(e, b)]
  | .delConf n =>
    if l.any (fun p => p.1.name == n && p.1.ti != .unixSock) then
      (l.filter (fun p => p.1.name != n)).map (fun p => (clearRef n p.1, p.2))
    else l
  | .delUnix n =>
    if l.any (fun p => p.1.name == n && p.1.ti == .unixSock) then l.filter (fun p => p.1.name != n) else l

/-- Specification of a whole sequence. -/
def eSpec (ops : List EOp) (l : List (Endpt × Option Nat)) : List (Endpt × Option Nat) := ops.foldl eSpecStep l

/-- Every created endpoint has a name not in use at that time. -/
def freshNames : List EOp → List (Endpt × Option Nat) → Prop
  | [], _ => True
  | op :: ops, l =>
    (match op with
     | .create e _ => e.name ∉ l.map (·.1.name)
     | _ => True) ∧ freshNames ops (eSpecStep l op)

/-- Sockets, heap objects and reference strings handed to the endpoint array. -/
def createdSocks (ops : List EOp) : List Nat := ops.flatMap fun | .create _ b => b.toList | _ => []
/-- See above. -/
def createdObjs (ops : List EOp) : List Nat := ops.flatMap fun | .create e _ => [e.obj] | _ => []
/-- See above. -/
def createdStrs (ops : List EOp) : List Nat := ops.flatMap fun | .create e _ => refStr e | _ => []

theorem dropRef_eq (n : Nat) (e : Endpt) : dropRef n e = clearRef n e := by
  unfold dropRef clearRef
  cases h : e.ref with
  | none => simp
  | some p => obtain ⟨a, b⟩ := p; simp

theorem refStr_split (n : Nat) (e : Endpt) : refStr e = dropRefStr n e ++ refStr (dropRef n e) := by
  unfold refStr dropRefStr dropRef
  cases h : e.ref with
  | none => simp [h]
  | some p =>
    obtain ⟨a, b⟩ := p
    by_cases ha : a = n <;> simp [ha, h]

theorem flatMap_split_perm {α β : Type} (f g h : α → List β) (hf : ∀ x, f x = g x ++ h x) (l : List α) :
    (l.flatMap f).Perm (l.flatMap g ++ l.flatMap h) := by
  induction l with
  | nil => simp
  | cons x l ih =>
    simp only [List.flatMap_cons, hf]
    refine (List.Perm.append_left _ ih).trans ?_
    simp only [List.append_assoc]
    refine List.Perm.append_left _ ?_
    rw [← List.append_assoc, ← List.append_assoc]
    exact List.Perm.append_right _ List.perm_append_comm

theorem perm_cons_eraseIdx {α : Type} (l : List α) (i : Nat) (x : α) (h : l[i]? = some x) : l.Perm (x :: l.eraseIdx i) := by
  obtain ⟨hi, rfl⟩ := List.getElem?_eq_some_iff.mp h
  have h2 : l = l.take i ++ l[i] :: l.drop (i + 1) := by simp
  rw [List.eraseIdx_eq_take_drop_succ]
  conv => lhs; rw [h2]
  exact List.perm_middle

theorem eraseIdx_map' {α β : Type} (f : α → β) (l : List α) (i : Nat) : (l.map f).eraseIdx i = (l.eraseIdx i).map f := by
  induction l generalizing i with
  | nil => simp
  | cons x l ih => cases i <;> simp [ih]

theorem map_name_clear (n : Nat) (l : List (Endpt × Option Nat)) :
    (l.map (fun p => (clearRef n p.1, p.2))).map (·.1.name) = l.map (·.1.name) := by
  rw [List.map_map]
  apply List.map_congr_left
  intro p _
  simp only [Function.comp, clearRef]
  split <;> rfl

/-- Resources: everything released plus everything still held. -/
def heldSocks (s : Srv) : List Nat := s.closed ++ (active s).flatMap (fun p => p.2.toList)
/-- See above. -/
def heldObjs (s : Srv) : List Nat := s.freedObj ++ (active s).map (·.1.obj)
/-- See above. -/
def heldStrs (s : Srv) : List Nat := s.freedStr ++ (active s).flatMap (fun p => refStr p.1)

theorem delAt_step (s : Srv) (h : WF s) (hn : ((active s).map (·.1.name)).Nodup) (n i : Nat)
    (hf : (s.endpts.take s.cnt).findIdx? (fun e => e.name == n) = some i) :
    ∃ s' e b, delAt s i = some s' ∧ WF s' ∧ s.endpts[i]? = some e ∧ (e, b) ∈ active s ∧ e.name = n ∧
      (active s').Perm (if e.ti = .unixSock then (active s).filter (fun p => p.1.name != n)
        else ((active s).filter (fun p => p.1.name != n)).map (fun p => (clearRef n p.1, p.2))) ∧
      (heldSocks s').Perm (heldSocks s) ∧ (heldObjs s').Perm (heldObjs s) ∧ (heldStrs s').Perm (heldStrs s) := by
  obtain ⟨hilt, hname, _⟩ := List.findIdx?_eq_some_iff_getElem.mp hf
  have hi : i < s.cnt := by simp at hilt; omega
  obtain ⟨s', e, b, d1, d2, d3, d4, d5, d6, d7⟩ := delAt_active s i h hi
  have hfa : (active s).findIdx? (fun p => p.1.name == n) = some i := by
    rw [← active_map_fst s h, List.findIdx?_map] at hf
    exact hf
  have her := eraseIdx_findIdx_filter (fun p : Endpt × Option Nat => p.1.name) n (active s) i hn hfa
  have hee : s.endpts[i]? = some e := by
    have : (s.endpts.take s.cnt)[i]? = some e := by rw [← active_map_fst s h, List.getElem?_map, d3]; rfl
    rwa [List.getElem?_take_of_lt hi] at this
  have hen : e.name = n := by
    obtain ⟨hh, hp, _⟩ := List.findIdx?_eq_some_iff_getElem.mp hfa
    rw [List.getElem?_eq_getElem hh, Option.some.injEq] at d3
    rw [d3] at hp
    simpa using hp
  have hpc := perm_cons_eraseIdx _ _ _ d3
  subst hen
  refine ⟨s', e, b, d1, d2, hee, List.mem_of_getElem? d3, rfl, ?_, ?_, ?_, ?_⟩
  · refine d4.trans (List.Perm.of_eq ?_)
    split
    · exact her
    · rw [eraseIdx_map', her]
      apply List.map_congr_left
      intro p _
      rw [dropRef_eq]
  · unfold heldSocks
    rw [d6, List.append_assoc]
    refine List.Perm.append_left _ ?_
    have h1 : ((active s').flatMap (fun p => p.2.toList)).Perm (((active s).eraseIdx i).flatMap (fun p => p.2.toList)) := by
      refine (d4.flatMap_right _).trans (List.Perm.of_eq ?_)
      split
      · rfl
      · rw [eraseIdx_map', List.flatMap_map]
    refine (List.Perm.append_left _ h1).trans ?_
    exact ((hpc.flatMap_right (fun p => p.2.toList))).symm
  · unfold heldObjs
    rw [d5, List.append_assoc]
    refine List.Perm.append_left _ ?_
    have h1 : ((active s').map (·.1.obj)).Perm (((active s).eraseIdx i).map (·.1.obj)) := by
      refine (d4.map _).trans (List.Perm.of_eq ?_)
      split
      · rfl
      · rw [eraseIdx_map', List.map_map]
        apply List.map_congr_left
        intro p _
        simp only [Function.comp, dropRef_eq, clearRef]
        split <;> rfl
    refine (List.Perm.append_left _ h1).trans ?_
    exact (hpc.map (·.1.obj)).symm
  · unfold heldStrs
    rw [d7]
    simp only [List.append_assoc]
    refine List.Perm.append_left _ ?_
    by_cases hu : e.ti = .unixSock
    · simp only [hu, if_true, List.nil_append] at d4 ⊢
      refine (List.Perm.append_left _ (d4.flatMap_right _)).trans ?_
      exact (hpc.flatMap_right (fun p => refStr p.1)).symm
    · simp only [hu, if_false] at d4 ⊢
      have h1 : ((active s').flatMap (fun p => refStr p.1)).Perm
          (((active s).eraseIdx i).flatMap (fun p => refStr (dropRef e.name p.1))) := by
        refine (d4.flatMap_right _).trans (List.Perm.of_eq ?_)
        rw [eraseIdx_map', List.flatMap_map]
      have h2 : (refStr (dropRef e.name e) ++ ((active s).eraseIdx i).flatMap (fun p => refStr (dropRef e.name p.1))).Perm
          ((active s).flatMap (fun p => refStr (dropRef e.name p.1))) :=
        (hpc.flatMap_right (fun p : Endpt × Option Nat => refStr (dropRef e.name p.1))).symm
      refine (List.Perm.append_left _ ((List.Perm.append_left _ h1).trans h2)).trans ?_
      rw [← List.flatMap_def]
      exact (flatMap_split_perm (fun p : Endpt × Option Nat => refStr p.1) (fun p => dropRefStr e.name p.1)
        (fun p => refStr (dropRef e.name p.1)) (fun p => refStr_split e.name p.1) (active s)).symm

theorem perm_any {α : Type} {a b : List α} (h : a.Perm b) (f : α → Bool) : a.any f = b.any f := by
  rw [Bool.eq_iff_iff, List.any_eq_true, List.any_eq_true]
  constructor <;> rintro ⟨x, hx, hf⟩
  · exact ⟨x, h.mem_iff.mp hx, hf⟩
  · exact ⟨x, h.mem_iff.mpr hx, hf⟩

theorem eSpecStep_perm {a b : List (Endpt × Option Nat)} (h : a.Perm b) (op : EOp) : (eSpecStep a op).Perm (eSpecStep b op) := by
  cases op with
  | create e s => exact h.append_right _
  | delConf n =>
    simp only [eSpecStep, perm_any h]
    split
    · exact (h.filter _).map _
    · exact h
  | delUnix n =>
    simp only [eSpecStep, perm_any h]
    split
    · exact h.filter _
    · exact h

theorem eSpecStep_nodup (l : List (Endpt × Option Nat)) (op : EOp)
    (hf : match op with | .create e _ => e.name ∉ l.map (·.1.name) | _ => True) (h : (l.map (·.1.name)).Nodup) : ((eSpecStep l op).map (·.1.name)).Nodup := by
  cases op with
  | create e s =>
    simp only [eSpecStep, List.map_append, List.map_cons, List.map_nil]
    simp only at hf
    rw [List.nodup_append]
    refine ⟨h, by simp, ?_⟩
    intro a ha b hb
    simp only [List.mem_singleton] at hb
    subst hb
    rintro rfl
    exact hf ha
  | delConf n =>
    simp only [eSpecStep]
    split
    · rw [map_name_clear]; exact h.sublist (List.filter_sublist.map _)
    · exact h
  | delUnix n =>
    simp only [eSpecStep]
    split
    · exact h.sublist (List.filter_sublist.map _)
    · exact h

theorem nodup_key_unique {α : Type} (f : α → Nat) (l : List α) (h : (l.map f).Nodup) (x y : α) (hx : x ∈ l) (hy : y ∈ l)
    (hxy : f x = f y) : x = y := by
  induction l with
  | nil => cases hx
  | cons z l ih =>
    simp only [List.map_cons, List.nodup_cons] at h
    rcases List.mem_cons.mp hx with rfl | hx' <;> rcases List.mem_cons.mp hy with rfl | hy'
    · rfl
    · exact absurd (by rw [hxy]; exact List.mem_map.mpr ⟨y, hy', rfl⟩) h.1
    · exact absurd (by rw [← hxy]; exact List.mem_map.mpr ⟨x, hx', rfl⟩) h.1
    · exact ih h.2 hx' hy'

theorem eStep (s : Srv) (op : EOp) (h : WF s) (hn : ((active s).map (·.1.name)).Nodup) :
    ∃ s', eRun [op] s = some s' ∧ WF s' ∧ (active s').Perm (eSpecStep (active s) op) ∧
      (heldSocks s').Perm (heldSocks s ++ createdSocks [op]) ∧ (heldObjs s').Perm (heldObjs s ++ createdObjs [op]) ∧
      (heldStrs s').Perm (heldStrs s ++ createdStrs [op]) := by
  have key : ∀ n (unix : Bool), ∃ s', (if unix then delUnix s n else delConf s n) = some s' ∧ WF s' ∧
      (active s').Perm (eSpecStep (active s) (if unix then .delUnix n else .delConf n)) ∧
      (heldSocks s').Perm (heldSocks s) ∧ (heldObjs s').Perm (heldObjs s) ∧ (heldStrs s').Perm (heldStrs s) := by
    intro n unix
    cases hf : (s.endpts.take s.cnt).findIdx? (fun e => e.name == n) with
    | none =>
      have hno : ∀ p ∈ active s, p.1.name ≠ n := by
        intro p hp
        have : p.1 ∈ s.endpts.take s.cnt := by rw [← active_map_fst s h]; exact List.mem_map.mpr ⟨p, hp, rfl⟩
        simpa using List.findIdx?_eq_none_iff.mp hf p.1 this
      refine ⟨s, ?_, h, ?_, .refl _, .refl _, .refl _⟩
      · cases unix <;> simp [delUnix, delConf, hf]
      · have : ∀ g : Endpt × Option Nat → Bool, (active s).any (fun p => p.1.name == n && g p) = false := by
          intro g
          rw [List.any_eq_false]
          intro p hp
          have := hno p hp
          simp [this]
        cases unix <;> simp [eSpecStep, this]
    | some i =>
      obtain ⟨s', e, b, d1, d2, d3, d4, d5, d6, d7, d8, d9⟩ := delAt_step s h hn n i hf
      by_cases hmatch : (e.ti = .unixSock) ↔ unix = true
      · refine ⟨s', ?_, d2, ?_, d7, d8, d9⟩
        · cases unix
          · have hu : ¬ e.ti = .unixSock := by simpa using hmatch
            simp [delConf, hf, d3, hu, d1]
          · have hu : e.ti = .unixSock := by simpa using hmatch
            simp [delUnix, hf, d3, hu, d1]
        · cases unix
          · have hu : ¬ e.ti = .unixSock := by simpa using hmatch
            have : (active s).any (fun p => p.1.name == n && p.1.ti != .unixSock) = true := by
              rw [List.any_eq_true]; exact ⟨_, d4, by simp [d5, hu]⟩
            simpa [eSpecStep, this, hu] using d6
          · have hu : e.ti = .unixSock := by simpa using hmatch
            have : (active s).any (fun p => p.1.name == n && p.1.ti == .unixSock) = true := by
              rw [List.any_eq_true]; exact ⟨_, d4, by simp [d5, hu]⟩
            simpa [eSpecStep, this, hu] using d6
      · refine ⟨s, ?_, h, ?_, .refl _, .refl _, .refl _⟩
        · cases unix
          · have hu : e.ti = .unixSock := by simpa using hmatch
            simp [delConf, hf, d3, hu]
          · have hu : ¬ e.ti = .unixSock := by simpa using hmatch
            simp [delUnix, hf, d3, hu]
        · have huniq : ∀ p ∈ active s, p.1.name = n → p.1 = e := by
            intro p hp hpn
            have := nodup_key_unique (fun p : Endpt × Option Nat => p.1.name) (active s) hn p (e, b) hp d4 (by simp [hpn, d5])
            rw [this]
          cases unix
          · have hu : e.ti = .unixSock := by simpa using hmatch
            have : (active s).any (fun p => p.1.name == n && p.1.ti != .unixSock) = false := by
              rw [List.any_eq_false]; intro p hp
              by_cases hpn : p.1.name = n
              · simp [huniq p hp hpn, hu]
              · simp [hpn]
            simp [eSpecStep, this]
          · have hu : ¬ e.ti = .unixSock := by simpa using hmatch
            have : (active s).any (fun p => p.1.name == n && p.1.ti == .unixSock) = false := by
              rw [List.any_eq_false]; intro p hp
              by_cases hpn : p.1.name = n
              · simp [huniq p hp hpn, hu]
              · simp [hpn]
            simp [eSpecStep, this]
  cases op with
  | create e b =>
    obtain ⟨c1, c2⟩ := create_active s e b h
    refine ⟨create s e b, rfl, c1, by rw [c2]; exact .refl _, ?_, ?_, ?_⟩
    · unfold heldSocks; rw [c2]; simp [createdSocks, create]
    · unfold heldObjs; rw [c2]; simp [createdObjs, create]
    · unfold heldStrs; rw [c2]; simp [createdStrs, create]
  | delConf n =>
    obtain ⟨s', k1, k2, k3, k4, k5, k6⟩ := key n false
    refine ⟨s', ?_, k2, k3, ?_, ?_, ?_⟩
    · simp at k1; simp [eRun, k1]
    · simpa [createdSocks] using k4
    · simpa [createdObjs] using k5
    · simpa [createdStrs] using k6
  | delUnix n =>
    obtain ⟨s', k1, k2, k3, k4, k5, k6⟩ := key n true
    refine ⟨s', ?_, k2, k3, ?_, ?_, ?_⟩
    · simp at k1; simp [eRun, k1]
    · simpa [createdSocks] using k4
    · simpa [createdObjs] using k5
    · simpa [createdStrs] using k6

theorem eRun_cons (op : EOp) (ops : List EOp) (s : Srv) : eRun (op :: ops) s = (eRun [op] s).bind (eRun ops) := by
  cases op <;> simp [eRun]
  all_goals (rename_i n; first | (cases delConf s n <;> rfl) | (cases delUnix s n <;> rfl))

theorem eRun_spec (ops : List EOp) : ∀ (s : Srv) (l : List (Endpt × Option Nat)), WF s → (active s).Perm l →
    (l.map (·.1.name)).Nodup → freshNames ops l →
    ∃ s', eRun ops s = some s' ∧ WF s' ∧ (active s').Perm (eSpec ops l) ∧
      (heldSocks s').Perm (heldSocks s ++ createdSocks ops) ∧ (heldObjs s').Perm (heldObjs s ++ createdObjs ops) ∧
      (heldStrs s').Perm (heldStrs s ++ createdStrs ops) := by
  induction ops with
  | nil => intro s l h hp _ _; exact ⟨s, rfl, h, hp, by simp [createdSocks], by simp [createdObjs], by simp [createdStrs]⟩
  | cons op ops ih =>
    intro s l h hp hn hf
    have hn' : ((active s).map (·.1.name)).Nodup := (hp.map (·.1.name)).nodup_iff.mpr hn
    obtain ⟨s1, a1, a2, a3, a4, a5, a6⟩ := eStep s op h hn'
    obtain ⟨s2, b1, b2, b3, b4, b5, b6⟩ := ih s1 (eSpecStep l op) a2 (a3.trans (eSpecStep_perm hp op)) (eSpecStep_nodup l op hf.1 hn) hf.2
    refine ⟨s2, by rw [eRun_cons, a1]; exact b1, b2, b3, ?_, ?_, ?_⟩
    · refine b4.trans ((a4.append_right _).trans (List.Perm.of_eq ?_)); simp [createdSocks]
    · refine b5.trans ((a5.append_right _).trans (List.Perm.of_eq ?_)); simp [createdObjs]
    · refine b6.trans ((a6.append_right _).trans (List.Perm.of_eq ?_)); simp [createdStrs]

/-- **C24** For every sequence of creations (with names not in use) and removals of listening endpoints there is no access outside the arrays, exactly the endpoints not removed remain, each
with its own socket and with references to removed endpoints cleared; and every socket, endpoint and reference string ever
created is either still in use or was released exactly once. -/
theorem endpoint_removal (ops : List EOp) (hf : freshNames ops []) :
    ∃ s, eRun ops Srv.empty = some s ∧ (active s).Perm (eSpec ops []) ∧
      (s.closed ++ (active s).flatMap (fun p => p.2.toList)).Perm (createdSocks ops) ∧
      (s.freedObj ++ (active s).map (·.1.obj)).Perm (createdObjs ops) ∧
      (s.freedStr ++ (active s).flatMap (fun p => refStr p.1)).Perm (createdStrs ops) := by
  obtain ⟨s, a1, _, a3, a4, a5, a6⟩ := eRun_spec ops Srv.empty [] (by simp [WF, Srv.empty]) (by simp [active, Srv.empty]) (by simp) hf
  exact ⟨s, a1, a3, by simpa [heldSocks, active, Srv.empty] using a4, by simpa [heldObjs, active, Srv.empty] using a5,
    by simpa [heldStrs, active, Srv.empty] using a6⟩

/-- Three endpoints, the second one referenced by the third one is removed, and a UNIX endpoint. -/
def eSample : List EOp :=
  [.create ⟨100, 1, .ssh, none⟩ (some 11), .create ⟨101, 2, .ssh, none⟩ (some 12), .create ⟨102, 3, .ssh, some (2, 50)⟩ (some 13),
   .create ⟨103, 4, .unixSock, none⟩ (some 14), .delConf 2, .delUnix 4, .delConf 9]

example : freshNames eSample [] ∧ (eRun eSample Srv.empty).map active =
    some [(⟨100, 1, .ssh, none⟩, some 11), (⟨102, 3, .ssh, none⟩, some 13)] := by
  refine ⟨?_, by decide⟩
  simp [freshNames, eSample, eSpecStep]

/-- If a configured endpoint has the name of an existing UNIX endpoint (nothing prevents that), removing it by configuration removes nothing. -/
theorem endpoint_removal_shared_name_false :
    (eRun [.create ⟨100, 1, .unixSock, none⟩ (some 11), .create ⟨101, 1, .ssh, none⟩ (some 12), .delConf 1] Srv.empty).map active =
      some [(⟨100, 1, .unixSock, none⟩, some 11), (⟨101, 1, .ssh, none⟩, some 12)] := by decide

/-! ## C25: deleting the whole listen configuration -/

theorem dropRef_none (n : Nat) (e : Endpt) (h : e.ref = none) : dropRef n e = e ∧ dropRefStr n e = [] := by
  simp [dropRef, dropRefStr, h]

theorem delRefs_none (s : Srv) (n : Nat) (h : ∀ e ∈ s.endpts, e.ref = none) : delRefs s n = s := by
  have h1 : (s.endpts.take s.cnt).map (dropRef n) = s.endpts.take s.cnt := by
    conv => rhs; rw [← List.map_id (s.endpts.take s.cnt)]
    apply List.map_congr_left
    intro e he
    exact (dropRef_none n e (h e (List.mem_of_mem_take he))).1
  have h2 : ((s.endpts.take s.cnt).map (dropRefStr n)).flatten = [] := by
    rw [List.flatten_eq_nil_iff]
    intro l hl
    obtain ⟨e, he, rfl⟩ := List.mem_map.mp hl
    exact (dropRef_none n e (h e (List.mem_of_mem_take he))).2
  unfold delRefs
  rw [h1, h2]
  simp

theorem listenLoop_spec : ∀ (n i : Nat) (s : Srv), s.cnt = n → s.endpts.length = i + n → s.binds.length = i + n →
    (∀ e ∈ s.endpts, e.ref = none ∧ e.ti ≠ .unixSock) →
    ∃ s', listenLoop s i n = some s' ∧ s'.cnt = 0 ∧ s'.freedObj = s.freedObj ++ (s.endpts.drop i).map (·.obj) ∧
      s'.freedStr = s.freedStr ∧ s'.closed = s.closed ++ (s.binds.drop i).flatMap Option.toList := by
  intro n
  induction n with
  | zero =>
    intro i s hc h1 h2 _
    refine ⟨s, rfl, hc, ?_, rfl, ?_⟩
    · rw [List.drop_eq_nil_of_le (by omega)]; simp
    · rw [List.drop_eq_nil_of_le (by omega)]; simp
  | succ n ih =>
    intro i s hc h1 h2 hall
    have he : s.endpts[i]? = some (s.endpts[i]'(by omega)) := List.getElem?_eq_getElem _
    have hb : s.binds[i]? = some (s.binds[i]'(by omega)) := List.getElem?_eq_getElem _
    have hd1 : s.endpts.drop i = s.endpts[i]'(by omega) :: s.endpts.drop (i + 1) := List.drop_eq_getElem_cons (by omega)
    have hd2 : s.binds.drop i = s.binds[i]'(by omega) :: s.binds.drop (i + 1) := List.drop_eq_getElem_cons (by omega)
    have hmem : s.endpts[i]'(by omega) ∈ s.endpts := List.getElem_mem _
    have hti := (hall _ hmem).2
    have href := (hall _ hmem).1
    unfold listenLoop delAt
    simp only [he, hti, if_false, delRefs_none s _ (fun e h => (hall e h).1), hb]
    have hrs : refStr (s.endpts[i]'(by omega)) = [] := by simp [refStr, href]
    simp only [hrs, List.append_nil]
    unfold shrink
    by_cases h0 : s.cnt - 1 = 0
    · have hn : n = 0 := by omega
      subst hn
      simp only [h0, if_true, listenLoop]
      refine ⟨_, rfl, rfl, ?_, rfl, ?_⟩
      · rw [hd1, List.drop_eq_nil_of_le (by omega)]; rfl
      · rw [hd2, List.drop_eq_nil_of_le (by omega)]; simp
    · simp only [h0, if_false]
      have hce : s.endpts[s.cnt - 1]? = some (s.endpts[s.cnt - 1]'(by omega)) := List.getElem?_eq_getElem _
      have hcb : s.binds[s.cnt - 1]? = some (s.binds[s.cnt - 1]'(by omega)) := List.getElem?_eq_getElem _
      simp only [hce, hcb]
      obtain ⟨s', a1, a2, a3, a4, a5⟩ := ih (i + 1)
        { s with endpts := s.endpts.set i (s.endpts[s.cnt - 1]'(by omega)), binds := s.binds.set i (s.binds[s.cnt - 1]'(by omega)), cnt := s.cnt - 1,
                 freedObj := s.freedObj ++ [(s.endpts[i]'(by omega)).obj], closed := s.closed ++ (s.binds[i]'(by omega)).toList }
        (by show s.cnt - 1 = n; omega) (by simp; omega) (by simp; omega) (by
          intro e hm
          rcases List.mem_or_eq_of_mem_set hm with hm | rfl
          · exact hall e hm
          · exact hall _ (List.getElem_mem _))
      refine ⟨s', a1, a2, ?_, a4, ?_⟩
      · rw [a3, hd1]
        simp only [List.drop_set_of_lt (Nat.lt_succ_self i), List.map_cons, List.append_assoc, List.singleton_append]
      · rw [a5, hd2]
        simp only [List.drop_set_of_lt (Nat.lt_succ_self i), List.flatMap_cons, List.append_assoc]

/-- **C25** (partial) If there are only SSH and TLS endpoints and none of them references another one, deleting the listen configuration releases every endpoint and
closes every socket exactly once, in order, and none is left. Missing: UNIX endpoints and references, where this is false (next theorem). -/
theorem listen_delete_partial (l : List (Endpt × Option Nat)) (h : ∀ p ∈ l, p.1.ref = none ∧ p.1.ti ≠ .unixSock) :
    ∃ s, listenDelete ⟨l.map (·.1), l.map (·.2), l.length, [], [], []⟩ = some s ∧ active s = [] ∧
      s.freedObj = l.map (·.1.obj) ∧ s.freedStr = [] ∧ s.closed = l.flatMap (·.2.toList) := by
  obtain ⟨s, a1, a2, a3, a4, a5⟩ := listenLoop_spec l.length 0 ⟨l.map (·.1), l.map (·.2), l.length, [], [], []⟩ rfl (by simp) (by simp) (by
    intro e he
    obtain ⟨p, hp, rfl⟩ := List.mem_map.mp he
    exact h p hp)
  refine ⟨s, a1, ?_, ?_, a4, ?_⟩
  · simp [active, a2]
  · rw [a3]; simp
  · rw [a5]; simp [List.flatMap_map]

example : (listenDelete ⟨[⟨1, 1, .ssh, none⟩, ⟨2, 2, .tls, none⟩, ⟨3, 3, .ssh, none⟩], [some 7, none, some 9], 3, [], [], []⟩).map
    (fun s => (s.cnt, s.freedObj, s.closed)) = some (0, [1, 2, 3], [7, 9]) := by decide

/-- **C25** is false: (1) with the endpoints SSH, UNIX, SSH the UNIX endpoint is lost and a released endpoint stays in use; (2) if the third of three endpoints
references the second one, its reference string is released twice. -/
theorem listen_delete_false :
    ((listenDelete ⟨[⟨1, 1, .ssh, none⟩, ⟨2, 2, .unixSock, none⟩, ⟨3, 3, .ssh, none⟩], [some 7, some 8, some 9], 3, [], [], []⟩).map
      (fun s => (active s, s.freedObj)) = some ([(⟨3, 3, .ssh, none⟩, some 9)], [1, 3])) ∧
    ((listenDelete ⟨[⟨1, 1, .ssh, none⟩, ⟨2, 2, .ssh, none⟩, ⟨3, 3, .ssh, some (2, 50)⟩], [some 7, some 8, some 9], 3, [], [], []⟩).map
      (·.freedStr) = some [50, 50]) := by decide

/-! ## C55, C26: arrays of keys, users, certificates, Call Home clients and endpoints -/

/-- Operations on an array: addition, and removal of the first element equal to a value. -/
inductive AOp where
  | push (x : Nat)
  | del (x : Nat)
  deriving DecidableEq, Repr

/-- The model. -/
def aRun : List AOp → Arr → Option Arr
  | [], a => some a
  | .push x :: ops, a => aRun ops (a.push x)
  | .del x :: ops, a =>
    match a.active.findIdx? (· == x) with
    | none => aRun ops a
    | some i => (a.del i).bind (aRun ops)

/-- Objects created. -/
def pushed (ops : List AOp) : List Nat := ops.flatMap fun | .push x => [x] | _ => []

/-- Specification. -/
def aSpec (ops : List AOp) (l : List Nat) : List Nat := ops.foldl (fun l op => match op with | .push x => l ++ [x] | .del x => l.erase x) l

theorem eraseIdx_findIdx_erase (l : List Nat) (x i : Nat) (h : l.findIdx? (· == x) = some i) : l.eraseIdx i = l.erase x := by
  induction l generalizing i with
  | nil => simp at h
  | cons y l ih =>
    rw [List.findIdx?_cons] at h
    by_cases hx : y = x
    · simp [hx] at h; subst h; simp [hx]
    · simp only [beq_iff_eq, hx, if_false] at h
      cases hg : l.findIdx? (· == x) with
      | none => simp [hg] at h
      | some j =>
        simp [hg] at h; subst h
        simp [hx, ih j hg]

theorem aRun_spec (ops : List AOp) : ∀ (a : Arr) (l : List Nat), a.cnt ≤ a.slots.length → a.active.Perm l →
    ∃ a', aRun ops a = some a' ∧ a'.cnt ≤ a'.slots.length ∧ a'.active.Perm (aSpec ops l) ∧
      (a'.freed ++ a'.active).Perm (a.freed ++ a.active ++ pushed ops) := by
  induction ops with
  | nil => intro a l h hp; exact ⟨a, rfl, h, hp, by simp [pushed]⟩
  | cons op ops ih =>
    intro a l h hp
    cases op with
    | push x =>
      have hact : (a.push x).active = a.active ++ [x] := by
        unfold Arr.active Arr.push
        simp only
        rw [List.take_of_length_le]; simp; omega
      obtain ⟨a', b1, b2, b3, b4⟩ := ih (a.push x) (l ++ [x]) (by simp [Arr.push]; omega) (by rw [hact]; exact hp.append_right _)
      refine ⟨a', b1, b2, b3, b4.trans (List.Perm.of_eq ?_)⟩
      rw [hact]
      simp [Arr.push, pushed]
    | del x =>
      cases hf : a.active.findIdx? (· == x) with
      | none =>
        have hx : x ∉ l := by
          intro hm
          have := List.findIdx?_eq_none_iff.mp hf x (hp.mem_iff.mpr hm)
          simp at this
        obtain ⟨a', b1, b2, b3, b4⟩ := ih a l h hp
        refine ⟨a', by simp [aRun, hf, b1], b2, ?_, ?_⟩
        · simpa [aSpec, List.erase_of_not_mem hx] using b3
        · simpa [pushed] using b4
      | some i =>
        obtain ⟨hi, hxi, _⟩ := List.findIdx?_eq_some_iff_getElem.mp hf
        have hi' : i < a.cnt := by simp [Arr.active] at hi; omega
        obtain ⟨a1, c1, c2, c3, c4⟩ := Arr.del_active a i h hi'
        have hget : a.active[i]? = some x := by rw [List.getElem?_eq_getElem hi]; simpa using hxi
        rw [eraseIdx_findIdx_erase _ _ _ hf] at c3
        obtain ⟨a', b1, b2, b3, b4⟩ := ih a1 (l.erase x) c2 (c3.trans (hp.erase x))
        refine ⟨a', by simp [aRun, hf, c1, b1], b2, b3, b4.trans ?_⟩
        rw [hget] at c4
        simp only [Option.map_some, Option.some.injEq] at c4
        rw [c4]
        have hpe := List.perm_cons_erase (List.mem_of_getElem? hget)
        have : pushed (.del x :: ops) = pushed ops := by simp [pushed]
        rw [this]
        refine List.Perm.append_right _ ?_
        rw [List.append_assoc]
        refine List.Perm.append_left _ ?_
        exact (List.Perm.append_left [x] c3).trans hpe.symm

/-- **C55** Host keys, users, public keys, certificates and Call Home clients: for every sequence of additions and removals exactly the remaining objects are in use, and every object is in use or was
freed exactly once; deleting all remaining ones frees each exactly once. -/
theorem object_arrays (ops : List AOp) :
    ∃ a, aRun ops ⟨[], 0, []⟩ = some a ∧ a.active.Perm (aSpec ops []) ∧ (a.freed ++ a.active).Perm (pushed ops) := by
  obtain ⟨a, h1, _, h3, h4⟩ := aRun_spec ops ⟨[], 0, []⟩ [] (by simp) (by simp [Arr.active])
  exact ⟨a, h1, h3, by simpa [Arr.active] using h4⟩

/-- **C55** (deleting everything) After any such sequence, deleting all remaining objects frees each exactly once: afterwards every object ever added was freed exactly once. -/
theorem object_arrays_clear (ops : List AOp) :
    ∃ a b, aRun ops ⟨[], 0, []⟩ = some a ∧ a.delLoop 0 a.cnt = some b ∧ b.active = [] ∧ b.freed.Perm (pushed ops) := by
  obtain ⟨a, h1, h2, _, h4⟩ := aRun_spec ops ⟨[], 0, []⟩ [] (by simp) (by simp [Arr.active])
  obtain ⟨b, e1, e2, e3⟩ := Arr.delLoop_spec a.cnt 0 a rfl (by omega)
  refine ⟨a, b, h1, e1, by simp [Arr.active, e2], ?_⟩
  rw [e3]
  simpa [Arr.active] using h4

example : aRun [.push 1, .push 2, .push 3, .del 1, .push 4, .del 2] ⟨[], 0, []⟩ = some ⟨[3, 4, 4], 2, [1, 2]⟩ := by decide

example : ((aRun [.push 1, .push 2, .push 3, .del 1] ⟨[], 0, []⟩).bind (fun a => a.delLoop 0 a.cnt)).map (·.freed) = some [1, 3, 2] := by decide

/-- **C26** (partial) Removing the last Call Home endpoint keeps the others, and removing the whole client frees every endpoint exactly once. Missing: removing any other endpoint. -/
theorem ch_endpoint_removal_partial (l : List Nat) (x : Nat) :
    (∃ a, (⟨l ++ [x], l.length + 1, []⟩ : Arr).chDel l.length = some a ∧ a.active = l ∧ a.freed = [x]) ∧
    (∃ a, (⟨l, l.length, []⟩ : Arr).chLoop 0 l.length = some a ∧ a.active = [] ∧ a.freed = l) := by
  constructor
  · have hx : (l ++ [x])[l.length]? = some x := by simp
    refine ⟨⟨if l.length = 0 then [] else l ++ [x], l.length, [x]⟩, by simp only [Arr.chDel, hx, Nat.add_sub_cancel]; rfl, ?_, rfl⟩
    unfold Arr.active
    simp only
    split
    · rename_i h
      simp [List.eq_nil_of_length_eq_zero h]
    · simp
  · obtain ⟨a, h1, h2, h3⟩ := Arr.chLoop_spec l.length 0 ⟨l, l.length, []⟩ rfl (by simp)
    exact ⟨a, h1, by simp [Arr.active, h2], by simpa using h3⟩

example : (⟨[1, 2, 3], 3, []⟩ : Arr).chDel 2 = some ⟨[1, 2, 3], 2, [3]⟩ := by decide

/-- **C26** is false: after removing the first of three Call Home endpoints the released one is still in use and the last one is lost; this happens for every
list and every removed position except the last. -/
theorem ch_endpoint_removal_false :
    (∃ a, (⟨[1, 2, 3], 3, []⟩ : Arr).chDel 0 = some a ∧ a.active = [1, 2] ∧ a.freed = [1]) ∧
    (∀ (l : List Nat) (i : Nat), i + 1 < l.length →
      ∃ a, (⟨l, l.length, []⟩ : Arr).chDel i = some a ∧ (∀ x, l[i]? = some x → x ∈ a.active ∧ x ∈ a.freed)) := by
  refine ⟨⟨_, rfl, by decide, by decide⟩, ?_⟩
  intro l i hi
  have hx : l[i]? = some (l[i]'(by omega)) := List.getElem?_eq_getElem _
  refine ⟨⟨if l.length - 1 = 0 then [] else l, l.length - 1, [] ++ [l[i]'(by omega)]⟩, by simp only [Arr.chDel, hx], ?_⟩
  intro x hxi
  rw [hx] at hxi
  cases hxi
  refine ⟨?_, by simp⟩
  unfold Arr.active
  simp only
  rw [if_neg (by omega)]
  have : (l.take (l.length - 1))[i]? = some (l[i]'(by omega)) := by rw [List.getElem?_take_of_lt (by omega), hx]
  exact List.mem_of_getElem? this

end Verif.Props
