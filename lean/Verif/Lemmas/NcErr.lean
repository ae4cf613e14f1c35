import Verif.Spec.NcErr

namespace Verif.NcErr

open Verif.Spec

theorem find_cons (c : Child) (e : Err) (k : Kind) : find (c :: e) k = if c.kind = k then some c else find e k := by
  unfold find
  rw [List.find?_cons]
  by_cases h : c.kind = k
  · simp [h]
  · have : (c.kind == k) = false := by simpa using h
    simp [this, h]

theorem find_modifyFirst (k k' : Kind) (f : Child → Child) (hf : ∀ c, (f c).kind = c.kind) (e : Err) :
    find (modifyFirst k f e) k' = if k' = k then (find e k).map f else find e k' := by
  induction e with
  | nil => simp [find, modifyFirst]
  | cons c e ih =>
    rw [modifyFirst]
    by_cases hc : c.kind = k
    · rw [if_pos hc, find_cons, hf, find_cons, if_pos hc, find_cons]
      by_cases hk : k' = k
      · simp [hk, hc]
      · rw [if_neg hk]
        have h1 : ¬ c.kind = k' := by rw [hc]; exact fun h => hk h.symm
        rw [if_neg h1, if_neg h1]
    · rw [if_neg hc, find_cons, ih, find_cons, if_neg hc, find_cons]
      by_cases hk : k' = k
      · subst hk; rw [if_neg hc, if_pos rfl, if_pos rfl]
      · rw [if_neg hk, if_neg hk]

theorem kinds_modifyFirst (k : Kind) (f : Child → Child) (hf : ∀ c, (f c).kind = c.kind) (e : Err) :
    (modifyFirst k f e).map (·.kind) = e.map (·.kind) := by
  induction e with
  | nil => rfl
  | cons c e ih =>
    unfold modifyFirst
    split
    · simp [hf]
    · simp [ih]

theorem find_append_other (e : Err) (c : Child) (k : Kind) (h : c.kind ≠ k) : find (e ++ [c]) k = find e k := by
  have h1 : (c.kind == k) = false := by simpa using h
  unfold find
  rw [List.find?_append, List.find?_cons, h1]
  simp

theorem find_eraseP_other (e : Err) (k k' : Kind) (h : k ≠ k') : find (e.eraseP (fun c => c.kind == k)) k' = find e k' := by
  induction e with
  | nil => rfl
  | cons c e ih =>
    by_cases hc : c.kind = k
    · have h1 : (c.kind == k) = true := by simpa using hc
      rw [List.eraseP_cons_of_pos (p := fun c : Child => c.kind == k) h1, find_cons, if_neg (by rw [hc]; exact h)]
    · have h1 : ¬ (c.kind == k) = true := by simpa using hc
      rw [List.eraseP_cons_of_neg (p := fun c : Child => c.kind == k) h1, find_cons, find_cons, ih]

/-- At most one child of each name. -/
def Uniq (e : Err) : Prop := (e.map (·.kind)).Nodup

theorem find_none_iff (e : Err) (k : Kind) : find e k = none ↔ k ∉ e.map (·.kind) := by
  unfold find
  simp only [List.find?_eq_none, List.mem_map]
  constructor
  · rintro h ⟨c, hc, hk⟩
    exact h c hc (by simpa using hk)
  · intro h c hc hk
    exact h ⟨c, hc, by simpa using hk⟩

theorem find_eraseP_self (e : Err) (k : Kind) (hu : Uniq e) : find (e.eraseP (fun c => c.kind == k)) k = none := by
  induction e with
  | nil => rfl
  | cons c e ih =>
    simp only [Uniq, List.map_cons, List.nodup_cons] at hu
    by_cases hc : c.kind = k
    · have h1 : (c.kind == k) = true := by simpa using hc
      rw [List.eraseP_cons_of_pos (p := fun c : Child => c.kind == k) h1, find_none_iff, ← hc]
      exact hu.1
    · have h1 : ¬ (c.kind == k) = true := by simpa using hc
      rw [List.eraseP_cons_of_neg (p := fun c : Child => c.kind == k) h1]
      rw [find_cons, if_neg hc]
      exact ih hu.2

theorem uniq_append (e : Err) (c : Child) (hu : Uniq e) (h : find e c.kind = none) : Uniq (e ++ [c]) := by
  unfold Uniq at *
  rw [List.map_append, List.nodup_append]
  refine ⟨hu, by simp, ?_⟩
  intro a ha b hb
  simp at hb
  subst hb
  rintro rfl
  exact (find_none_iff e _).mp h ha

theorem uniq_eraseP (e : Err) (p : Child → Bool) (hu : Uniq e) : Uniq (e.eraseP p) :=
  hu.sublist (List.eraseP_sublist.map _)

theorem replaceLast_spec (e : Err) (k : Kind) (v : String) (hu : Uniq e) :
    Uniq (replaceLast e k v) ∧ ∀ k', find (replaceLast e k v) k' = if k' = k then some { kind := k, value := some v } else find e k' := by
  have h0 := find_eraseP_self e k hu
  refine ⟨uniq_append _ _ (uniq_eraseP _ _ hu) h0, fun k' => ?_⟩
  by_cases hk : k' = k
  · subst hk
    rw [if_pos rfl]
    unfold find at *
    rw [replaceLast, List.find?_append, h0]
    simp
  · rw [if_neg hk, replaceLast, find_append_other _ _ _ (fun h => hk h.symm), find_eraseP_other _ _ _ (fun h => hk h.symm)]

theorem setMsg_spec (e : Err) (v : String) (l : Option String) (hu : Uniq e) :
    Uniq (setMsg e v l) ∧ (∀ k', k' ≠ .message → find (setMsg e v l) k' = find e k') ∧
    (find (setMsg e v l) .message).bind (·.value) = some v ∧
    (∀ c, find e .message = some c → (find (setMsg e v l) .message).map (·.lang) = some c.lang ∧ (setMsg e v l).map (·.kind) = e.map (·.kind)) ∧
    (find e .message = none → find (setMsg e v l) .message = some { kind := .message, value := some v, lang := l }) := by
  unfold setMsg
  cases hm : find e .message with
  | none =>
    simp only []
    refine ⟨uniq_append _ _ hu hm, fun k' hk => find_append_other _ _ _ (fun h => hk h.symm), ?_, by simp, ?_⟩
    all_goals
      unfold find at *
      rw [List.find?_append, hm]
      simp
  | some c =>
    simp only []
    have hf : ∀ c : Child, ({ c with value := some v } : Child).kind = c.kind := fun _ => rfl
    refine ⟨?_, fun k' hk => ?_, ?_, ?_, by simp⟩
    · unfold Uniq; rw [kinds_modifyFirst _ _ hf]; exact hu
    · rw [find_modifyFirst _ _ _ hf, if_neg hk]
    · rw [find_modifyFirst _ _ _ hf, if_pos rfl, hm]; rfl
    · intro c' hc'
      rw [find_modifyFirst _ _ _ hf, if_pos rfl, hm]
      cases hc'
      exact ⟨rfl, kinds_modifyFirst _ _ hf _⟩

theorem withInfo_spec (e : Err) (hu : Uniq e) : Uniq (withInfo e) ∧ (∀ k', k' ≠ .info → find (withInfo e) k' = find e k') ∧ (find (withInfo e) .info).isSome ∧
    (find (withInfo e) .info).map (·.sub) = some (((find e .info).map (·.sub)).getD []) := by
  unfold withInfo
  cases hm : find e .info with
  | none =>
    simp only []
    refine ⟨uniq_append _ _ hu hm, fun k' hk => find_append_other _ _ _ (fun h => hk h.symm), ?_, ?_⟩
    all_goals
      unfold find at *
      rw [List.find?_append, hm]
      simp
  | some c => exact ⟨hu, fun _ _ => rfl, by simp [hm], by simp [hm]⟩

/-- A change of error-info through `withInfo`. -/
theorem info_spec (e : Err) (f : List (InfoKind × String) → List (InfoKind × String)) (hu : Uniq e) :
    Uniq (modifyFirst .info (fun c => { c with sub := f c.sub }) (withInfo e)) ∧
    (∀ k', k' ≠ .info → find (modifyFirst .info (fun c => { c with sub := f c.sub }) (withInfo e)) k' = find e k') ∧
    (find (modifyFirst .info (fun c => { c with sub := f c.sub }) (withInfo e)) .info).map (·.sub) = some (f (((find e .info).map (·.sub)).getD [])) := by
  obtain ⟨w1, w2, w3, w4⟩ := withInfo_spec e hu
  have hf : ∀ c : Child, ({ c with sub := f c.sub } : Child).kind = c.kind := fun _ => rfl
  refine ⟨?_, fun k' hk => ?_, ?_⟩
  · unfold Uniq; rw [kinds_modifyFirst _ _ hf]; exact w1
  · rw [find_modifyFirst _ _ _ hf, if_neg hk, w2 k' hk]
  · rw [find_modifyFirst _ _ _ hf, if_pos rfl]
    cases hw : find (withInfo e) .info with
    | none => rw [hw] at w3; simp at w3
    | some c =>
      rw [hw] at w4
      simp at w4
      simp [w4]

theorem lastSid_snoc (l : List (InfoKind × String)) (x : InfoKind × String) :
    lastSid (l ++ [x]) = (if x.1 = .sessionId then (lastSid l).eraseP (fun y => y.1 == .sessionId) else lastSid l) ++ [x] := by
  induction l with
  | nil => simp [lastSid]
  | cons y l ih =>
    by_cases hx : x.1 = .sessionId
    · rw [if_pos hx] at ih ⊢
      by_cases hy : y.1 = .sessionId
      · have h1 : lastSid (y :: l ++ [x]) = lastSid (l ++ [x]) := by simp [lastSid, hx, hy]
        rw [h1, ih, lastSid]
        split
        · rfl
        · rename_i h
          simp only [hy, true_and, Bool.not_eq_true] at h
          rw [List.eraseP_cons_of_pos (by simpa using hy)]
          congr 1
          have h2 : ∀ l : List (InfoKind × String), l.any (fun y => y.1 == .sessionId) = false → (lastSid l).any (fun y => y.1 == .sessionId) = false := by
            intro l
            induction l with
            | nil => intro; rfl
            | cons z l ih2 =>
              intro h
              simp only [List.any_cons, Bool.or_eq_false_iff] at h
              rw [lastSid, if_neg (by simp [h.2])]
              simp only [List.any_cons, Bool.or_eq_false_iff]
              exact ⟨h.1, ih2 h.2⟩
          have h3 := h2 l h
          exact List.eraseP_of_forall_not (fun a ha => by
            have := List.any_eq_false.mp h3 a ha
            simpa using this)
      · rw [List.cons_append, lastSid, if_neg (by simp [hy]), ih, lastSid, if_neg (by simp [hy]), List.eraseP_cons_of_neg (by simpa using hy)]
        rfl
    · rw [if_neg hx] at ih ⊢
      rw [List.cons_append, lastSid, lastSid]
      simp only [List.any_append, List.any_cons, List.any_nil, Bool.or_false]
      have : (x.1 == InfoKind.sessionId) = false := by simpa using hx
      rw [this, Bool.or_false]
      split
      · exact ih
      · rw [ih]; rfl

theorem infoChange_spec (e e' : Err) (h2 : ∀ k', k' ≠ .info → find e' k' = find e k') :
    value e' .typ = value e .typ ∧ value e' .tag = value e .tag ∧ getAppTag e' = getAppTag e ∧ getPath e' = getPath e ∧ getMsg e' = getMsg e := by
  simp [value, getAppTag, getPath, getMsg, h2]

/-- What one call does to the values read. -/
theorem applyCall_spec (e : Err) (hu : Uniq e) (c : ErrCall) :
    Uniq (applyCall e c) ∧ value (applyCall e c) .typ = value e .typ ∧ value (applyCall e c) .tag = value e .tag ∧
    getAppTag (applyCall e c) = (asAppTag c).or (getAppTag e) ∧ getPath (applyCall e c) = (asPath c).or (getPath e) ∧
    getMsg (applyCall e c) = (asMsg c).or (getMsg e) ∧
    infoOf (applyCall e c) = (match asInfo c with
      | none => infoOf e
      | some x => (if x.1 = .sessionId then (infoOf e).eraseP (fun y => y.1 == .sessionId) else infoOf e) ++ [x]) := by
  cases c with
  | appTag v =>
    obtain ⟨h1, h2⟩ := replaceLast_spec e .appTag v hu
    refine ⟨h1, ?_, ?_, ?_, ?_, ?_, ?_⟩ <;> simp [applyCall, setAppTag, value, getAppTag, getPath, getMsg, infoOf, h2, asAppTag, asPath, asMsg, asInfo]
  | path v =>
    obtain ⟨h1, h2⟩ := replaceLast_spec e .path v hu
    refine ⟨h1, ?_, ?_, ?_, ?_, ?_, ?_⟩ <;> simp [applyCall, setPath, value, getAppTag, getPath, getMsg, infoOf, h2, asAppTag, asPath, asMsg, asInfo]
  | msg v l =>
    obtain ⟨h1, h2, h3, -, -⟩ := setMsg_spec e v l hu
    refine ⟨h1, ?_, ?_, ?_, ?_, ?_, ?_⟩
    · simp [applyCall, value, h2]
    · simp [applyCall, value, h2]
    · simp [applyCall, value, getAppTag, h2, asAppTag]
    · simp [applyCall, value, getPath, h2, asPath]
    · simp only [applyCall, value, getMsg, asMsg]
      cases h : find (setMsg e v l) .message with
      | none => rw [h] at h3; simp at h3
      | some c => rw [h] at h3; simp at h3; simp [h3]
    · simp [applyCall, infoOf, h2, asInfo]
  | sid v =>
    obtain ⟨h1, h2, h3⟩ := info_spec e (fun s => s.eraseP (fun x => x.1 == .sessionId) ++ [(.sessionId, toString v)]) hu
    obtain ⟨i1, i2, i3, i4, i5⟩ := infoChange_spec e _ h2
    refine ⟨h1, i1, i2, i3, i4, i5, ?_⟩
    have h4 : infoOf (applyCall e (.sid v)) = _ := congrArg (Option.getD · []) h3
    rw [h4]
    rfl
  | badAttr v =>
    obtain ⟨h1, h2, h3⟩ := info_spec e (fun s => s ++ [(.badAttribute, v)]) hu
    obtain ⟨i1, i2, i3, i4, i5⟩ := infoChange_spec e _ h2
    refine ⟨h1, i1, i2, i3, i4, i5, ?_⟩
    have h4 : infoOf (applyCall e (.badAttr v)) = _ := congrArg (Option.getD · []) h3
    rw [h4]
    rfl
  | badElem v =>
    obtain ⟨h1, h2, h3⟩ := info_spec e (fun s => s ++ [(.badElement, v)]) hu
    obtain ⟨i1, i2, i3, i4, i5⟩ := infoChange_spec e _ h2
    refine ⟨h1, i1, i2, i3, i4, i5, ?_⟩
    have h4 : infoOf (applyCall e (.badElem v)) = _ := congrArg (Option.getD · []) h3
    rw [h4]
    rfl
  | badNs v =>
    obtain ⟨h1, h2, h3⟩ := info_spec e (fun s => s ++ [(.badNamespace, v)]) hu
    obtain ⟨i1, i2, i3, i4, i5⟩ := infoChange_spec e _ h2
    refine ⟨h1, i1, i2, i3, i4, i5, ?_⟩
    have h4 : infoOf (applyCall e (.badNs v)) = _ := congrArg (Option.getD · []) h3
    rw [h4]
    rfl
  | other v =>
    obtain ⟨h1, h2, h3⟩ := info_spec e (fun s => s ++ [(.other, v)]) hu
    obtain ⟨i1, i2, i3, i4, i5⟩ := infoChange_spec e _ h2
    refine ⟨h1, i1, i2, i3, i4, i5, ?_⟩
    have h4 : infoOf (applyCall e (.other v)) = _ := congrArg (Option.getD · []) h3
    rw [h4]
    rfl

theorem kinds_info (e : Err) (f : List (InfoKind × String) → List (InfoKind × String)) {P : List Kind → Prop} (h : P ((withInfo e).map (·.kind))) :
    P ((modifyFirst .info (fun c => { c with sub := f c.sub }) (withInfo e)).map (·.kind)) := by
  rw [kinds_modifyFirst .info (fun c => { c with sub := f c.sub }) (fun _ => rfl)]
  exact h

/-- The message child keeps its language, no child is removed, and only app-tag, path and error-info are added. -/
theorem applyCall_kinds (e : Err) (hu : Uniq e) (c : ErrCall) (m : Child) (hm : find e .message = some m) :
    (find (applyCall e c) .message).map (·.lang) = some m.lang ∧
    (asAppTag c = none → asPath c = none →
      (applyCall e c).map (·.kind) = e.map (·.kind) ∨ (.info ∉ e.map (·.kind) ∧ (applyCall e c).map (·.kind) = e.map (·.kind) ++ [.info])) := by
  have hw : (withInfo e).map (·.kind) = e.map (·.kind) ∨ (.info ∉ e.map (·.kind) ∧ (withInfo e).map (·.kind) = e.map (·.kind) ++ [.info]) := by
    unfold withInfo
    cases h : find e .info with
    | none => right; exact ⟨(find_none_iff e .info).mp h, by simp⟩
    | some c => left; rfl
  cases c with
  | appTag v =>
    obtain ⟨h1, h2⟩ := replaceLast_spec e .appTag v hu
    simp [applyCall, setAppTag, h2, hm, asAppTag]
  | path v =>
    obtain ⟨h1, h2⟩ := replaceLast_spec e .path v hu
    simp [applyCall, setPath, h2, hm, asPath]
  | msg v l =>
    obtain ⟨h1, h2, h3, h4, -⟩ := setMsg_spec e v l hu
    exact ⟨(h4 m hm).1, fun _ _ => .inl (h4 m hm).2⟩
  | sid v =>
    obtain ⟨h1, h2, h3⟩ := info_spec e (fun s => s.eraseP (fun x => x.1 == .sessionId) ++ [(.sessionId, toString v)]) hu
    refine ⟨?_, fun _ _ => ?_⟩
    · unfold applyCall setSid; rw [h2 .message (by decide), hm]; rfl
    · exact kinds_info (P := fun k => k = e.map (·.kind) ∨ (.info ∉ e.map (·.kind) ∧ k = e.map (·.kind) ++ [.info])) e (fun s => s.eraseP (fun x => x.1 == .sessionId) ++ [(.sessionId, toString v)]) hw
  | badAttr v =>
    obtain ⟨h1, h2, h3⟩ := info_spec e (fun s => s ++ [(.badAttribute, v)]) hu
    refine ⟨?_, fun _ _ => ?_⟩
    · simp only [applyCall, addInfo]; rw [h2 .message (by decide), hm]; rfl
    · exact kinds_info (P := fun k => k = e.map (·.kind) ∨ (.info ∉ e.map (·.kind) ∧ k = e.map (·.kind) ++ [.info])) e (fun s => s ++ [(.badAttribute, v)]) hw
  | badElem v =>
    obtain ⟨h1, h2, h3⟩ := info_spec e (fun s => s ++ [(.badElement, v)]) hu
    refine ⟨?_, fun _ _ => ?_⟩
    · simp only [applyCall, addInfo]; rw [h2 .message (by decide), hm]; rfl
    · exact kinds_info (P := fun k => k = e.map (·.kind) ∨ (.info ∉ e.map (·.kind) ∧ k = e.map (·.kind) ++ [.info])) e (fun s => s ++ [(.badElement, v)]) hw
  | badNs v =>
    obtain ⟨h1, h2, h3⟩ := info_spec e (fun s => s ++ [(.badNamespace, v)]) hu
    refine ⟨?_, fun _ _ => ?_⟩
    · simp only [applyCall, addInfo]; rw [h2 .message (by decide), hm]; rfl
    · exact kinds_info (P := fun k => k = e.map (·.kind) ∨ (.info ∉ e.map (·.kind) ∧ k = e.map (·.kind) ++ [.info])) e (fun s => s ++ [(.badNamespace, v)]) hw
  | other v =>
    obtain ⟨h1, h2, h3⟩ := info_spec e (fun s => s ++ [(.other, v)]) hu
    refine ⟨?_, fun _ _ => ?_⟩
    · simp only [applyCall, addOther]; rw [h2 .message (by decide), hm]; rfl
    · exact kinds_info (P := fun k => k = e.map (·.kind) ∨ (.info ∉ e.map (·.kind) ∧ k = e.map (·.kind) ++ [.info])) e (fun s => s ++ [(.other, v)]) hw

/-- The calls `nc_err` makes itself for error-info. -/
def initialCalls (tag : Tag) (a1 a2 : Option String) (sid : Nat) : List ErrCall :=
  match tag with
  | .missingAttr | .badAttr | .unknownAttr => (a1.map .badAttr).toList ++ (a2.map .badElem).toList
  | .missingElem | .badElem | .unknownElem => (a1.map .badElem).toList
  | .unknownNs => (a1.map .badElem).toList ++ (a2.map .badNs).toList
  | .lockDenied => [.sid sid]
  | _ => []

/-- The error before its error-info. -/
def base (tag : Tag) (t : Ty) : Err :=
  [{ kind := .typ, value := type2str t }, { kind := .tag, value := tag2str tag }, { kind := .severity, value := some "error" },
    { kind := .message, value := some (defaultMsg tag), lang := some "en" }]

theorem ncErr_eq (tag : Tag) (ty : Ty) (a1 a2 : Option String) (sid : Nat) :
    ncErr tag ty a1 a2 sid = (errType tag ty).map (fun t => applyCalls (base tag t) (initialCalls tag a1 a2 sid)) := by
  unfold ncErr
  cases h : errType tag ty with
  | none => rfl
  | some t => cases tag <;> cases a1 <;> cases a2 <;> rfl

theorem uniq_base (tag : Tag) (t : Ty) : Uniq (base tag t) := by
  simp [Uniq, base]

theorem applyCalls_spec (cs : List ErrCall) (e : Err) (hu : Uniq e) :
    Uniq (applyCalls e cs) ∧ value (applyCalls e cs) .typ = value e .typ ∧ value (applyCalls e cs) .tag = value e .tag ∧
    getAppTag (applyCalls e cs) = lastOf asAppTag cs (getAppTag e) ∧ getPath (applyCalls e cs) = lastOf asPath cs (getPath e) ∧
    getMsg (applyCalls e cs) = lastOf asMsg cs (getMsg e) ∧
    (∀ i, infoOf e = lastSid i → infoOf (applyCalls e cs) = lastSid (i ++ cs.filterMap asInfo)) := by
  induction cs generalizing e with
  | nil => simp [applyCalls, lastOf, hu]
  | cons c cs ih =>
    obtain ⟨a1, a2, a3, a4, a5, a6, a7⟩ := applyCall_spec e hu c
    obtain ⟨b1, b2, b3, b4, b5, b6, b7⟩ := ih (applyCall e c) a1
    have hl : ∀ (f : ErrCall → Option String) d, lastOf f cs ((f c).or d) = lastOf f (c :: cs) d := by
      intro f d
      unfold lastOf
      rw [List.filterMap_cons]
      cases hf : f c with
      | none => simp
      | some v =>
        simp only [List.getLast?_cons]
        cases (cs.filterMap f).getLast? <;> simp
    refine ⟨b1, b2.trans a2, b3.trans a3, ?_, ?_, ?_, ?_⟩
    · rw [← hl, ← a4]; exact b4
    · rw [← hl, ← a5]; exact b5
    · rw [← hl, ← a6]; exact b6
    · intro i hi
      show infoOf (applyCalls (applyCall e c) cs) = _
      rw [List.filterMap_cons]
      cases hx : asInfo c with
      | none =>
        rw [hx] at a7
        exact b7 i (a7.trans hi)
      | some x =>
        rw [hx] at a7
        simp only [] at a7
        have := b7 (i ++ [x]) (by rw [a7, lastSid_snoc, hi])
        simpa using this

theorem lang_calls (cs : List ErrCall) (e : Err) (l : Option String) (hu : Uniq e) (hm : (find e .message).map (·.lang) = some l) :
    (find (applyCalls e cs) .message).map (·.lang) = some l := by
  induction cs generalizing e with
  | nil => exact hm
  | cons c cs ih =>
    obtain ⟨m, h1, h2⟩ := Option.map_eq_some_iff.mp hm
    refine ih (applyCall e c) (applyCall_spec e hu c).1 ?_
    rw [(applyCall_kinds e hu c m h1).1, h2]

theorem kinds_calls (cs : List ErrCall) (e : Err) (hu : Uniq e) (hm : ∃ m, find e .message = some m)
    (hc : ∀ c ∈ cs, asAppTag c = none ∧ asPath c = none)
    (hk : e.map (·.kind) = [.typ, .tag, .severity, .message] ∨ e.map (·.kind) = [.typ, .tag, .severity, .message, .info]) :
    (applyCalls e cs).map (·.kind) = [.typ, .tag, .severity, .message] ∨ (applyCalls e cs).map (·.kind) = [.typ, .tag, .severity, .message, .info] := by
  induction cs generalizing e with
  | nil => exact hk
  | cons c cs ih =>
    obtain ⟨m, h1⟩ := hm
    obtain ⟨k1, k2⟩ := applyCall_kinds e hu c m h1
    obtain ⟨m', h2, -⟩ := Option.map_eq_some_iff.mp k1
    refine ih (applyCall e c) (applyCall_spec e hu c).1 ⟨m', h2⟩ (fun c h => hc c (by simp [h])) ?_
    rcases k2 (hc c (by simp)).1 (hc c (by simp)).2 with h | ⟨h, h'⟩
    · rw [h]; exact hk
    · rcases hk with hk | hk
      · right; rw [h', hk]; rfl
      · rw [hk] at h; simp at h

theorem uniq_filter (e : Err) (hu : Uniq e) (k : Kind) : (e.filter (fun c => c.kind == k)).length ≤ 1 := by
  induction e with
  | nil => simp
  | cons c e ih =>
    simp only [Uniq, List.map_cons, List.nodup_cons] at hu
    rw [List.filter_cons]
    split
    · rename_i h
      have : e.filter (fun c => c.kind == k) = [] := by
        rw [List.filter_eq_nil_iff]
        intro x hx hk
        apply hu.1
        rw [List.mem_map]
        exact ⟨x, hx, by simp at h hk; rw [h, hk]⟩
      simp [this]
    · exact ih hu.2

end Verif.NcErr
