import Verif.Lemmas.NcErr

namespace Verif.Props

open Verif.NcErr Verif.Spec

/-! ## C45, C62, C63: rpc-error objects -/

/-- C45, error types: an rpc-error made with one of the four types has a type that RFC 6241 lists for its tag, it carries that tag, and it is
refused exactly if the type is not listed. Missing: a type outside the four, see `err_type_false`. Full statement: the same without `hty`. -/
theorem err_type_partial (tag : Tag) (ty : Ty) (a1 a2 : Option String) (sid : Nat) (hty : ty ∈ [Ty.tran, .rpc, .prot, .app]) :
    (∀ e, ncErr tag ty a1 a2 sid = some e → getTag e = tag ∧ getType e ∈ rfcTypes tag ∧ (noTypeArg tag = false → getType e = ty)) ∧
    (ncErr tag ty a1 a2 sid = none ↔ if noTypeArg tag then False else ty ∉ rfcTypes tag) := by
  have hb : ∀ t, Uniq (base tag t) := uniq_base tag
  have hnone : errType tag ty = none ↔ if noTypeArg tag then False else ty ∉ rfcTypes tag := by
    revert hty; cases tag <;> cases ty <;> decide
  have hsome : ∀ t, errType tag ty = some t → str2type ((type2str t).getD "") ∈ rfcTypes tag ∧ str2tag ((tag2str tag).getD "") = tag ∧
      (noTypeArg tag = false → str2type ((type2str t).getD "") = ty) := by
    revert hty; cases tag <;> cases ty <;> simp [errType] <;> decide +kernel
  rw [ncErr_eq]
  refine ⟨fun e he => ?_, by rw [Option.map_eq_none_iff]; exact hnone⟩
  obtain ⟨t, ht, rfl⟩ := Option.map_eq_some_iff.mp he
  obtain ⟨-, h1, h2, -⟩ := applyCalls_spec (initialCalls tag a1 a2 sid) (base tag t) (hb t)
  obtain ⟨s1, s2, s3⟩ := hsome t ht
  have h3 : getType (applyCalls (base tag t) (initialCalls tag a1 a2 sid)) = str2type ((type2str t).getD "") := by
    unfold getType; rw [h1]; rfl
  have h4 : getTag (applyCalls (base tag t) (initialCalls tag a1 a2 sid)) = str2tag ((tag2str tag).getD "") := by
    unfold getTag; rw [h2]; rfl
  rw [h3, h4]
  exact ⟨s2, s1, s3⟩

example : (ncErr .missingElem .prot (some "name") none 0).map (fun e => (getType e, getTag e)) = some (.prot, .missingElem) ∧
    ncErr .missingElem .rpc (some "name") none 0 = none := by decide +kernel

/-- C45: the value 0 of the type is accepted for some tags; the error has an empty error-type. -/
theorem err_type_false : ∃ e, ncErr .opFailed .unknown none none 0 = some e ∧ getType e ∉ rfcTypes .opFailed ∧ value e .typ = some "" := by
  exact ⟨_, rfl, by decide +kernel, by decide +kernel⟩

/-- What `nc_err` puts into error-info. -/
def initialInfo (tag : Tag) (a1 a2 : Option String) (sid : Nat) : List (InfoKind × String) :=
  match tag with
  | .missingAttr | .badAttr | .unknownAttr => (a1.map ((InfoKind.badAttribute, ·))).toList ++ (a2.map ((InfoKind.badElement, ·))).toList
  | .missingElem | .badElem | .unknownElem => (a1.map ((InfoKind.badElement, ·))).toList
  | .unknownNs => (a1.map ((InfoKind.badElement, ·))).toList ++ (a2.map ((InfoKind.badNamespace, ·))).toList
  | .lockDenied => [(.sessionId, toString sid)]
  | _ => []

/-- C45, setters: after any calls on any rpc-error, type and tag are those it was made with, app-tag, path and message are those set last, and error-info has
everything that was added in the order of the calls, except earlier session-ids. -/
theorem err_setters (tag : Tag) (ty : Ty) (a1 a2 : Option String) (sid : Nat) (e : Err) (h : ncErr tag ty a1 a2 sid = some e) (cs : List ErrCall) :
    getType (applyCalls e cs) = getType e ∧ getTag (applyCalls e cs) = tag ∧
    getAppTag (applyCalls e cs) = lastOf asAppTag cs none ∧ getPath (applyCalls e cs) = lastOf asPath cs none ∧
    getMsg (applyCalls e cs) = lastOf asMsg cs (some (rfcMsg tag)) ∧
    infoOf (applyCalls e cs) = lastSid (initialInfo tag a1 a2 sid ++ cs.filterMap asInfo) := by
  rw [ncErr_eq] at h
  obtain ⟨t, ht, rfl⟩ := Option.map_eq_some_iff.mp h
  have h0 : ∀ cs, applyCalls (applyCalls (base tag t) (initialCalls tag a1 a2 sid)) cs = applyCalls (base tag t) (initialCalls tag a1 a2 sid ++ cs) :=
    fun cs => by simp [applyCalls, List.foldl_append]
  obtain ⟨-, p1, -⟩ := applyCalls_spec (initialCalls tag a1 a2 sid) (base tag t) (uniq_base tag t)
  obtain ⟨-, q1, q2, q3, q4, q5, q6⟩ := applyCalls_spec (initialCalls tag a1 a2 sid ++ cs) (base tag t) (uniq_base tag t)
  have hi : ∀ f : ErrCall → Option String, (f = asAppTag ∨ f = asPath ∨ f = asMsg) → (initialCalls tag a1 a2 sid).filterMap f = [] := by
    rintro f (rfl | rfl | rfl) <;> cases tag <;> cases a1 <;> cases a2 <;> rfl
  have hi2 : (initialCalls tag a1 a2 sid).filterMap asInfo = initialInfo tag a1 a2 sid := by
    cases tag <;> cases a1 <;> cases a2 <;> rfl
  rw [h0]
  refine ⟨?_, ?_, ?_, ?_, ?_, ?_⟩
  · unfold getType; rw [q1, p1]
  · unfold getTag; rw [q2]
    show str2tag ((tag2str tag).getD "") = tag
    revert ht
    cases tag <;> simp only [errType] <;> intro _ <;> first | decide +kernel | contradiction
  · rw [q3]; unfold lastOf; rw [List.filterMap_append, hi _ (by simp)]; rfl
  · rw [q4]; unfold lastOf; rw [List.filterMap_append, hi _ (by simp)]; rfl
  · rw [q5]; unfold lastOf; rw [List.filterMap_append, hi _ (by simp)]; cases tag <;> rfl
  · have := q6 [] rfl
    rwa [List.filterMap_append, hi2] at this

example : (ncErr .lockDenied .unknown none none 4).map (fun e => applyCalls e [.msg "m" none, .appTag "a", .badElem "x", .sid 7, .appTag "b"]) = some
    [⟨.typ, some "protocol", none, []⟩, ⟨.tag, some "lock-denied", none, []⟩, ⟨.severity, some "error", none, []⟩, ⟨.message, some "m", some "en", []⟩,
      ⟨.info, none, none, [(.badElement, "x"), (.sessionId, "7")]⟩, ⟨.appTag, some "b", none, []⟩] := by decide +kernel

/-- Position in the sequence of rpc-error in RFC 6241, appendix B. -/
def rank : Kind → Nat
  | .typ => 0 | .tag => 1 | .severity => 2 | .appTag => 3 | .path => 4 | .message => 5 | .info => 6

theorem order_of_kinds {e : Err} (h : e.map (·.kind) = [.typ, .tag, .severity, .message] ∨ e.map (·.kind) = [.typ, .tag, .severity, .message, .info]) :
    (e.map (fun c => rank c.kind)).Pairwise (· < ·) := by
  have : e.map (fun c => rank c.kind) = (e.map (·.kind)).map rank := by simp
  rw [this]
  rcases h with h | h <;> rw [h] <;> decide

/-- C62, partial: without app-tag and path the children are in the order of the XML schema, each at most once. Missing: these two calls, see
`err_order_false`. Full statement: the same without `hc`. -/
theorem err_order_partial (tag : Tag) (ty : Ty) (a1 a2 : Option String) (sid : Nat) (e : Err) (h : ncErr tag ty a1 a2 sid = some e) (cs : List ErrCall)
    (hc : ∀ c ∈ cs, asAppTag c = none ∧ asPath c = none) : ((applyCalls e cs).map (fun c => rank c.kind)).Pairwise (· < ·) := by
  rw [ncErr_eq] at h
  obtain ⟨t, ht, rfl⟩ := Option.map_eq_some_iff.mp h
  have h0 : applyCalls (applyCalls (base tag t) (initialCalls tag a1 a2 sid)) cs = applyCalls (base tag t) (initialCalls tag a1 a2 sid ++ cs) := by
    simp [applyCalls, List.foldl_append]
  have hc' : ∀ c ∈ initialCalls tag a1 a2 sid ++ cs, asAppTag c = none ∧ asPath c = none := by
    intro c hm
    rcases List.mem_append.mp hm with hm | hm
    · revert hm; cases tag <;> cases a1 <;> cases a2 <;> simp [initialCalls] <;> intro hm <;> (try rcases hm with rfl | rfl) <;> (try subst hm) <;> exact ⟨rfl, rfl⟩
    · exact hc c hm
  rw [h0]
  exact order_of_kinds (kinds_calls _ _ (uniq_base tag t) ⟨_, rfl⟩ hc' (.inl rfl))

example : (ncErr .badAttr .rpc (some "message-id") (some "rpc") 0).map (fun e => (applyCalls e [.msg "m" none, .sid 3]).map (fun c => rank c.kind)) =
    some [0, 1, 2, 5, 6] := by decide +kernel

/-- C62: error-app-tag and error-path are put behind error-message. -/
theorem err_order_false : ∃ e, ncErr .opFailed .app none none 0 = some e ∧
    ¬ ((applyCalls e [.appTag "a"]).map (fun c => rank c.kind)).Pairwise (· < ·) ∧ ¬ ((applyCalls e [.path "/p"]).map (fun c => rank c.kind)).Pairwise (· < ·) :=
  ⟨_, rfl, by decide +kernel, by decide +kernel⟩

/-- Each child occurs at most once, whatever is called. -/
theorem err_children_once (tag : Tag) (ty : Ty) (a1 a2 : Option String) (sid : Nat) (e : Err) (h : ncErr tag ty a1 a2 sid = some e) (cs : List ErrCall) (k : Kind) :
    ((applyCalls e cs).filter (fun c => c.kind == k)).length ≤ 1 := by
  rw [ncErr_eq] at h
  obtain ⟨t, ht, rfl⟩ := Option.map_eq_some_iff.mp h
  have h1 := (applyCalls_spec (initialCalls tag a1 a2 sid) _ (uniq_base tag t)).1
  have h2 := (applyCalls_spec cs _ h1).1
  exact uniq_filter _ h2 k

example : (ncErr .badAttr .rpc (some "message-id") (some "rpc") 0).map (fun e => (applyCalls e [.path "a", .appTag "b", .path "c", .sid 3]).map (·.kind)) =
    some [.typ, .tag, .severity, .message, .info, .appTag, .path] := by decide +kernel

/-- The language the last call gave for the message. -/
def lastLang (cs : List ErrCall) (d : Option String) : Option String :=
  (cs.filterMap (fun c => match c with | .msg _ l => some l | _ => none)).getLast?.getD d

/-- C63, partial: the language is right if all messages are set in English. Missing: other languages, see `err_lang_false`. Full statement: the same without `hl`. -/
theorem err_lang_partial (tag : Tag) (ty : Ty) (a1 a2 : Option String) (sid : Nat) (e : Err) (h : ncErr tag ty a1 a2 sid = some e) (cs : List ErrCall)
    (hl : ∀ v l, ErrCall.msg v l ∈ cs → l = some "en") : (find (applyCalls e cs) .message).map (·.lang) = some (lastLang cs (some "en")) := by
  have hen : (find (applyCalls e cs) .message).map (·.lang) = some (some "en") := by
    rw [ncErr_eq] at h
    obtain ⟨t, ht, rfl⟩ := Option.map_eq_some_iff.mp h
    have h0 : applyCalls (applyCalls (base tag t) (initialCalls tag a1 a2 sid)) cs = applyCalls (base tag t) (initialCalls tag a1 a2 sid ++ cs) := by
      simp [applyCalls, List.foldl_append]
    rw [h0]
    exact lang_calls _ _ _ (uniq_base tag t) rfl
  rw [hen]
  congr 1
  unfold lastLang
  cases hq : (cs.filterMap (fun c => match c with | .msg _ l => some l | _ => none)).getLast? with
  | none => rfl
  | some l =>
    have := List.mem_of_getLast? hq
    obtain ⟨c, hc, hc'⟩ := List.mem_filterMap.mp this
    cases c <;> simp at hc'
    subst hc'
    exact (hl _ _ hc).symm

example : (ncErr .opFailed .app none none 0).map (fun e => (find (applyCalls e [.appTag "x", .msg "No." (some "en")]) .message).map (·.lang)) = some (some (some "en")) := by
  decide +kernel

/-- C63: a message set in another language is still marked as English. -/
theorem err_lang_false : ∃ e, ncErr .opFailed .app none none 0 = some e ∧
    (find (applyCalls e [.msg "Ne." (some "cs")]) .message).map (fun c => (c.value, c.lang)) = some (some "Ne.", some "en") :=
  ⟨_, rfl, by decide +kernel⟩

end Verif.Props
