import Verif.Lemmas.Hello

/-!
# Properties C10-C14, C52: hello messages and capabilities

Spec side: `Verif/Spec/Hello.lean`.
-/

namespace Verif.Props

open Verif.Hello Verif.Spec

/-- One capability element with the given text. -/
def cap (s : String) : CapElem := ⟨true, s.toList⟩

/-! ## C10 -/

/-- **C10 (part).**  For every proper capability list: a peer advertising base:1.1 gets version 1 (NETCONF 1.1);
one advertising base:1.0 is never refused.  If moreover no capability is an incomplete beginning of a base URI,
the version is 1.1 exactly if base:1.1 was advertised, 1.0 exactly if only base:1.0 was, and
the peer is refused exactly if neither was.  Improper lists are refused.
Missing: peers whose list contains a proper prefix of a base URI, see `version_negotiation_false`. -/
theorem version_negotiation_partial (es : List CapElem) :
    (¬ ProperList es → parseCpblts es = none) ∧
    (ProperList es →
      (Advertises es rfcBase11 → ∃ caps, parseCpblts es = some (1, caps)) ∧
      (Advertises es rfcBase10 → parseCpblts es ≠ none) ∧
      (NoTruncatedBase es →
        ((∃ caps, parseCpblts es = some (1, caps)) ↔ Advertises es rfcBase11) ∧
        ((∃ caps, parseCpblts es = some (0, caps)) ↔ Advertises es rfcBase10 ∧ ¬ Advertises es rfcBase11) ∧
        (parseCpblts es = none ↔ ¬ Advertises es rfcBase10 ∧ ¬ Advertises es rfcBase11))) := by
  rw [rfcBase11_eq, rfcBase10_eq]
  constructor
  · intro hn
    unfold parseCpblts
    cases h : parseLoop es none [] with
    | none => rfl
    | some r => exact absurd (parseLoop_some_proper _ _ _ _ h) hn
  · intro hp
    rw [parseCpblts_eq es hp]
    have hf := foldl_ver (es.map (fun e => trim e.value)) none (Or.inl rfl)
    rw [mem_trim_iff base11_solid, mem_trim_iff base10_solid] at hf
    obtain ⟨hr, h11, h10⟩ := hf
    refine ⟨fun h => ⟨_, by rw [h11 (Or.inr h)]; rfl⟩, fun h => by simpa using h10 (Or.inr h), fun hnt => ?_⟩
    have hx := foldl_ver_exact (es.map (fun e => trim e.value)) none (Or.inl rfl) (by
      intro t ht hpre
      obtain ⟨e, he, rfl⟩ := List.mem_map.mp ht
      rcases hnt e he (trim e.value) (trim_padded _) hpre with h | h | h
      · exact Or.inl h
      · exact Or.inr h
      · exact absurd h (trim_ne_nil (hp e he).2))
    rw [mem_trim_iff base11_solid, mem_trim_iff base10_solid] at hx
    obtain ⟨hx1, hx0⟩ := hx
    generalize (es.map (fun e => trim e.value)).foldl verStep none = V at *
    rcases hr with rfl | rfl | rfl
    · have hn10 : ¬ Advertises es base10 := fun h => h10 (Or.inr h) rfl
      have hn11 : ¬ Advertises es base11 := fun h => by simpa using h11 (Or.inr h)
      simp [hn10, hn11]
    · have hn11 : ¬ Advertises es base11 := fun h => by simpa using h11 (Or.inr h)
      have hy : Advertises es base10 := by
        rcases hx0 (by simp) with h | h | h
        · exact absurd rfl h
        · exact h
        · exact absurd h hn11
      simp [hn11, hy]
    · have hy : Advertises es base11 := by
        rcases hx1 rfl with h | h
        · cases h
        · exact h
      simp [hy]

/-- Not vacuous: 1.1 is chosen for a padded base:1.1 among other capabilities, and such lists are proper. -/
example : (parseCpblts [cap "urn:x", cap "urn:ietf:params:netconf:base:1.0", cap "\n urn:ietf:params:netconf:base:1.1 "]).map (·.1)
    = some 1 := by decide +kernel

/-- C10 does not hold in general: the code compares only as many characters as the peer sent, so a
peer whose only capability is `urn:` is accepted, and repeating it selects NETCONF 1.1. -/
theorem version_negotiation_false :
    (¬ Advertises [cap "urn:"] rfcBase10 ∧ ¬ Advertises [cap "urn:"] rfcBase11 ∧ ∃ caps, parseCpblts [cap "urn:"] = some (0, caps)) ∧
    (¬ Advertises [cap "urn:", cap "urn:"] rfcBase11 ∧ ∃ caps, parseCpblts [cap "urn:", cap "urn:"] = some (1, caps)) := by
  rw [rfcBase11_eq, rfcBase10_eq]
  refine ⟨⟨?_, ?_, ⟨["urn:".toList], by decide +kernel⟩⟩, ⟨?_, ⟨["urn:".toList, "urn:".toList], by decide +kernel⟩⟩⟩ <;>
  first
  | rw [← mem_trim_iff base11_solid]; decide +kernel
  | rw [← mem_trim_iff base10_solid]; decide +kernel

/-! ## C11 -/

/-- What the client loop guarantees. -/
theorem clientLoop_spec (cs : List Child) (st r : ClientSt) (h : clientLoop cs st = some r) :
    (∀ c ∈ cs.filter (·.inBase), c.name = sSessionId ∨ c.name = sCapabilities) ∧
    (st.id = r.id ∧ (cs.filter (·.inBase)).filter (fun c => decide (c.name = sSessionId)) = [] ∨
      (1 ≤ r.id ∧ r.id ≤ 4294967295 ∧
        ∃ c, ((cs.filter (·.inBase)).filter (fun c => decide (c.name = sSessionId))).getLast? = some c ∧ Denotes c.value r.id)) ∧
    (r.flag = st.flag ∧ r.version = st.version ∧ r.cpblts = st.cpblts ∧
        (cs.filter (·.inBase)).filter (fun c => decide (c.name = sCapabilities)) = [] ∨
      st.flag = false ∧ ∃ c, (cs.filter (·.inBase)).filter (fun c => decide (c.name = sCapabilities)) = [c] ∧
        parseCpblts c.caps = some (r.version, r.cpblts)) := by
  induction cs generalizing st with
  | nil =>
    simp only [clientLoop, Option.some.injEq] at h
    subst h; simp
  | cons c cs ih =>
    unfold clientLoop at h
    split at h
    · rename_i hb
      have hb' : c.inBase = false := by simpa using hb
      rw [show (c :: cs).filter (·.inBase) = cs.filter (·.inBase) by simp [hb']]
      exact ih st h
    · rename_i hb
      have hb' : c.inBase = true := by simpa using hb
      rw [show (c :: cs).filter (·.inBase) = c :: cs.filter (·.inBase) by simp [hb']]
      have hsc : sSessionId ≠ sCapabilities := by decide
      split at h
      · rename_i hname
        split at h
        · cases h
        · split at h
          · cases h
          · rename_i id hid
            split at h
            · cases h
            · rename_i hrange
              obtain ⟨h1, h2, h3⟩ := ih _ h
              have hd := strtollFull_pos hid hrange
              refine ⟨?_, ?_, ?_⟩
              · intro x hx
                rcases List.mem_cons.mp hx with rfl | hx
                · exact Or.inl hname
                · exact h1 x hx
              · right
                rw [List.filter_cons_of_pos (by simpa using hname)]
                rcases h2 with ⟨e1, e2⟩ | ⟨e1, e2, x, e3, e4⟩
                · simp only at e1
                  refine ⟨by omega, by omega, c, by rw [e2]; rfl, ?_⟩
                  rw [← e1]; exact hd
                · refine ⟨e1, e2, x, ?_, e4⟩
                  rw [List.getLast?_cons, e3]; rfl
              · rw [List.filter_cons_of_neg (by simp [hname, hsc])]
                exact h3
      · rename_i hname
        split at h
        · cases h
        · rename_i hcap
          have hcap' : c.name = sCapabilities := by simpa using hcap
          split at h
          · cases h
          · rename_i hfl
            have hfl' : st.flag = false := by simpa using hfl
            split at h
            · cases h
            · rename_i v caps hpc
              obtain ⟨h1, h2, h3⟩ := ih _ h
              refine ⟨?_, ?_, ?_⟩
              · intro x hx
                rcases List.mem_cons.mp hx with rfl | hx
                · exact Or.inr hcap'
                · exact h1 x hx
              · rw [List.filter_cons_of_neg (by simp [hname])]
                exact h2
              · right
                refine ⟨hfl', c, ?_, ?_⟩
                · rw [List.filter_cons_of_pos (by simpa using hcap')]
                  rcases h3 with ⟨-, -, -, e⟩ | ⟨e, -⟩
                  · rw [e]
                  · simp at e
                · rcases h3 with ⟨-, e1, e2, -⟩ | ⟨e, -⟩
                  · simp only at e1 e2; rw [hpc, e1, e2]
                  · simp at e

/-- **C11 (part), acceptance.**  A hello the client accepts has only session-id and capabilities elements in the base
namespace, at least one session-id, at most one capability list; the session id used is in 1..4294967295 and is the
number written in the last session-id element (the only one, if there is one); if there is a capability list it is proper
and determines version and stored capabilities.
Missing: `exactly one` for both elements, see `client_hello_false`. -/
theorem client_hello_partial (d : Doc) (st : ClientSt) (h : clientHello d = some st) :
    OnlyKnown d ∧ 1 ≤ st.id ∧ st.id ≤ 4294967295 ∧
    (∃ c, (sessionIds d).getLast? = some c ∧ Denotes c.value st.id) ∧
    (capLists d = [] ∨ ∃ c, capLists d = [c] ∧ parseCpblts c.caps = some (st.version, st.cpblts)) := by
  unfold clientHello at h
  split at h
  · cases h
  · rename_i r hr
    split at h
    · cases h
    · rename_i hid
      injection h with h; subst h
      obtain ⟨h1, h2, h3⟩ := clientLoop_spec _ _ _ hr
      rcases h2 with ⟨e, -⟩ | ⟨e1, e2, e3⟩
      · exact absurd e.symm hid
      · refine ⟨h1, e1, e2, e3, ?_⟩
        rcases h3 with ⟨-, -, -, e⟩ | ⟨-, c, e1, e2⟩
        · exact Or.inl e
        · exact Or.inr ⟨c, e1, e2⟩

/-- A session-id child. -/
def sid (s : String) : Child := ⟨true, nSessionId, s.toList, []⟩

/-- A capabilities child. -/
def capList (l : List CapElem) : Child := ⟨true, nCapabilities, [], l⟩

example : clientHello ⟨nHello, [sid " 17", ⟨false, [], [], []⟩, capList [cap "urn:ietf:params:netconf:base:1.1"]]⟩ =
    some ⟨17, 1, true, [rfcBase11]⟩ := by decide +kernel

/-- C11 does not hold in full: a hello with two session-id elements is accepted, so is one without a
capability list (as NETCONF 1.0). -/
theorem client_hello_false :
    (∃ d st, clientHello d = some st ∧ (sessionIds d).length = 2) ∧
    (∃ d st, clientHello d = some st ∧ capLists d = [] ∧ st.version = 0 ∧ st.cpblts = []) :=
  ⟨⟨⟨nHello, [sid "1", sid "2", capList [cap "urn:ietf:params:netconf:base:1.1"]]⟩, ⟨2, 1, true, [rfcBase11]⟩,
      by decide +kernel, by decide +kernel⟩,
   ⟨⟨nHello, [sid "1"]⟩, ⟨1, 0, false, []⟩, by decide +kernel, by decide +kernel, rfl, rfl⟩⟩

theorem clientLoop_none (cs : List Child) (hk : ∀ c ∈ cs, c.inBase = false) (st : ClientSt) :
    clientLoop cs st = some st := by
  induction cs with
  | nil => rfl
  | cons c cs ih => simp [clientLoop, hk c (by simp), ih (fun x hx => hk x (by simp [hx]))]

theorem clientLoop_append (a b : List Child) (st : ClientSt) :
    clientLoop (a ++ b) st = (clientLoop a st).bind (clientLoop b) := by
  induction a generalizing st with
  | nil => rfl
  | cons c a ih =>
    simp only [List.cons_append, clientLoop]
    split
    · exact ih st
    · split
      · split
        · rfl
        · split
          · rfl
          · split
            · rfl
            · exact ih _
      · split
        · rfl
        · split
          · rfl
          · split
            · rfl
            · exact ih _

/-- **C11, completeness.**  A hello with exactly one session-id (a decimal number in range) and one good capability list,
in any order and among elements of other namespaces, is accepted, and the session gets exactly that
id, version and capabilities. -/
theorem client_hello_accepts (root : Text) (pre mid post : List Child) (sidC capC : Child) (n v : Nat) (caps : List Text)
    (hpre : ∀ c ∈ pre ++ mid ++ post, c.inBase = false)
    (hs : sidC.inBase = true ∧ sidC.name = nSessionId ∧ Denotes sidC.value n) (hn : 1 ≤ n ∧ n ≤ 4294967295)
    (hc : capC.inBase = true ∧ capC.name = nCapabilities ∧ parseCpblts capC.caps = some (v, caps)) :
    clientHello ⟨root, pre ++ [sidC] ++ mid ++ [capC] ++ post⟩ = some ⟨n, v, true, caps⟩ ∧
    clientHello ⟨root, pre ++ [capC] ++ mid ++ [sidC] ++ post⟩ = some ⟨n, v, true, caps⟩ := by
  rw [nSessionId_eq] at hs
  rw [nCapabilities_eq] at hc
  have hne : sidC.value ≠ [] := by
    obtain ⟨ws, ds, -, hne, -, ht, -⟩ := hs.2.2
    rcases ht with ht | ht <;> rw [ht] <;> simp [hne]
  have hsc : sCapabilities ≠ sSessionId := by decide
  have hlt : ¬ ((n : Int) < 1 ∨ (n : Int) > 4294967295) := by omega
  have h1 : ∀ st, clientLoop [sidC] st = some { st with id := n } := by
    intro st
    simp [clientLoop, hs.1, hs.2.1, hne, strtollFull_of_denotes hs.2.2 hn.2]
    omega
  have h2 : ∀ st : ClientSt, st.flag = false → clientLoop [capC] st = some { st with flag := true, version := v, cpblts := caps } := by
    intro st hf
    simp [clientLoop, hc.1, hc.2.1, hf, hc.2.2, hsc]
  have hp : ∀ st, clientLoop pre st = some st := clientLoop_none _ (fun c h => hpre c (by simp [h]))
  have hm : ∀ st, clientLoop mid st = some st := clientLoop_none _ (fun c h => hpre c (by simp [h]))
  have hq : ∀ st, clientLoop post st = some st := clientLoop_none _ (fun c h => hpre c (by simp [h]))
  have hn0 : n ≠ 0 := by omega
  constructor
  · unfold clientHello
    simp only [clientLoop_append, hp, h1, hm, hq, h2, Option.bind_some, hn0, ↓reduceIte]
  · unfold clientHello
    simp only [clientLoop_append, hp, h1, hm, hq, h2, Option.bind_some, hn0, ↓reduceIte]

/-- The hypotheses of completeness can be met. -/
example : Denotes "00042".toList 42 ∧ parseCpblts [cap "urn:ietf:params:netconf:base:1.0"] = some (0, [rfcBase10]) :=
  ⟨⟨[], "00042".toList, by simp, by decide, by decide, Or.inl rfl, by decide⟩, by decide +kernel⟩

/-! ## C12 -/

theorem serverLoop_spec (cs : List Child) (v : Nat) (f : Bool) (r) (h : serverLoop cs v f = some r) :
    (∀ c ∈ cs.filter (·.inBase), c.name = sCapabilities) ∧
    (cs.filter (·.inBase) = [] ∧ r = (v, f) ∨
      f = false ∧ ∃ c caps, cs.filter (·.inBase) = [c] ∧ parseCpblts c.caps = some (r.1, caps)) := by
  induction cs generalizing v f with
  | nil => simp only [serverLoop, Option.some.injEq] at h; subst h; simp
  | cons c cs ih =>
    unfold serverLoop at h
    split at h
    · rename_i hb
      rw [show (c :: cs).filter (·.inBase) = cs.filter (·.inBase) by simp [show c.inBase = false by simpa using hb]]
      exact ih _ _ h
    · rename_i hb
      rw [show (c :: cs).filter (·.inBase) = c :: cs.filter (·.inBase) by simp [show c.inBase = true by simpa using hb]]
      split at h
      · cases h
      · rename_i hn
        have hn' : c.name = sCapabilities := by simpa using hn
        split at h
        · cases h
        · rename_i hf
          split at h
          · cases h
          · rename_i v' caps hpc
            obtain ⟨h1, h2⟩ := ih _ _ h
            refine ⟨?_, Or.inr ⟨by simpa using hf, c, caps, ?_, ?_⟩⟩
            · intro x hx
              rcases List.mem_cons.mp hx with rfl | hx
              · exact hn'
              · exact h1 x hx
            · rcases h2 with ⟨e, -⟩ | ⟨e, -⟩
              · rw [e]
              · cases e
            · rcases h2 with ⟨-, e⟩ | ⟨e, -⟩
              · rw [hpc, e]
              · cases e

/-- **C12 (part).**  A document the server accepts as hello carries no session-id and no other foreign element of the base
namespace, at most one capability list, and if there is one, it is proper and gives the version
(hence by C10 a base capability or a beginning of one); a document with exactly one good list and nothing else is accepted.
Missing: that there is a list and that the root is `hello`, see `server_hello_false`. -/
theorem server_hello_partial (d : Doc) :
    (∀ v, serverHello d = some v →
      (∀ c ∈ baseChildren d, c.name = nCapabilities) ∧ sessionIds d = [] ∧
      (baseChildren d = [] ∧ v = 0 ∨ ∃ c caps, baseChildren d = [c] ∧ capLists d = [c] ∧ parseCpblts c.caps = some (v, caps))) ∧
    (∀ c v caps, baseChildren d = [c] → c.name = nCapabilities → parseCpblts c.caps = some (v, caps) → serverHello d = some v) := by
  rw [nCapabilities_eq]
  constructor
  · intro v h
    unfold serverHello at h
    rw [Option.map_eq_some_iff] at h
    obtain ⟨r, hr, rfl⟩ := h
    obtain ⟨h1, h2⟩ := serverLoop_spec _ _ _ _ hr
    have hsc : ¬ sCapabilities = sSessionId := by decide
    refine ⟨h1, ?_, ?_⟩
    · unfold sessionIds; rw [nSessionId_eq]
      rw [List.filter_eq_nil_iff]
      intro c hc
      rw [h1 c hc]; simp [hsc]
    · rcases h2 with ⟨e, rfl⟩ | ⟨-, c, caps, e1, e2⟩
      · exact Or.inl ⟨e, rfl⟩
      · refine Or.inr ⟨c, caps, e1, ?_, e2⟩
        unfold capLists baseChildren; rw [nCapabilities_eq]
        rw [e1]
        have := h1 c (by rw [e1]; simp)
        simp [this]
  · intro c v caps hb hn hp
    have key : ∀ (cs : List Child) (v0 : Nat) (f : Bool), (cs.filter (·.inBase) = [] → serverLoop cs v0 f = some (v0, f)) ∧
        (cs.filter (·.inBase) = [c] → f = false → serverLoop cs v0 f = some (v, true)) := by
      intro cs
      induction cs with
      | nil => simp [serverLoop]
      | cons x cs ih =>
        intro v0 f
        by_cases hx : x.inBase = true
        · simp only [List.filter_cons, hx, ↓reduceIte, reduceCtorEq, false_implies, List.cons.injEq, true_and, and_imp]
          rintro rfl he rfl
          simp [serverLoop, hx, hn, hp, (ih v true).1 he]
        · simp only [List.filter_cons, hx, serverLoop]
          exact ih v0 f
    unfold serverHello
    rw [(key d.children 0 false).2 hb rfl]
    rfl

example : serverHello ⟨nHello, [⟨false, [], [], []⟩, capList [cap "urn:ietf:params:netconf:base:1.1"]]⟩ = some 1 ∧
    serverHello ⟨nHello, [capList [cap "urn:ietf:params:netconf:base:1.1"], sid "3"]⟩ = none := by decide +kernel

/-- C12 does not hold in full: a document that is no hello and has no capability list at all is accepted. -/
theorem server_hello_false :
    (∃ d, serverHello d = some 0 ∧ capLists d = [] ∧ d.root = nHello) ∧
    (∃ d, serverHello d = some 1 ∧ d.root ≠ nHello) :=
  ⟨⟨⟨nHello, []⟩, by decide +kernel⟩,
   ⟨⟨"rpc".toList, [capList [cap "urn:ietf:params:netconf:base:1.1"]]⟩, by decide +kernel⟩⟩

/-! ## C13 -/

/-- A choice of additional modes. -/
structure Modes where
  all : Bool
  tag : Bool
  trim : Bool
  explicit : Bool
  deriving DecidableEq

/-- The argument `also_supported` documented for a choice of modes: the bit OR of their constants
(src/session_server.h:167-181). -/
def Modes.arg (s : Modes) : Nat :=
  (if s.all then 1 else 0) ||| (if s.tag then 2 else 0) ||| (if s.trim then 3 else 0) ||| (if s.explicit then 4 else 0)

/-- The modes chosen, in the order of the constants (report-all 1, report-all-tagged 2, trim 3, explicit 4). -/
def Modes.names (s : Modes) : List Nat :=
  (if s.all then [1] else []) ++ (if s.tag then [2] else []) ++ (if s.trim then [3] else []) ++ (if s.explicit then [4] else [])

/-- **C13 (part).**  For every basic mode the API accepts and every choice `s` of additional modes: unless none is chosen, the
capability is advertised with the right basic mode and names at least the chosen modes; it names
exactly them if and only if of report-all, report-all-tagged and trim either none or all three were chosen.
Missing: exactness for the other choices and the case without additional modes, see `with_defaults_false`. -/
theorem with_defaults_partial (basic : Nat) (hb : basic = 1 ∨ basic = 3 ∨ basic = 4) (s : Modes)
    (hs : s.names ≠ []) :
    wdAccept basic s.arg = true ∧
    ∃ l, wdAdvertised basic s.arg = some (some basic, l) ∧ (∀ m ∈ s.names, m ∈ l) ∧
      (l = s.names ↔ (s.all = s.tag ∧ s.tag = s.trim)) := by
  obtain ⟨a, t, r, e⟩ := s
  rcases hb with rfl | rfl | rfl <;> cases a <;> cases t <;> cases r <;> cases e <;>
    first
    | exact absurd rfl hs
    | exact ⟨by decide, _, rfl, by decide, by decide⟩

/-- C13: the API takes basic modes other than report-all-tagged, and additional modes if there is at least one that it knows. -/
theorem with_defaults_args (basic also : Nat) : wdAccept basic also = true ↔ basic ≠ 0 ∧ basic ≠ 2 ∧ (also = 0 ∨ also % 8 ≠ 0) := by
  have h : also &&& (wdAll ||| wdAllTag ||| wdTrim ||| wdExplicit) = also % 8 := by
    have : (wdAll ||| wdAllTag ||| wdTrim ||| wdExplicit) = 2 ^ 3 - 1 := by decide
    rw [this, Nat.and_two_pow_sub_one_eq_mod]
  unfold wdAccept
  rw [h]
  by_cases a : basic = 0 <;> by_cases b : basic = 2 <;> by_cases c : also = 0 <;> by_cases d : also % 8 = 0 <;> simp [wdAllTag, a, b, c, d]

example : wdAccept 2 1 = false ∧ wdAccept 1 8 = false ∧ wdAccept 1 9 = true := by decide

/-- C13 does not hold: without additional modes nothing is advertised although a basic mode is configured, and
configuring just report-all advertises trim as well. -/
theorem with_defaults_false :
    (wdAccept 1 0 = true ∧ wdAdvertised 1 0 = none) ∧
    (wdAccept 4 1 = true ∧ wdAdvertised 4 1 = some (some 4, [1, 3])) ∧
    (wdAdvertised 4 3 = some (some 4, [1, 2, 3])) := by decide

/-! ## C14 -/

theorem advertised_inv (xs : List Text) (l : List Text) (hl : (l.map uri).Nodup) :
    ((xs.foldl addCpblt l).map uri).Nodup ∧ l <+: xs.foldl addCpblt l ∧
    (∀ x ∈ xs, uri x ∈ (xs.foldl addCpblt l).map uri) ∧ ∀ y ∈ xs.foldl addCpblt l, y ∈ l ∨ y ∈ xs := by
  induction xs generalizing l with
  | nil => simp [hl]
  | cons x xs ih =>
    obtain ⟨a1, a2, a3, a4⟩ := addCpblt_spec l x
    obtain ⟨b1, b2, b3, b4⟩ := ih (addCpblt l x) (a1 hl)
    refine ⟨b1, a2.trans b2, ?_, ?_⟩
    · intro z hz
      rcases List.mem_cons.mp hz with rfl | hz
      · obtain ⟨w, hw, he⟩ := List.mem_map.mp a3
        exact List.mem_map.mpr ⟨w, b2.subset hw, he⟩
      · exact b3 z hz
    · intro y hy
      rcases b4 y hy with h | h
      · rcases a4 y h with h | h
        · exact Or.inl h
        · exact Or.inr (by simp [h])
      · exact Or.inr (by simp [h])

/-- **C14.**  For every sequence of offered capabilities: no two advertised entries have the same URI, the list starts
with the two base capabilities, every offered URI is advertised, and nothing else is.  An entry whose
URI is offered for the first time is advertised verbatim. -/
theorem capability_list (offered : List Text) :
    ((advertised offered).map uri).Nodup ∧ [rfcBase10, rfcBase11] <+: advertised offered ∧
    (∀ x ∈ offered, uri x ∈ (advertised offered).map uri) ∧
    (∀ y ∈ advertised offered, y = rfcBase10 ∨ y = rfcBase11 ∨ y ∈ offered) ∧
    (∀ pre x post, offered = pre ++ x :: post → uri x ∉ ([rfcBase10, rfcBase11] ++ pre).map uri → x ∈ advertised offered) := by
  rw [rfcBase11_eq, rfcBase10_eq]
  have hb : ([base10, base11].map uri).Nodup := by decide +kernel
  obtain ⟨h1, h2, h3, h4⟩ := advertised_inv offered [base10, base11] hb
  refine ⟨h1, h2, h3, ?_, ?_⟩
  · intro y hy
    rcases h4 y hy with h | h
    · simp only [List.mem_cons, List.not_mem_nil, or_false] at h
      rcases h with h | h <;> simp [h]
    · exact Or.inr (Or.inr h)
  · rintro pre x post rfl hx
    unfold advertised
    rw [List.foldl_append, List.foldl_cons]
    obtain ⟨p1, p2, p3, p4⟩ := advertised_inv pre [base10, base11] hb
    have hnew : addCpblt (pre.foldl addCpblt [base10, base11]) x = pre.foldl addCpblt [base10, base11] ++ [x] := by
      unfold addCpblt
      rw [if_neg]
      intro hc
      rw [List.any_eq_true] at hc
      obtain ⟨y, hy, he⟩ := hc
      rw [samePresent_iff] at he
      apply hx
      rw [← he]
      apply List.mem_map_of_mem
      rw [List.mem_append]
      exact p4 y hy
    obtain ⟨a1, -, -, -⟩ := addCpblt_spec (pre.foldl addCpblt [base10, base11]) x
    obtain ⟨-, q2, -, -⟩ := advertised_inv post _ (a1 p1)
    apply q2.subset
    rw [hnew]; simp

/-- Not vacuous: a module offered twice with different parameters is listed once. -/
example : advertised ["urn:m?module=m".toList, "urn:m?module=m&revision=1".toList, "urn:mm".toList] =
    [rfcBase10, rfcBase11, "urn:m?module=m".toList, "urn:mm".toList] := by decide +kernel

/-! ## C52 -/

theorem featLoop_bound (lens : List Nat) (n hi : Nat) (first : Bool) :
    (n ≤ 4085 → hi ≤ 4095 → n ≤ hi → (featLoop lens n hi first).2 ≤ 4095 ∧ (featLoop lens n hi first).1 ≤ (featLoop lens n hi first).2) ∧
    (first = false → hi ≤ 4095 → n ≤ hi → (featLoop lens n hi first).2 ≤ 4095 ∧ (featLoop lens n hi first).1 ≤ (featLoop lens n hi first).2) := by
  induction lens generalizing n hi first with
  | nil => exact ⟨fun _ h h' => ⟨h, h'⟩, fun _ h h' => ⟨h, h'⟩⟩
  | cons l ls ih =>
    unfold featLoop
    cases first with
    | true =>
      refine ⟨fun hn hhi hle => ?_, fun h => by cases h⟩
      simp only [↓reduceIte]
      split
      · dsimp only; omega
      · exact (ih _ _ false).2 rfl (by omega) (by omega)
    | false =>
      have : hi ≤ 4095 → n ≤ hi → (featLoop (l :: ls) n hi false).2 ≤ 4095 ∧ (featLoop (l :: ls) n hi false).1 ≤ (featLoop (l :: ls) n hi false).2 := by
        intro hhi hle
        unfold featLoop
        simp only [Bool.false_eq_true, ↓reduceIte]
        split
        · dsimp only; omega
        · exact (ih _ _ false).2 rfl (by omega) (by omega)
      unfold featLoop at this
      exact ⟨fun _ => this, fun _ => this⟩

theorem devLoop_bound (lens : List Nat) (n hi : Nat) (first : Bool) (hhi : hi ≤ 4095) :
    (devLoop lens n hi first).2 ≤ 4095 := by
  induction lens generalizing n hi first with
  | nil => exact hhi
  | cons l ls ih =>
    unfold devLoop
    split
    · exact hhi
    · rename_i h
      apply ih
      split <;> omega

theorem featLoop_sum (lens : List Nat) (n hi : Nat) (first : Bool) :
    (featLoop lens n hi first).1 ≤ n + 10 + (lens.map (· + 1)).sum ∧ (first = false → (featLoop lens n hi first).1 ≤ n + (lens.map (· + 1)).sum) := by
  induction lens generalizing n hi first with
  | nil => simp [featLoop]
  | cons l ls ih =>
    have h := fun n hi => (ih n hi false).2 rfl
    unfold featLoop
    simp only [List.map_cons, List.sum_cons]
    cases first
    · simp only [Bool.false_eq_true, ↓reduceIte, forall_const]
      split
      · dsimp only; omega
      · have := h (n + 1 + l) (max (max hi n) (n + 1 + l)); omega
    · simp only [↓reduceIte]
      split
      · refine ⟨?_, fun h => by cases h⟩; dsimp only; omega
      · refine ⟨?_, fun h => by cases h⟩
        have := h (n + 10 + l) (max (max hi (n + 10)) (n + 10 + l)); omega

/-- **C52 (part).**  Building the capability of one module stays inside the 4096 byte buffer (string of at most 4095 bytes) if the
namespace/name/revision part is at most 4085 bytes and either there are no deviations or that
part together with all the feature names (each counted with its separator) leaves room for `&deviations=`.
Missing: the general case, see `capability_buffer_false`. -/
theorem capability_buffer_partial (prefixLen : Nat) (feats : List Nat) (devs : Option (List Nat)) (hp : prefixLen ≤ 4085)
    (hd : devs = none ∨ prefixLen + 10 + (feats.map (· + 1)).sum + 12 ≤ 4095) : moduleCapHi prefixLen feats devs ≤ 4095 := by
  have hf := (featLoop_bound feats prefixLen prefixLen true).1 hp (by omega) (Nat.le_refl _)
  have hs := (featLoop_sum feats prefixLen prefixLen true).1
  unfold moduleCapHi
  dsimp only
  cases devs with
  | none => exact hf.1
  | some ds =>
    rcases hd with hd | hd
    · cases hd
    · exact devLoop_bound _ _ _ _ (by omega)

example : moduleCapHi 100 [20, 30] (some [10, 10]) = 194 := by decide

/-- C52 does not hold: the `sprintf` of namespace, name and revision is not bounded, and after enough feature names
the text `&deviations=` is appended without any check. -/
theorem capability_buffer_false :
    moduleCapHi 4096 [] none > 4095 ∧ moduleCapHi 140 (List.replicate 40 100) (some [3]) > 4095 := by decide +kernel

end Verif.Props
