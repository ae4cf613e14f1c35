/-
Properties of the functions that create and edit configuration data: C109 to C113.
-/
import Verif.Spec.ConfUtil

namespace Verif.Props

open Verif.ConfUtil

/-! ## C109: deleting takes back what was added -/

/-- All the paths of a function can be read and need no more names than it has. -/
def opsRead (ops : List Op) (n : Nat) : Bool :=
  ops.all (fun o => match o.place with | none => false | some P => decide (holes P ≤ n))

/-- The calls that create nodes do so within an entry. -/
def opsInside (ops : List Op) (E : Place) : Bool :=
  ops.all (fun o => match o with
    | .create f _ => (match place f with | none => false | some P => E.isPrefixOf P)
    | _ => true)

/-- Some call creates a node of the entry and no later one deletes it. -/
def opsMake (E : Place) : List Op → Bool
  | [] => false
  | o :: os =>
    (match o with
     | .create f s => !s.isOpt && (match place f with | none => false | some P => E.isPrefixOf P) &&
        os.all (fun o => match o with
          | .create _ _ => true
          | .delete f | .checkDelete f => match place f with | none => false | some P => apart P E)
     | _ => false) || opsMake E os

/-- What is checked of a pair. -/
def pairFits (x : Pair) : Bool :=
  (match x.del.ops with | [.delete f] => place f == some x.entry | _ => false) &&
  decide (2 ≤ x.entry.length) && decide (holes x.entry ≤ x.arity) &&
  opsRead x.add.ops x.arity && opsInside x.add.ops x.entry && opsMake x.entry x.add.ops

theorem pairs_fit : pairs.all pairFits = true := by decide +kernel

theorem opsRead_cons {o : Op} {os : List Op} {n : Nat} (h : opsRead (o :: os) n = true) :
    (∃ P, o.place = some P ∧ holes P ≤ n) ∧ opsRead os n = true := by
  simp only [opsRead, List.all_cons, Bool.and_eq_true] at h
  refine ⟨?_, h.2⟩
  have := h.1
  split at this
  · cases this
  · next P hP => exact ⟨P, hP, by simpa using this⟩

/-- What was added is in the entry, has no value or was there before. -/
theorem run_inside {S : Schema} {names : List Text} {vals : List (Option Text)} {E : Place}
    (hp : ∀ t ∈ names, Plain t) (ops : List Op) (cfg cfg' : Config)
    (hr : opsRead ops names.length = true) (hi : opsInside ops E = true)
    (h : run S names vals ops cfg = (true, cfg')) (n : Node) (hn : n ∈ cfg'.getD []) :
    n ∈ cfg.getD [] ∨ E.at names <+: n.path ∨ (n.value = none ∧ n.path <+: E.at names) := by
  induction ops generalizing cfg with
  | nil => simp only [run, Prod.mk.injEq, true_and] at h; subst h; exact .inl hn
  | cons o os ih =>
    obtain ⟨c, h1, h2⟩ := run_cons_ok h
    obtain ⟨⟨P, hP, hl⟩, hr'⟩ := opsRead_cons hr
    have hi' : opsInside os E = true := by
      simp only [opsInside, List.all_cons, Bool.and_eq_true] at hi ⊢; exact hi.2
    rcases ih c hr' hi' h2 with hn | hn
    · rcases step_ok hP ⟨hl, hp⟩ h1 with ⟨f, s, v, t', rfl, _, rfl, hnp, _⟩ | ⟨_, _, _, _, _, rfl⟩ |
        ⟨t, _, rfl, _, rfl, _⟩ | ⟨_, t, _, rfl, _, rfl⟩
      · rcases newPath_mem hnp n hn with hn | ⟨h3, h4⟩
        · exact .inl hn
        · have hE : E <+: P := by
            simp only [opsInside, List.all_cons, Bool.and_eq_true] at hi
            have := hi.1
            rw [show place f = some P from hP] at this
            exact List.isPrefixOf_iff_prefix.mp this
          have hE' := at_prefix hE names
          by_cases hle : (E.at names).length ≤ n.path.length
          · exact .inr (.inl (List.prefix_of_prefix_length_le hE' h3 hle))
          · refine .inr (.inr ⟨?_, List.prefix_of_prefix_length_le h3 hE' (by omega)⟩)
            rcases h4 with h4 | h4
            · exact h4
            · exfalso
              rw [h4] at hle
              exact hle hE'.length_le
      · exact .inl hn
      · exact .inl ((mem_freeTree _ _ _).mp hn).1
      · exact .inl hn
    · exact .inr hn

/-- After the calls of a function the entry is there. -/
theorem run_makes {S : Schema} {names : List Text} {vals : List (Option Text)} {E : Place}
    (hp : ∀ t ∈ names, Plain t) (hE : E ≠ []) (ops : List Op) (cfg cfg' : Config)
    (hr : opsRead ops names.length = true) (hm : opsMake E ops = true)
    (h : run S names vals ops cfg = (true, cfg')) :
    ∃ t, cfg' = some t ∧ found t (E.at names) = true ∧ found t top = true := by
  have keep : ∀ (os : List Op) (t : List Node), opsRead os names.length = true →
      os.all (fun o => match o with
        | .create _ _ => true
        | .delete f | .checkDelete f => match place f with | none => false | some P => apart P E) = true →
      found t (E.at names) = true → found t top = true →
      ∀ cfg', run S names vals os (some t) = (true, cfg') →
      ∃ t', cfg' = some t' ∧ found t' (E.at names) = true ∧ found t' top = true := by
    intro os
    induction os with
    | nil =>
      intro t _ _ hf ht cfg' h
      simp only [run, Prod.mk.injEq, true_and] at h
      exact ⟨t, h.symm, hf, ht⟩
    | cons o os ih =>
      intro t hr ha hf ht cfg' h
      obtain ⟨c, h1, h2⟩ := run_cons_ok h
      obtain ⟨⟨P, hP, hl⟩, hr'⟩ := opsRead_cons hr
      rw [List.all_cons, Bool.and_eq_true] at ha
      rcases step_ok hP ⟨hl, hp⟩ h1 with ⟨f, s, v, t', rfl, _, rfl, hnp, htt⟩ | ⟨_, _, _, _, _, rfl⟩ |
        ⟨t1, ⟨f, ho⟩, he, _, rfl, htt⟩ | ⟨_, t1, _, he, _, rfl⟩
      · exact ih t' hr' ha.2 ((newPath_found hnp _).mpr (.inl hf)) htt cfg' h2
      · exact ih t hr' ha.2 hf ht cfg' h2
      · cases he
        have hap : apart P E = true := by
          have := ha.1
          rcases ho with rfl | rfl <;> (dsimp only at this; rw [show place f = some P from hP] at this; exact this)
        exact ih _ hr' ha.2 ((found_freeTree _ _ _).mpr ⟨hf, apart_at hap names⟩) htt cfg' h2
      · cases he
        exact ih t hr' ha.2 hf ht cfg' h2
  induction ops generalizing cfg with
  | nil => simp [opsMake] at hm
  | cons o os ih =>
    obtain ⟨c, h1, h2⟩ := run_cons_ok h
    obtain ⟨⟨P, hP, hl⟩, hr'⟩ := opsRead_cons hr
    simp only [opsMake, Bool.or_eq_true] at hm
    rcases hm with hm | hm
    · cases o with
      | create f s =>
        simp only [Bool.and_eq_true] at hm
        obtain ⟨⟨ho, hi⟩, ha⟩ := hm
        rw [show place f = some P from hP] at hi
        have hpre := at_prefix (List.isPrefixOf_iff_prefix.mp hi) names
        rcases step_ok hP ⟨hl, hp⟩ h1 with ⟨_, _, v, t', _, _, rfl, hnp, htt⟩ | ⟨_, _, he, hopt, _⟩ |
          ⟨_, ⟨_, he⟩, _⟩ | ⟨_, _, he, _⟩
        · exact keep os t' hr' ha ((newPath_found hnp _).mpr (.inr ⟨at_ne_nil hE names, hpre⟩)) htt cfg' h2
        · cases he; rw [hopt] at ho; cases ho
        · rcases he with he | he <;> cases he
        · cases he
      | delete f => simp at hm
      | checkDelete f => simp at hm
    · exact ih c hr' hm h2

/-- **C109, part.** For every pair of functions but one, all names without apostrophes, all values and
every configuration: if adding succeeds, deleting succeeds; the entry is gone, nothing else is
deleted, and what is left was there before, except for containers around the entry that have no
value.

Missing of the full claim: names with apostrophes (`del_other_entry_false`) and the reference of an
SSH user to the truststore (`del_truststore_ref_false`). -/
theorem del_undoes_add_partial (x : Pair) (hx : x ∈ pairs) (S : Schema) (names : List Text) (vals : List (Option Text))
    (hn : names.length = x.arity) (hp : ∀ t ∈ names, Plain t) (cfg cfg1 : Config)
    (h : call S x.add names vals cfg = (true, cfg1)) :
    ∃ t1 t2, cfg1 = some t1 ∧ call S x.del names vals cfg1 = (true, some t2) ∧
      (∃ n ∈ t1, n.path = x.entry.at names) ∧
      (∀ n, n ∈ t2 ↔ n ∈ t1 ∧ ¬ x.entry.at names <+: n.path) ∧
      (∀ n ∈ t2, n ∈ cfg.getD [] ∨ (n.value = none ∧ n.path <+: x.entry.at names)) := by
  have hf := List.all_eq_true.mp pairs_fit x hx
  simp only [pairFits, Bool.and_eq_true, decide_eq_true_eq] at hf
  obtain ⟨⟨⟨⟨⟨hd, h2⟩, hh⟩, hr⟩, hi⟩, hm⟩ := hf
  rw [← hn] at hr hh
  have hE : x.entry ≠ [] := by intro he; rw [he] at h2; simp at h2
  obtain ⟨t1, rfl, h3, h4⟩ := run_makes hp hE x.add.ops cfg cfg1 hr hm h
  refine ⟨t1, freeTree t1 (x.entry.at names), rfl, ?_, (found_iff _ _).mp h3, mem_freeTree t1 _, ?_⟩
  · split at hd
    · next f hops =>
      have hpf : place f = some x.entry := by simpa using hd
      have hpar := parse_fill f x.entry names hpf hh hp
      have htop : found (freeTree t1 (x.entry.at names)) top = true :=
        (found_freeTree _ _ _).mpr ⟨h4, not_prefix_top h2 names⟩
      unfold call
      rw [hops]
      simp only [run, step, delete, hpar, h3, if_true, setTop_found htop]
    · cases hd
  · intro n hn2
    rw [mem_freeTree] at hn2
    rcases run_inside hp x.add.ops cfg (some t1) hr hi h n hn2.1 with h5 | h5 | h5
    · exact .inl h5
    · exact absurd h5 hn2.2
    · exact .inr h5

/-- A schema that takes everything, for examples. -/
def anySchema : Schema := ⟨fun _ _ => true, fun _ => true⟩

/-- Adding a listening endpoint to an empty configuration, then deleting it. -/
example : (call anySchema add_address_port_ssh [t!"main"] [some t!"::1", some t!"830"] none).2.map (·.length) = some 8 := by decide +kernel
example : (call anySchema del_endpt [t!"main"] [] (call anySchema add_address_port_ssh [t!"main"] [some t!"::1", some t!"830"] none).2).2.map
      (fun t => t.map (fun n => n.path.length)) = some [1, 2, 3] := by decide +kernel

/-- **C109 is false** for the reference of an SSH user to the truststore: the path of the deleting
function lacks the node `endpoints`, so whatever the configuration (which has no endpoints directly
under `listen`, as the YANG module says), it does not delete what was added. -/
theorem del_truststore_ref_false (S : Schema) (e u v : Text) (he : Plain e) (hu : Plain u) (cfg cfg1 : Config)
    (h : call S add_ssh_truststore_ref [e, u] [some v] cfg = (true, cfg1))
    (hlist : ∀ n ∈ cfg.getD [], ¬ [t!"ietf-netconf-server:netconf-server", t!"listen", t!"endpoint"] <+: n.path.map Seg.name) :
    call S del_ssh_truststore_ref [e, u] [] cfg1 = (false, cfg1) ∧
      ∃ t1, cfg1 = some t1 ∧ ∃ n ∈ t1, n.path = (userKeys lis 1 ++ [truststoreRef]).at [e, u] := by
  have hp : ∀ t ∈ [e, u], Plain t := by simp [he, hu]
  have hr : opsRead add_ssh_truststore_ref.ops ([e, u] : List Text).length = true := by
    show opsRead add_ssh_truststore_ref.ops 2 = true
    decide +kernel
  obtain ⟨t1, rfl, h3, _⟩ := run_makes (E := userKeys lis 1 ++ [truststoreRef]) hp (by simp) _ cfg cfg1 hr (by decide +kernel) h
  refine ⟨?_, t1, rfl, (found_iff _ _).mp h3⟩
  have hpl : place t!"/ietf-netconf-server:netconf-server/listen/endpoint[name='%s']/ssh/ssh-server-parameters/client-authentication/users/user[name='%s']/public-keys/central-truststore-reference"
      = some (srv ++ [node t!"listen", inst t!"endpoint" t!"name" 0, node t!"ssh", node t!"ssh-server-parameters", node t!"client-authentication",
        node t!"users", inst t!"user" t!"name" 1, node t!"public-keys", truststoreRef]) := by decide +kernel
  have hpar := parse_fill _ _ [e, u] hpl (by show holes _ ≤ 2; decide) hp
  have hnf : found t1 (Place.at (srv ++ [node t!"listen", inst t!"endpoint" t!"name" 0, node t!"ssh", node t!"ssh-server-parameters", node t!"client-authentication",
        node t!"users", inst t!"user" t!"name" 1, node t!"public-keys", truststoreRef]) [e, u]) = false := by
    rw [Bool.eq_false_iff]
    intro hf
    obtain ⟨n, hn, hnp⟩ := (found_iff _ _).mp hf
    rcases run_inside (E := userKeys lis 1) hp add_ssh_truststore_ref.ops cfg (some t1) hr (by decide +kernel) h n hn with h5 | h5 | ⟨_, h5⟩
    · refine hlist n h5 ?_
      rw [hnp, at_names, ← List.isPrefixOf_iff_prefix]
      decide
    · rw [hnp] at h5
      have := h5.map Seg.name
      rw [at_names, at_names] at this
      revert this
      rw [← List.isPrefixOf_iff_prefix]
      decide
    · rw [hnp] at h5
      have := h5.map Seg.name
      rw [at_names, at_names] at this
      revert this
      rw [← List.isPrefixOf_iff_prefix]
      decide
  unfold call
  simp only [del_ssh_truststore_ref, run, step, delete, hpar, hnf]
  rfl

/-- Both halves of the witness happen. -/
example : (call anySchema add_ssh_truststore_ref [t!"main", t!"bob"] [some t!"bag"] none).1 = true ∧
    (call anySchema del_ssh_truststore_ref [t!"main", t!"bob"] []
      (call anySchema add_ssh_truststore_ref [t!"main", t!"bob"] [some t!"bag"] none).2).1 = false := by decide +kernel

/-! ## C110: the names select exactly one entry -/

/-- Only nodes of the entry `p` differ, except for containers around it that were made. -/
def SameOutside (p : Path) (t t' : List Node) : Prop :=
  (∀ n ∈ t, ¬ p <+: n.path → n ∈ t') ∧
  (∀ n ∈ t', ¬ p <+: n.path → n ∈ t ∨ (n.value = none ∧ n.path <+: p))

/-- What is checked of a function and its entry. -/
def scopeFits (x : Fn × Nat × Place) : Bool :=
  decide (2 ≤ x.2.2.length) && x.1.ops.all (fun o => match o.place with
    | none => false
    | some P => x.2.2.isPrefixOf P && decide (holes P ≤ x.2.1))

theorem scopes_fit : scopes.all scopeFits = true := by decide +kernel

theorem sameOutside_refl (p : Path) (t : List Node) : SameOutside p t t :=
  ⟨fun _ h _ => h, fun _ h _ => .inl h⟩

theorem sameOutside_trans {p : Path} {a b c : List Node} (h : SameOutside p a b) (h' : SameOutside p b c) :
    SameOutside p a c := by
  refine ⟨fun n hn hp => h'.1 n (h.1 n hn hp) hp, fun n hn hp => ?_⟩
  rcases h'.2 n hn hp with h1 | h1
  · exact h.2 n h1 hp
  · exact .inr h1

theorem newPath_outside {S : Schema} {t t' : List Node} {p q : Path} {v : Option Text} (hpq : p <+: q)
    (h : newPath S t q v = some t') : SameOutside p t t' := by
  refine ⟨fun n hn hp => newPath_keep h n hn (fun he => hp (he ▸ hpq)), fun n hn hp => ?_⟩
  rcases newPath_mem h n hn with h1 | ⟨h1, h2⟩
  · exact .inl h1
  · refine .inr ⟨?_, ?_⟩
    · rcases h2 with h2 | h2
      · exact h2
      · exact absurd (h2 ▸ hpq) hp
    · by_cases hle : p.length ≤ n.path.length
      · exact absurd (List.prefix_of_prefix_length_le hpq h1 hle) hp
      · exact List.prefix_of_prefix_length_le h1 hpq (by omega)

theorem freeTree_outside {t : List Node} {p q : Path} (hpq : p <+: q) : SameOutside p t (freeTree t q) :=
  ⟨fun _ hn hp => (mem_freeTree _ _ _).mpr ⟨hn, fun h => hp (hpq.trans h)⟩, fun _ hn _ => .inl ((mem_freeTree _ _ _).mp hn).1⟩

/-- One call changes nothing outside the entry, whether it succeeds or not. -/
theorem step_outside (S : Schema) (names : List Text) (vals : List (Option Text)) (t : List Node) (o : Op) (P E : Place)
    (hP : o.place = some P) (hE : E <+: P) (h2 : 2 ≤ E.length) (hl : holes P ≤ names.length) (hp : ∀ x ∈ names, Plain x)
    (ht : found t top = true) :
    ∃ b t', step S names vals (some t) o = (b, some t') ∧ found t' top = true ∧ SameOutside (E.at names) t t' := by
  have hpar := op_parse hP ⟨hl, hp⟩
  have hpre := at_prefix hE names
  have hP2 : 2 ≤ P.length := Nat.le_trans h2 hE.length_le
  have hnt := not_prefix_top hP2 names
  have hfree : found (freeTree t (P.at names)) top = true := (found_freeTree _ _ _).mpr ⟨ht, hnt⟩
  cases o with
  | create f s =>
    rw [step_create]
    split
    · next v _ =>
      unfold create
      rw [show parse (fill f names) = some (P.at names) from hpar]
      simp only [Option.getD_some]
      split
      · exact ⟨_, t, rfl, ht, sameOutside_refl _ _⟩
      · next t' hnp =>
        have htt : found t' top = true := (newPath_found hnp _).mpr (.inl ht)
        exact ⟨_, t', setTop_found htt, htt, newPath_outside hpre hnp⟩
    · exact ⟨_, t, rfl, ht, sameOutside_refl _ _⟩
  | delete f =>
    simp only [step, delete]
    rw [show parse (fill f names) = some (P.at names) from hpar]
    simp only
    split
    · exact ⟨_, _, setTop_found hfree, hfree, freeTree_outside hpre⟩
    · exact ⟨_, t, rfl, ht, sameOutside_refl _ _⟩
  | checkDelete f =>
    simp only [step, checkDelete]
    rw [show parse (fill f names) = some (P.at names) from hpar]
    simp only
    split
    · exact ⟨_, t, rfl, ht, sameOutside_refl _ _⟩
    · split
      · exact ⟨_, _, setTop_found hfree, hfree, freeTree_outside hpre⟩
      · exact ⟨_, t, rfl, ht, sameOutside_refl _ _⟩

/-- **C110, part.** For every function but one, all names without apostrophes and all values, in a
configuration with the server's container: the configuration is kept whether the function succeeds
or not, and outside the entry with these names nothing is deleted, changed or given a value.

Missing of the full claim: names with apostrophes (`del_other_entry_false`). -/
theorem edit_frame_partial (x : Fn × Nat × Place) (hx : x ∈ scopes) (S : Schema) (names : List Text) (vals : List (Option Text))
    (hn : names.length = x.2.1) (hp : ∀ t ∈ names, Plain t) (t : List Node) (ht : ∃ n ∈ t, n.path = top) :
    ∃ b t', call S x.1 names vals (some t) = (b, some t') ∧ (∃ n ∈ t', n.path = top) ∧ SameOutside (x.2.2.at names) t t' := by
  have hf := List.all_eq_true.mp scopes_fit x hx
  simp only [scopeFits, Bool.and_eq_true, decide_eq_true_eq] at hf
  obtain ⟨h2, hall⟩ := hf
  have key : ∀ (ops : List Op), ops.all (fun o => match o.place with
      | none => false
      | some P => x.2.2.isPrefixOf P && decide (holes P ≤ x.2.1)) = true → ∀ t, found t top = true →
      ∃ b t', run S names vals ops (some t) = (b, some t') ∧ found t' top = true ∧ SameOutside (x.2.2.at names) t t' := by
    intro ops
    induction ops with
    | nil => exact fun _ t ht => ⟨_, t, rfl, ht, sameOutside_refl _ _⟩
    | cons o os ih =>
      intro ha t ht
      rw [List.all_cons, Bool.and_eq_true] at ha
      have h1 := ha.1
      split at h1
      · cases h1
      · next P hP =>
        simp only [Bool.and_eq_true, decide_eq_true_eq] at h1
        obtain ⟨b, t1, hs, ht1, hsame⟩ := step_outside S names vals t o P x.2.2 hP (List.isPrefixOf_iff_prefix.mp h1.1) h2 (by omega) hp ht
        simp only [run, hs]
        cases b with
        | false => exact ⟨false, t1, rfl, ht1, hsame⟩
        | true =>
          obtain ⟨b, t2, h3, h4, h5⟩ := ih ha.2 t1 ht1
          exact ⟨b, t2, h3, h4, sameOutside_trans hsame h5⟩
  obtain ⟨b, t', h3, h4, h5⟩ := key x.1.ops hall t ((found_iff _ _).mpr ht)
  exact ⟨b, t', h3, (found_iff _ _).mp h4, h5⟩

/-- A Call Home client `a` with the endpoints `b` and `c`. -/
def twoEndpts : List Node :=
  (List.range 5).map (fun i => ⟨(che.at [t!"a", t!"b"]).take (i + 1), none⟩) ++ [⟨che.at [t!"a", t!"c"], none⟩]

/-- Deleting one of them leaves the other. -/
example : call anySchema del_ch_endpt [t!"a", t!"b"] [] (some twoEndpts) = (true, some (twoEndpts.eraseIdx 4)) := by decide +kernel

/-- **C110 is false** for names with apostrophes: deleting the client with the name
`a']/endpoints/endpoint[name='b` deletes the endpoint `b` of the client `a`, though no client has that name. -/
theorem del_other_entry_false : ∃ (name : Text) (t : List Node),
    (∀ n ∈ t, ∀ s ∈ n.path, s.name = t!"netconf-client" → s.keys ≠ [(t!"name", name)]) ∧
    (∀ S : Schema, ∃ t', call S del_ch_client [name] [] (some t) = (true, some t') ∧
      ∃ n ∈ t, n ∉ t' ∧ n.path = che.at [t!"a", t!"b"]) := by
  refine ⟨t!"a']/endpoints/endpoint[name='b", twoEndpts, by decide +kernel, ?_⟩
  intro S
  refine ⟨twoEndpts.eraseIdx 4, ?_, ⟨che.at [t!"a", t!"b"], none⟩, by decide +kernel, by decide +kernel, rfl⟩
  have : ∀ S cfg, call S del_ch_client [t!"a']/endpoints/endpoint[name='b"] [] cfg = call anySchema del_ch_client [t!"a']/endpoints/endpoint[name='b"] [] cfg :=
    fun _ _ => rfl
  rw [this]
  decide +kernel

/-! ## C111: one case of a choice -/

/-- The calls of a function delete the case `E`, and none of the later ones creates it. -/
def opsClear (E : Place) : List Op → Bool
  | [] => false
  | o :: os =>
    (match o with
     | .checkDelete f => place f == some E && os.all (fun o => match o with
        | .create f _ => (match place f with | none => false | some P => apart E P)
        | _ => true)
     | _ => false) || opsClear E os

/-- What is checked of a choice. -/
def choiceFits (x : Choice) : Bool :=
  opsRead x.fn.ops x.arity && x.own != [] && opsMake x.own x.fn.ops && x.others.all (fun E => E != [] && opsClear E x.fn.ops)

theorem choices_fit : choices.all choiceFits = true := by decide +kernel

theorem step_closed {S : Schema} {names : List Text} {vals : List (Option Text)} {cfg cfg' : Config} {o : Op} {P : Place}
    (hP : o.place = some P) (hg : Good names P) (h : step S names vals cfg o = (true, cfg')) (hc : Closed (cfg.getD [])) :
    Closed (cfg'.getD []) := by
  rcases step_ok hP hg h with ⟨_, _, v, t', _, _, rfl, hnp, _⟩ | ⟨_, _, _, _, _, rfl⟩ | ⟨t, _, rfl, _, rfl, _⟩ | ⟨_, t, _, rfl, _, rfl⟩
  · exact newPath_closed hnp hc
  · exact hc
  · exact freeTree_closed _ hc
  · exact hc

/-- After the calls of a function no node of the case `E` is there. -/
theorem run_clears {S : Schema} {names : List Text} {vals : List (Option Text)} {E : Place}
    (hp : ∀ t ∈ names, Plain t) (hE : E ≠ []) (ops : List Op) (cfg cfg' : Config)
    (hr : opsRead ops names.length = true) (hm : opsClear E ops = true) (hc : Closed (cfg.getD []))
    (h : run S names vals ops cfg = (true, cfg')) : ∀ n ∈ cfg'.getD [], ¬ E.at names <+: n.path := by
  have keep : ∀ (os : List Op) (cfg : Config), opsRead os names.length = true →
      os.all (fun o => match o with
        | .create f _ => (match place f with | none => false | some P => apart E P)
        | _ => true) = true →
      (∀ n ∈ cfg.getD [], ¬ E.at names <+: n.path) →
      ∀ cfg', run S names vals os cfg = (true, cfg') → ∀ n ∈ cfg'.getD [], ¬ E.at names <+: n.path := by
    intro os
    induction os with
    | nil =>
      intro cfg _ _ hf cfg' h
      simp only [run, Prod.mk.injEq, true_and] at h
      subst h; exact hf
    | cons o os ih =>
      intro cfg hr ha hf cfg' h
      obtain ⟨c, h1, h2⟩ := run_cons_ok h
      obtain ⟨⟨P, hP, hl⟩, hr'⟩ := opsRead_cons hr
      rw [List.all_cons, Bool.and_eq_true] at ha
      refine ih c hr' ha.2 ?_ cfg' h2
      rcases step_ok hP ⟨hl, hp⟩ h1 with ⟨f, s, v, t', rfl, _, rfl, hnp, htt⟩ | ⟨_, _, _, _, _, rfl⟩ |
        ⟨t1, _, rfl, _, rfl, _⟩ | ⟨_, t1, _, rfl, _, rfl⟩
      · intro n hn he
        have hap : apart E P = true := by
          have := ha.1
          dsimp only at this
          rw [show place f = some P from hP] at this
          exact this
        rcases newPath_mem hnp n hn with h3 | ⟨h3, _⟩
        · exact hf n h3 he
        · exact apart_at hap names (he.trans h3)
      · exact hf
      · intro n hn
        exact hf n ((mem_freeTree _ _ _).mp hn).1
      · exact hf
  induction ops generalizing cfg with
  | nil => simp [opsClear] at hm
  | cons o os ih =>
    obtain ⟨c, h1, h2⟩ := run_cons_ok h
    obtain ⟨⟨P, hP, hl⟩, hr'⟩ := opsRead_cons hr
    simp only [opsClear, Bool.or_eq_true] at hm
    rcases hm with hm | hm
    · cases o with
      | create f s => simp at hm
      | delete f => simp at hm
      | checkDelete f =>
        simp only [Bool.and_eq_true, beq_iff_eq] at hm
        obtain ⟨hPE, ha⟩ := hm
        have : P = E := by
          have := hP.symm.trans (show (Op.checkDelete f).place = some E from hPE)
          exact Option.some.inj this
        subst this
        refine keep os c hr' ha ?_ cfg' h2
        rcases step_ok hP ⟨hl, hp⟩ h1 with ⟨_, _, _, _, he, _⟩ | ⟨_, _, he, _⟩ | ⟨t1, _, rfl, _, rfl, _⟩ | ⟨_, t1, _, rfl, hnf, rfl⟩
        · cases he
        · cases he
        · intro n hn
          exact ((mem_freeTree _ _ _).mp hn).2
        · intro n hn hpre
          have := hc n hn _ (at_ne_nil hE names) hpre
          rw [Option.getD_some, hnf] at this
          cases this
    · exact ih c hr' hm (step_closed hP ⟨hl, hp⟩ h1 hc) h2

/-- **C111, part.** For every function that configures one case of a choice (in place, by reference, by the keys of the system; persistent or
periodic connections), all names without apostrophes and all values: if it succeeds, this case is configured and none of the others.

Missing of the full claim: the choice of the transport (`transport_choice_false`). -/
theorem one_case_partial (x : Choice) (hx : x ∈ choices) (S : Schema) (names : List Text) (vals : List (Option Text))
    (hn : names.length = x.arity) (hp : ∀ t ∈ names, Plain t) (cfg cfg' : Config) (hc : Closed (cfg.getD []))
    (h : call S x.fn names vals cfg = (true, cfg')) :
    ∃ t, cfg' = some t ∧ (∃ n ∈ t, n.path = x.own.at names) ∧ ∀ E ∈ x.others, ∀ n ∈ t, ¬ E.at names <+: n.path := by
  have hf := List.all_eq_true.mp choices_fit x hx
  simp only [choiceFits, Bool.and_eq_true, bne_iff_ne, ne_eq] at hf
  obtain ⟨⟨⟨hr, ho⟩, hm⟩, hothers⟩ := hf
  rw [← hn] at hr
  obtain ⟨t, rfl, h1, _⟩ := run_makes hp ho x.fn.ops cfg cfg' hr hm h
  refine ⟨t, rfl, (found_iff _ _).mp h1, fun E hE n hnt => ?_⟩
  have := List.all_eq_true.mp hothers E hE
  simp only [Bool.and_eq_true, bne_iff_ne, ne_eq] at this
  exact run_clears hp this.1 x.fn.ops cfg (some t) hr this.2 hc h n hnt

/-- A user with a key in place. -/
def keyUser : List Node :=
  (List.range 12).map (fun i => ⟨((userKeys lis 1 ++ [inlineDef, inst t!"public-key" t!"name" 2]).at [t!"main", t!"bob", t!"k"]).take (i + 1), none⟩)

/-- They are to use the keys of the system: the key in place is gone. -/
example : call anySchema add_ssh_user_authkey [t!"main", t!"bob"] [] (some keyUser) =
    (true, some (keyUser.take 10 ++ [⟨(userKeys lis 1 ++ [systemKeys]).at [t!"main", t!"bob"], none⟩])) := by decide +kernel

/-- An endpoint with SSH. -/
def sshEndpt : List Node := (List.range 5).map (fun i => ⟨((lis ++ [node t!"ssh"]).at [t!"main"]).take (i + 1), none⟩)

/-- **C111 is false** for the transport of an endpoint: configuring TLS for an endpoint with SSH leaves both. -/
theorem transport_choice_false : ∃ t t' : List Node, Closed t ∧
    call anySchema add_address_port_tls [t!"main"] [some t!"::1", some t!"6513"] (some t) = (true, some t') ∧
    (∃ n ∈ t', n.path = (lis ++ [node t!"ssh"]).at [t!"main"]) ∧ ∃ n ∈ t', n.path = (lis ++ [node t!"tls"]).at [t!"main"] := by
  have hr : opsRead add_address_port_tls.ops ([t!"main"] : List Text).length = true := by decide +kernel
  have hp : ∀ t ∈ ([t!"main"] : List Text), Plain t := by simp [Plain]
  have hlist : sshEndpt.map Node.path = (List.range 5).map (fun i => ((lis ++ [node t!"ssh"]).at [t!"main"]).take (i + 1)) := by decide +kernel
  have hclosed : Closed sshEndpt := by
    intro n hn q hq hpre
    have hn' : n.path ∈ sshEndpt.map Node.path := List.mem_map.mpr ⟨n, hn, rfl⟩
    rw [hlist] at hn'
    obtain ⟨i, hi, he⟩ := List.mem_map.mp hn'
    have hq1 : q = ((lis ++ [node t!"ssh"]).at [t!"main"]).take q.length :=
      List.prefix_iff_eq_take.mp (hpre.trans (he ▸ List.take_prefix _ _))
    have hlen : 0 < q.length := List.length_pos_iff.mpr hq
    have hlen2 : q.length ≤ i + 1 := by
      have := hpre.length_le
      rw [← he, List.length_take] at this
      omega
    have : q ∈ sshEndpt.map Node.path := by
      rw [hlist, List.mem_map]
      refine ⟨q.length - 1, List.mem_range.mpr (by have := List.mem_range.mp hi; omega), ?_⟩
      rw [show q.length - 1 + 1 = q.length by omega]
      exact hq1.symm
    obtain ⟨m, hm, hmq⟩ := List.mem_map.mp this
    exact (found_iff _ _).mpr ⟨m, hm, hmq⟩
  have hb : (call anySchema add_address_port_tls [t!"main"] [some t!"::1", some t!"6513"] (some sshEndpt)).1 = true := by decide +kernel
  have hcall : call anySchema add_address_port_tls [t!"main"] [some t!"::1", some t!"6513"] (some sshEndpt) =
      (true, (call anySchema add_address_port_tls [t!"main"] [some t!"::1", some t!"6513"] (some sshEndpt)).2) := Prod.ext hb rfl
  obtain ⟨t', h1, h2, _⟩ := run_makes (E := lis ++ [node t!"tls"]) hp (by simp) add_address_port_tls.ops (some sshEndpt) _ hr (by decide +kernel) hcall
  refine ⟨sshEndpt, t', hclosed, by rw [hcall, h1], ?_, (found_iff _ _).mp h2⟩
  have keep : ∀ (ops : List Op), (∀ o ∈ ops, ∃ f s, o = .create f s) → opsRead ops ([t!"main"] : List Text).length = true → ∀ t t' q, found t q = true →
      run anySchema [t!"main"] [some t!"::1", some t!"6513"] ops (some t) = (true, some t') → found t' q = true := by
    intro ops
    induction ops with
    | nil =>
      intro _ _ t t' q hf h
      simp only [run, Prod.mk.injEq, true_and, Option.some.injEq] at h
      subst h; exact hf
    | cons o os ih =>
      intro ho hr t t' q hf h
      obtain ⟨c, h1, h2⟩ := run_cons_ok h
      obtain ⟨⟨P, hP, hl⟩, hr'⟩ := opsRead_cons hr
      obtain ⟨f, s, rfl⟩ := ho _ List.mem_cons_self
      have ho' := fun o h => ho o (List.mem_cons_of_mem _ h)
      rcases step_ok hP ⟨hl, hp⟩ h1 with ⟨_, _, v, t1, _, _, rfl, hnp, _⟩ | ⟨_, _, _, _, _, rfl⟩ | ⟨_, ⟨_, he⟩, _⟩ | ⟨_, _, he, _⟩
      · exact ih ho' hr' t1 t' q ((newPath_found hnp _).mpr (.inl hf)) h2
      · exact ih ho' hr' t t' q hf h2
      · rcases he with he | he <;> cases he
      · cases he
  refine (found_iff _ _).mp (keep add_address_port_tls.ops ?_ hr sshEndpt t' _ (by decide +kernel) (by rw [← h1]; exact hcall))
  intro o ho
  simp only [add_address_port_tls, List.mem_cons, List.not_mem_nil, or_false] at ho
  rcases ho with rfl | rfl <;> exact ⟨_, _, rfl⟩

/-! ## C112: the configuration is created if there is none -/

/-- The number of the value, if there is one. -/
def srcSmall : Src → Bool
  | .arg i => decide (i < 4)
  | .opt i => decide (i < 4)
  | _ => true

/-- What is checked of a function that can begin a configuration. -/
def beginFits (x : Fn × Nat × Place) : Bool :=
  opsRead x.1.ops x.2.1 && x.2.2 != [] && opsMake x.2.2 x.1.ops &&
  (match x.1.ops with | .create _ _ :: _ => true | _ => false) &&
  x.1.ops.all (fun o => match o with
    | .create f s => srcSmall s && (match place f with | none => false | some P => srv.isPrefixOf P)
    | .checkDelete f => (match place f with | none => false | some P => decide (2 ≤ P.length))
    | .delete _ => false)

theorem srcVal_some {vals : List (Option Text)} (hvals : ∀ i < 4, (vals.getD i none).isSome) (s : Src) (hs : srcSmall s = true) : ∃ v, srcVal vals s = some v := by
  cases s with
  | const v => exact ⟨_, rfl⟩
  | null => exact ⟨_, rfl⟩
  | arg i => obtain ⟨v, h⟩ := Option.isSome_iff_exists.mp (hvals i (by simpa [srcSmall] using hs)); exact ⟨some v, by simp only [srcVal, h, Option.map_some]⟩
  | opt i => obtain ⟨v, h⟩ := Option.isSome_iff_exists.mp (hvals i (by simpa [srcSmall] using hs)); exact ⟨some v, by simp only [srcVal, h, Option.map_some]⟩

theorem beginners_fit : beginners.all beginFits = true := by decide +kernel

theorem srv_at (names : List Text) : srv.at names = top := rfl

/-- **C112, part.** For every function adding something to the server's configuration that does not delete another case first, all names without
apostrophes: if all values are given and valid, it succeeds without a configuration and there is one with the entry then.

Missing of the full claim: keys and certificates of the keystore and the truststore (`store_begin_false`), connection types of Call Home
clients (`conn_begin_false`). -/
theorem begin_config_partial (x : Fn × Nat × Place) (hx : x ∈ beginners) (S : Schema) (hv : ∀ p v, S.valid p v = true) (hk : ∀ p, S.known p = true)
    (names : List Text) (vals : List (Option Text)) (hn : names.length = x.2.1) (hp : ∀ t ∈ names, Plain t) (hvals : ∀ i < 4, (vals.getD i none).isSome) :
    ∃ t, call S x.1 names vals none = (true, some t) ∧ (∃ n ∈ t, n.path = top) ∧ ∃ n ∈ t, n.path = x.2.2.at names := by
  have hf := List.all_eq_true.mp beginners_fit x hx
  simp only [beginFits, Bool.and_eq_true, bne_iff_ne, ne_eq] at hf
  obtain ⟨⟨⟨⟨hr, hE⟩, hm⟩, hfirst⟩, hall⟩ := hf
  rw [← hn] at hr
  have cr : ∀ (f : Text) (s : Src) (P : Place) (cfg : Config), srcSmall s = true → place f = some P → holes P ≤ names.length → srv <+: P →
      ∃ t, step S names vals cfg (.create f s) = (true, some t) ∧ found t top = true := by
    intro f s P cfg hsm hP hl hs
    have hpar := parse_fill f P names hP hl hp
    obtain ⟨v, hsv⟩ := srcVal_some hvals s hsm
    obtain ⟨t, hnp⟩ : ∃ t, newPath S (cfg.getD []) (P.at names) v = some t := by
      unfold newPath; rw [if_pos (hv _ _)]; exact ⟨_, rfl⟩
    have ht : found t top = true := (newPath_found hnp _).mpr (.inr ⟨by simp [top], srv_at names ▸ at_prefix hs names⟩)
    refine ⟨t, ?_, ht⟩
    rw [step_create, hsv]
    simp only [create, hpar, hnp, setTop_found ht]
  have key : ∀ (ops : List Op), opsRead ops names.length = true → ops.all (fun o => match o with
      | .create f s => srcSmall s && (match place f with | none => false | some P => srv.isPrefixOf P)
      | .checkDelete f => (match place f with | none => false | some P => decide (2 ≤ P.length))
      | .delete _ => false) = true → ∀ cfg : Config, ((∃ t, cfg = some t ∧ found t top = true) ∨ ∃ f s os, ops = .create f s :: os) →
      ∃ c, run S names vals ops cfg = (true, c) := by
    intro ops
    induction ops with
    | nil => intro _ _ cfg _; exact ⟨cfg, rfl⟩
    | cons o os ih =>
      intro hr ha cfg hcfg
      obtain ⟨⟨P, hP, hl⟩, hr'⟩ := opsRead_cons hr
      rw [List.all_cons, Bool.and_eq_true] at ha
      cases o with
      | create f s =>
        have h1 := ha.1
        dsimp only at h1
        rw [show place f = some P from hP, Bool.and_eq_true] at h1
        obtain ⟨t, h2, h3⟩ := cr f s P cfg h1.1 hP hl (List.isPrefixOf_iff_prefix.mp h1.2)
        obtain ⟨c, h4⟩ := ih hr' ha.2 (some t) (.inl ⟨t, rfl, h3⟩)
        exact ⟨c, by simp only [run, h2, if_true, h4]⟩
      | delete f => have := ha.1; cases this
      | checkDelete f =>
        rcases hcfg with ⟨t, rfl, ht⟩ | ⟨_, _, _, he⟩
        · have h1 := ha.1
          dsimp only at h1
          rw [show place f = some P from hP] at h1
          have hpar := parse_fill f P names hP hl hp
          have hfree : found (freeTree t (P.at names)) top = true := (found_freeTree _ _ _).mpr ⟨ht, not_prefix_top (by simpa using h1) names⟩
          obtain ⟨t', h2, h3⟩ : ∃ t', step S names vals (some t) (.checkDelete f) = (true, some t') ∧ found t' top = true := by
            simp only [step, checkDelete, hpar, hk]
            by_cases hfd : found t (P.at names) = true
            · exact ⟨_, by simp [hfd, setTop_found hfree], hfree⟩
            · exact ⟨t, by simp [hfd], ht⟩
          obtain ⟨c, h4⟩ := ih hr' ha.2 (some t') (.inl ⟨t', rfl, h3⟩)
          exact ⟨c, by simp only [run, h2, if_true, h4]⟩
        · cases he
  obtain ⟨c, hc⟩ := key x.1.ops hr hall none (.inr (by
    split at hfirst
    · next f s os ho => exact ⟨f, s, os, ho⟩
    · cases hfirst))
  obtain ⟨t, rfl, h1, h2⟩ := run_makes hp hE x.1.ops none c hr hm hc
  exact ⟨t, hc, (found_iff _ _).mp h2, (found_iff _ _).mp h1⟩

/-- A host key of a first endpoint. -/
example : ∃ t, call anySchema add_ssh_hostkey [t!"main", t!"key"] [some t!"AAAA", some t!"ietf-crypto-types:rsa-private-key-format", some t!"BBBB", some t!""] none = (true, some t) ∧
    (∃ n ∈ t, n.path = top) ∧ ∃ n ∈ t, n.path = (hostKey lis 1).at [t!"main", t!"key"] :=
  begin_config_partial (add_ssh_hostkey, 2, hostKey lis 1) (by decide +kernel) anySchema (fun _ _ => rfl) (fun _ => rfl) _ _ rfl (by simp [Plain])
    (by decide)

example : (call anySchema add_tls_ctn [t!"main", t!"1"] [some t!"04:aa", some t!"x", some t!"bob"] none).2.map (·.length) = some 11 := by decide +kernel

/-- What is checked of a function for the keystore or the truststore: the first call creates a node outside the server's configuration. -/
def storeFits (x : Fn × Nat) : Bool :=
  match x.1.ops with
  | .create f s :: _ => !s.isOpt && (match place f with | none => false | some P => decide (holes P ≤ x.2) && apart srv P)
  | _ => false

/-- **C112 is false** for the keystore and the truststore: without a configuration their functions always fail, and there is none afterwards. -/
theorem store_begin_false (x : Fn × Nat) (hx : x ∈ storeFns) (S : Schema) (names : List Text) (vals : List (Option Text)) (hn : names.length = x.2)
    (hp : ∀ t ∈ names, Plain t) : call S x.1 names vals none = (false, none) := by
  have hf := List.all_eq_true.mp (show storeFns.all storeFits = true by decide +kernel) x hx
  unfold storeFits at hf
  split at hf
  · next f s os hops =>
    simp only [Bool.and_eq_true] at hf
    obtain ⟨ho, hf⟩ := hf
    split at hf
    · cases hf
    · next P hP =>
      simp only [Bool.and_eq_true, decide_eq_true_eq] at hf
      have hpar := parse_fill f P names hP (by omega) hp
      have hs : step S names vals none (.create f s) = (false, none) := by
        rw [step_create]
        split
        · next v _ =>
          simp only [create, hpar, Option.getD_none]
          split
          · rfl
          · next t hnp =>
            unfold setTop
            rw [if_neg]
            intro ht
            rcases (newPath_found hnp _).mp ht with h | ⟨_, h⟩
            · cases h
            · exact apart_at hf.2 names (srv_at names ▸ h)
        · next => simp at ho; rw [ho]
      unfold call
      rw [hops]
      simp only [run, hs]
      rfl
  · cases hf

/-- **C112 is false** for the connection types of a Call Home client. -/
theorem conn_begin_false (x : Fn × Nat) (hx : x ∈ connFns) (S : Schema) (names : List Text) (vals : List (Option Text)) :
    call S x.1 names vals none = (false, none) := by
  simp only [connFns, List.mem_cons, List.not_mem_nil, or_false] at hx
  rcases hx with rfl | rfl | rfl | rfl <;> rfl

/-! ## C113: deleting all instances -/

/-- What is checked of a function deleting all the instances of a list. -/
def allFits (x : Fn × Nat × Place) : Bool :=
  match x.1.ops with
  | [.delete f] => place f == some x.2.2 && decide (holes x.2.2 ≤ x.2.1) && (match x.2.2.getLast? with | some (_, none) => true | _ => false)
  | _ => false

theorem allFns_fit : allFns.all allFits = true := by decide +kernel

/-- **C113 is false**: called without the last name to delete all the instances of a list, each function fails and changes nothing, in every
configuration in which list instances have their keys. -/
theorem del_all_false (x : Fn × Nat × Place) (hx : x ∈ allFns) (S : Schema) (names : List Text) (hn : names.length = x.2.1) (hp : ∀ t ∈ names, Plain t)
    (t : List Node) (hk : Keyed t) : call S x.1 names [] (some t) = (false, some t) := by
  have hf := List.all_eq_true.mp allFns_fit x hx
  unfold allFits at hf
  split at hf
  · next f hops =>
    simp only [Bool.and_eq_true, beq_iff_eq, decide_eq_true_eq] at hf
    obtain ⟨⟨hP, hl⟩, hlast⟩ := hf
    have hpar := parse_fill f _ names hP (by omega) hp
    have hnf : found t (x.2.2.at names) = false := by
      rw [Bool.eq_false_iff]
      intro h
      obtain ⟨n, h1, h2⟩ := (found_iff _ _).mp h
      split at hlast
      · next nm hg =>
        refine hk n h1 ?_ ⟨nm, []⟩ ?_ rfl
        · rw [h2, at_names]
          exact List.mem_map.mpr ⟨x, hx, rfl⟩
        · rw [h2, Place.at, List.getLast?_map, hg]
          rfl
      · cases hlast
    unfold call
    rw [hops]
    simp only [run, step, delete, hpar, hnf]
    rfl
  · cases hf

/-- The endpoints of a Call Home client stay. -/
example : call anySchema del_ch_endpt_all [t!"a"] [] (some twoEndpts) = (false, some twoEndpts) ∧ Keyed twoEndpts := by
  refine ⟨by decide +kernel, ?_⟩
  unfold Keyed
  decide +kernel

end Verif.Props
