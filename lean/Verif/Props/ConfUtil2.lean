import Verif.Spec.ConfUtil2
import Verif.Props.ConfUtil

/-! # Properties of the functions that edit configuration data: values (C227) -/

namespace Verif.Props

open Verif.ConfUtil

/-- The source of a created node is the given value. -/
def srcIs : Src → Given → Bool
  | .const t, .text u => t == u
  | .arg i, .arg j => i == j
  | .opt i, .arg j => i == j
  | _, _ => false

/-- Some call sets the leaf, and no later one sets it again or deletes it. -/
def opsSet (L : Place) (g : Given) : List Op → Bool
  | [] => false
  | o :: os =>
    (match o with
     | .create f s => place f == some L && srcIs s g &&
        os.all (fun o => match o with
          | .create f _ => match place f with | none => false | some P => P.map (·.1) != L.map (·.1)
          | .delete f | .checkDelete f => match place f with | none => false | some P => apart P L)
     | _ => false) || opsSet L g os

/-- Only leaves of the list get values, and only parts of the configuration other than the whole are deleted. -/
def opsOnly (leaves : List (Place × Given)) (ops : List Op) : Bool :=
  ops.all (fun o => match o with
    | .create f s => srcSmall s && (s == .null || (match place f with | none => false | some P => leaves.any (fun L => L.1 == P)))
    | .delete _ => false
    | .checkDelete f => match place f with | none => false | some P => decide (2 ≤ P.length))

/-- What is checked of a function. -/
def setFits (x : Store) : Bool :=
  opsRead x.fn.ops x.arity && x.leaves.all (fun L => opsSet L.1 L.2 x.fn.ops && L.1 != []) && opsOnly x.leaves x.fn.ops

theorem stores_fit : stores.all setFits = true := by decide +kernel

/-- The values without which a function fails are those that may not be left out. -/
def lackFits (f : Fn) : Bool :=
  f.ops.all (fun o => match o with
    | .create _ (.arg i) => !mayLack f i
    | .create _ (.opt i) => mayLack f i
    | _ => true)

/-- Nothing is created at or below a leaf unless its value is there. -/
def opsLeft (L : Place) (i : Nat) (ops : List Op) : Bool :=
  ops.all (fun o => match o with
    | .create f s => s == .arg i || s == .opt i || (match place f with | none => false | some P => apart L P)
    | _ => true)

/-- What is checked of the values of a function that are not there. -/
def leftFits (x : Store) : Bool :=
  lackFits x.fn && x.leaves.all (fun L => match L.2 with | .arg i => opsLeft L.1 i x.fn.ops | .text _ => true)

theorem lacks_fit : stores.all leftFits = true := by decide +kernel

/-- The leaf is there with this value. -/
def Holds (t : List Node) (p : Path) (w : Text) : Prop := (∃ n ∈ t, n.path = p) ∧ ∀ n ∈ t, n.path = p → n.value = some w

theorem holds_newPath {S : Schema} {t t' : List Node} {p q : Path} {v : Option Text} {w : Text} (h : Holds t q w) (hpq : p ≠ q)
    (hn : newPath S t p v = some t') : Holds t' q w := by
  refine ⟨?_, fun n hm hq => ?_⟩
  · obtain ⟨n, h1, h2⟩ := h.1
    exact ⟨n, newPath_keep hn n h1 (by rw [h2]; exact hpq.symm), h2⟩
  · rw [(newPath_some hn).2, List.mem_map] at hm
    obtain ⟨m, hm, rfl⟩ := hm
    split at hq
    · next hc => exact absurd (hc.1.symm.trans hq) hpq
    · next hc =>
      rw [if_neg hc]
      rw [List.mem_append, mem_missing] at hm
      rcases hm with hm | hm
      · exact h.2 m hm hq
      · obtain ⟨n, h1, h2⟩ := h.1
        have : found t m.path = true := (found_iff _ _).mpr ⟨n, h1, by rw [h2, hq]⟩
        rw [hm.2.2.1] at this; cases this

theorem holds_set {S : Schema} {t t' : List Node} {p : Path} {w : Text} (hp : p ≠ []) (hn : newPath S t p (some w) = some t') : Holds t' p w := by
  refine ⟨(found_iff _ _).mp ((newPath_found hn p).mpr (.inr ⟨hp, List.prefix_refl _⟩)), fun n hm hq => ?_⟩
  rw [(newPath_some hn).2, List.mem_map] at hm
  obtain ⟨m, hm, rfl⟩ := hm
  split at hq
  · next hc => rw [if_pos hc]
  · next hc => exact absurd ⟨hq, rfl⟩ hc

theorem holds_free {t : List Node} {p q : Path} {w : Text} (h : Holds t q w) (hpq : ¬ p <+: q) : Holds (freeTree t p) q w := by
  obtain ⟨⟨n, h1, h2⟩, h3⟩ := h
  exact ⟨⟨n, (mem_freeTree _ _ _).mpr ⟨h1, by rw [h2]; exact hpq⟩, h2⟩, fun m hm => h3 m ((mem_freeTree _ _ _).mp hm).1⟩

theorem srcIs_val {s : Src} {g : Given} {vals : List (Option Text)} {w : Text} (h : srcIs s g = true) (hw : g.value vals = some w) :
    srcVal vals s = some (some w) := by
  cases s <;> cases g <;> simp_all [srcIs, Given.value, srcVal]

theorem run_keeps {S : Schema} {names : List Text} {vals : List (Option Text)} {L : Place} {w : Text} (hp : ∀ t ∈ names, Plain t) :
    ∀ (os : List Op) (cfg cfg' : Config), opsRead os names.length = true → os.all (fun o => match o with
      | .create f _ => match place f with | none => false | some P => P.map (·.1) != L.map (·.1)
      | .delete f | .checkDelete f => match place f with | none => false | some P => apart P L) = true →
      Holds (cfg.getD []) (L.at names) w → run S names vals os cfg = (true, cfg') → Holds (cfg'.getD []) (L.at names) w
  | [], cfg, cfg', _, _, h, hr => by
    simp only [run, Prod.mk.injEq, true_and] at hr
    subst hr; exact h
  | o :: os, cfg, cfg', hread, ha, h, hr => by
    obtain ⟨c, h1, h2⟩ := run_cons_ok hr
    obtain ⟨⟨P, hP, hl⟩, hread'⟩ := opsRead_cons hread
    rw [List.all_cons, Bool.and_eq_true] at ha
    refine run_keeps hp os c cfg' hread' ha.2 ?_ h2
    have h3 := ha.1
    have hap : (∃ f, o = .delete f ∨ o = .checkDelete f) → ¬ P.at names <+: L.at names := by
      rintro ⟨f, rfl | rfl⟩ <;> dsimp only at h3 <;> rw [show place f = some P from hP] at h3 <;> exact apart_at h3 names
    rcases step_ok hP ⟨hl, hp⟩ h1 with ⟨f, s, v, t1, rfl, _, rfl, hnp, _⟩ | ⟨_, _, _, _, _, rfl⟩ | ⟨t, hd, rfl, _, rfl, _⟩ | ⟨_, t, _, rfl, _, rfl⟩
    · dsimp only at h3
      rw [show place f = some P from hP] at h3
      refine holds_newPath h (fun e => ?_) hnp
      have := congrArg (List.map Seg.name) e
      rw [at_names, at_names] at this
      simp [this] at h3
    · exact h
    · exact holds_free h (hap hd)
    · exact h

theorem run_sets {S : Schema} {names : List Text} {vals : List (Option Text)} {L : Place} {g : Given} {w : Text} (hp : ∀ t ∈ names, Plain t) (hL : L ≠ [])
    (hw : g.value vals = some w) :
    ∀ (os : List Op) (cfg cfg' : Config), opsRead os names.length = true → opsSet L g os = true →
      run S names vals os cfg = (true, cfg') → Holds (cfg'.getD []) (L.at names) w
  | [], _, _, _, h, _ => by cases h
  | o :: os, cfg, cfg', hread, hs, hr => by
    obtain ⟨c, h1, h2⟩ := run_cons_ok hr
    obtain ⟨⟨P, hP, hl⟩, hread'⟩ := opsRead_cons hread
    unfold opsSet at hs
    rw [Bool.or_eq_true] at hs
    rcases hs with hs | hs
    · cases o with
      | delete f => cases hs
      | checkDelete f => cases hs
      | create f s =>
        simp only [Bool.and_eq_true, beq_iff_eq] at hs
        obtain ⟨⟨e, hg⟩, hrest⟩ := hs
        have hPL : P = L := Option.some.inj ((show place f = some P from hP).symm.trans e)
        subst hPL
        refine run_keeps hp os c cfg' hread' hrest ?_ h2
        have hv := srcIs_val hg hw
        rcases step_ok hP ⟨hl, hp⟩ h1 with ⟨_, _, v, t1, he, hv', rfl, hnp, _⟩ | ⟨_, _, he, _, hv', _⟩ | ⟨_, ⟨_, he⟩, _⟩ | ⟨_, _, he, _⟩
        · cases he
          rw [hv] at hv'
          cases hv'
          exact holds_set (at_ne_nil hL names) hnp
        · cases he; rw [hv] at hv'; cases hv'
        · rcases he with he | he <;> cases he
        · cases he
    · exact run_sets hp hL hw os c cfg' hread' hs h2

theorem run_only {S : Schema} {names : List Text} {vals : List (Option Text)} {leaves : List (Place × Given)} (hp : ∀ t ∈ names, Plain t) :
    ∀ (os : List Op) (cfg cfg' : Config), opsRead os names.length = true → opsOnly leaves os = true → run S names vals os cfg = (true, cfg') →
      ∀ n ∈ cfg'.getD [], n ∈ cfg.getD [] ∨ n.value = none ∨ ∃ L ∈ leaves, n.path = L.1.at names
  | [], cfg, cfg', _, _, hr, n, hn => by
    simp only [run, Prod.mk.injEq, true_and] at hr
    subst hr; exact .inl hn
  | o :: os, cfg, cfg', hread, ho, hr, n, hn => by
    obtain ⟨c, h1, h2⟩ := run_cons_ok hr
    obtain ⟨⟨P, hP, hl⟩, hread'⟩ := opsRead_cons hread
    rw [opsOnly, List.all_cons, Bool.and_eq_true] at ho
    rcases run_only hp os c cfg' hread' ho.2 h2 n hn with h | h
    · rcases step_ok hP ⟨hl, hp⟩ h1 with ⟨f, s, v, t1, rfl, hv, rfl, hnp, _⟩ | ⟨_, _, _, _, _, rfl⟩ | ⟨t, hd, rfl, _, rfl, _⟩ | ⟨_, t, _, rfl, _, rfl⟩
      · have h3 := ho.1
        dsimp only at h3
        rw [show place f = some P from hP, Bool.and_eq_true, Bool.or_eq_true] at h3
        rcases h3.2 with h3 | h3
        · have : s = .null := by simpa using h3
          subst this
          cases hv
          rcases newPath_mem hnp n h with hm | ⟨hm, hm' | hm'⟩
          · exact .inl hm
          · exact .inr (.inl hm')
          · have hh := h
            rw [Option.getD_some, (newPath_some hnp).2, List.mem_map] at hh
            obtain ⟨m, hk, rfl⟩ := hh
            rw [if_neg (by simp)]
            rw [List.mem_append, mem_missing] at hk
            rcases hk with hk | hk
            · exact .inl hk
            · exact .inr (.inl hk.2.2.2)
        · simp only [List.any_eq_true, beq_iff_eq] at h3
          obtain ⟨L, hL, rfl⟩ := h3
          rcases newPath_mem hnp n h with hm | ⟨hm, hm' | hm'⟩
          · exact .inl hm
          · exact .inr (.inl hm')
          · exact .inr (.inr ⟨L, hL, hm'⟩)
      · exact .inl h
      · exact .inl ((mem_freeTree _ _ _).mp h).1
      · exact .inl h
    · exact .inr h

/-- C227. Every `nc_server_config_add_*` function that succeeds leaves the values it was given in the leaves meant for them, and no other leaf gets a
value; names without apostrophes. -/
theorem values_stored (x : Store) (hx : x ∈ stores) (S : Schema) (names : List Text) (vals : List (Option Text)) (hn : names.length = x.arity)
    (hp : ∀ t ∈ names, Plain t) (cfg cfg' : Config) (h : call S x.fn names vals cfg = (true, cfg')) :
    (∀ L ∈ x.leaves, ∀ w, L.2.value vals = some w →
      (∃ n ∈ cfg'.getD [], n.path = L.1.at names) ∧ ∀ n ∈ cfg'.getD [], n.path = L.1.at names → n.value = some w) ∧
    ∀ n ∈ cfg'.getD [], n ∈ cfg.getD [] ∨ n.value = none ∨ ∃ L ∈ x.leaves, n.path = L.1.at names := by
  have hf := List.all_eq_true.mp stores_fit x hx
  simp only [setFits, Bool.and_eq_true, List.all_eq_true, bne_iff_ne, ne_eq] at hf
  obtain ⟨⟨h1, h2⟩, h3⟩ := hf
  rw [← hn] at h1
  exact ⟨fun L hL w hw => run_sets hp (h2 L hL).2 hw x.fn.ops cfg cfg' h1 (h2 L hL).1 h, run_only hp x.fn.ops cfg cfg' h1 h3 h⟩

theorem run_left {S : Schema} {names : List Text} {vals : List (Option Text)} {L : Place} {i : Nat} (hp : ∀ t ∈ names, Plain t) (hi : vals.getD i none = none) :
    ∀ (os : List Op) (cfg cfg' : Config), opsRead os names.length = true → opsLeft L i os = true → run S names vals os cfg = (true, cfg') →
      ∀ n ∈ cfg'.getD [], n.path = L.at names → n ∈ cfg.getD []
  | [], cfg, cfg', _, _, hr, n, hn, _ => by
    simp only [run, Prod.mk.injEq, true_and] at hr
    subst hr; exact hn
  | o :: os, cfg, cfg', hread, ho, hr, n, hn, hq => by
    obtain ⟨c, h1, h2⟩ := run_cons_ok hr
    obtain ⟨⟨P, hP, hl⟩, hread'⟩ := opsRead_cons hread
    rw [opsLeft, List.all_cons, Bool.and_eq_true] at ho
    have h := run_left hp hi os c cfg' hread' ho.2 h2 n hn hq
    rcases step_ok hP ⟨hl, hp⟩ h1 with ⟨f, s, v, t1, rfl, hv, rfl, hnp, _⟩ | ⟨_, _, _, _, _, rfl⟩ | ⟨t, hd, rfl, _, rfl, _⟩ | ⟨_, t, _, rfl, _, rfl⟩
    · have h3 := ho.1
      dsimp only at h3
      rw [show place f = some P from hP] at h3
      simp only [Bool.or_eq_true, beq_iff_eq] at h3
      rcases h3 with (rfl | rfl) | h3
      · rw [srcVal, hi] at hv; cases hv
      · rw [srcVal, hi] at hv; cases hv
      · rcases newPath_mem hnp n h with hm | ⟨hm, _⟩
        · exact hm
        · rw [hq] at hm
          exact absurd hm (apart_at h3 names)
    · exact h
    · exact ((mem_freeTree _ _ _).mp h).1
    · exact h

theorem run_needs {S : Schema} {names : List Text} {vals : List (Option Text)} {f : Text} {i : Nat} (hi : vals.getD i none = none) :
    ∀ (os : List Op) (cfg : Config), Op.create f (.arg i) ∈ os → (run S names vals os cfg).1 = false
  | [], _, h => by cases h
  | o :: os, cfg, h => by
    simp only [run]
    split
    · next hs =>
      rcases List.mem_cons.mp h with rfl | h
      · simp only [step, hi] at hs; cases hs
      · exact run_needs hi os _ h
    · next hs => simpa using hs

theorem opsSet_mem {L : Place} {i : Nat} : ∀ {os : List Op}, opsSet L (.arg i) os = true → ∃ f, Op.create f (.arg i) ∈ os ∨ Op.create f (.opt i) ∈ os
  | [], h => by cases h
  | o :: os, h => by
    unfold opsSet at h
    rw [Bool.or_eq_true] at h
    rcases h with h | h
    · cases o with
      | delete f => cases h
      | checkDelete f => cases h
      | create f s =>
        simp only [Bool.and_eq_true] at h
        refine ⟨f, ?_⟩
        have hs := h.1.2
        cases s with
        | const t => cases hs
        | null => cases hs
        | arg j => exact .inl (by simp only [srcIs, beq_iff_eq] at hs; subst hs; exact List.mem_cons_self ..)
        | opt j => exact .inr (by simp only [srcIs, beq_iff_eq] at hs; subst hs; exact List.mem_cons_self ..)
    · obtain ⟨f, hf⟩ := opsSet_mem h
      exact ⟨f, hf.imp (List.mem_cons_of_mem _) (List.mem_cons_of_mem _)⟩

/-- C227. A value that was not given: if it may be left out, its leaf stays what it was (or goes away); if not, the function fails. -/
theorem values_lacking (x : Store) (hx : x ∈ stores) (S : Schema) (names : List Text) (vals : List (Option Text)) (hn : names.length = x.arity)
    (hp : ∀ t ∈ names, Plain t) (cfg : Config) (L : Place) (i : Nat) (hL : (L, Given.arg i) ∈ x.leaves) (hi : vals.getD i none = none) :
    if mayLack x.fn i then ∀ n ∈ (call S x.fn names vals cfg).2.getD [], (call S x.fn names vals cfg).1 = true → n.path = L.at names → n ∈ cfg.getD []
    else (call S x.fn names vals cfg).1 = false := by
  have hf := List.all_eq_true.mp stores_fit x hx
  have hg := List.all_eq_true.mp lacks_fit x hx
  simp only [setFits, leftFits, Bool.and_eq_true] at hf hg
  obtain ⟨⟨h1, h2⟩, _⟩ := hf
  rw [← hn] at h1
  split
  · intro n hm hs hq
    have h3 := List.all_eq_true.mp hg.2 _ hL
    exact run_left hp hi x.fn.ops cfg _ h1 h3 (Prod.ext hs rfl) n hm hq
  · next hlack =>
    have h3 := List.all_eq_true.mp h2 _ hL
    rw [Bool.and_eq_true] at h3
    obtain ⟨f, hf | hf⟩ := opsSet_mem h3.1
    · exact run_needs hi _ cfg hf
    · exact absurd (List.all_eq_true.mp hg.1 _ hf) hlack

/-- C227. With a configuration and with valid values every `nc_server_config_add_*` function succeeds, whatever is configured already and whichever of
the values that may be left out are given. -/
theorem add_succeeds (x : Store) (hx : x ∈ stores) (S : Schema) (hv : ∀ p v, S.valid p v = true) (hk : ∀ p, S.known p = true) (names : List Text)
    (vals : List (Option Text)) (hn : names.length = x.arity) (hp : ∀ t ∈ names, Plain t)
    (hvals : ∀ i < 4, mayLack x.fn i = false → (vals.getD i none).isSome) (t : List Node) (ht : ∃ n ∈ t, n.path = top) : ∃ t', call S x.fn names vals (some t) = (true, some t') := by
  have hf := List.all_eq_true.mp stores_fit x hx
  have hg := List.all_eq_true.mp lacks_fit x hx
  simp only [setFits, leftFits, Bool.and_eq_true] at hf hg
  obtain ⟨⟨h1, _⟩, h3⟩ := hf
  rw [← hn] at h1
  have key : ∀ (os : List Op) (t : List Node), (∀ o ∈ os, o ∈ x.fn.ops) → opsRead os names.length = true → opsOnly x.leaves os = true →
      found t top = true → ∃ t', run S names vals os (some t) = (true, some t') := by
    intro os
    induction os with
    | nil => intro t _ _ _ _; exact ⟨t, rfl⟩
    | cons o os ih =>
      intro t hin hread ho ht
      obtain ⟨⟨P, hP, hl⟩, hread'⟩ := opsRead_cons hread
      rw [opsOnly, List.all_cons, Bool.and_eq_true] at ho
      have hpar := op_parse hP ⟨hl, hp⟩
      obtain ⟨t1, h4, h5⟩ : ∃ t1, step S names vals (some t) o = (true, some t1) ∧ found t1 top = true := by
        cases o with
        | create f s =>
          have h6 := ho.1
          dsimp only at h6
          rw [Bool.and_eq_true] at h6
          have h7 := List.all_eq_true.mp hg.1 _ (hin _ (List.mem_cons_self ..))
          by_cases hno : srcVal vals s = none
          · cases s with
            | const v => cases hno
            | null => cases hno
            | arg i =>
              have h8 := hvals i (by simpa [srcSmall] using h6.1) (by simpa using h7)
              rw [srcVal, Option.map_eq_none_iff] at hno
              rw [hno] at h8; cases h8
            | opt i => exact ⟨t, by rw [step_create, hno]; rfl, ht⟩
          obtain ⟨v, hsv⟩ := Option.ne_none_iff_exists'.mp hno
          obtain ⟨t1, hnp⟩ : ∃ t1, newPath S t (P.at names) v = some t1 := by
            unfold newPath; rw [if_pos (hv _ _)]; exact ⟨_, rfl⟩
          have ht1 : found t1 top = true := (newPath_found hnp _).mpr (.inl ht)
          refine ⟨t1, ?_, ht1⟩
          rw [step_create, hsv]
          simp only [create, show parse (fill f names) = _ from hpar, Option.getD_some, hnp, setTop_found ht1]
        | delete f => have := ho.1; cases this
        | checkDelete f =>
          have h6 := ho.1
          dsimp only at h6
          rw [show place f = some P from hP] at h6
          have hfree : found (freeTree t (P.at names)) top = true := (found_freeTree _ _ _).mpr ⟨ht, not_prefix_top (by simpa using h6) names⟩
          simp only [step, checkDelete, show parse (fill f names) = _ from hpar, hk]
          by_cases hfd : found t (P.at names) = true
          · exact ⟨_, by simp [hfd, setTop_found hfree], hfree⟩
          · exact ⟨t, by simp [hfd], ht⟩
      obtain ⟨t2, h6⟩ := ih t1 (fun o h => hin o (List.mem_cons_of_mem _ h)) hread' ho.2 h5
      exact ⟨t2, by simp only [run, h4, if_true, h6]⟩
  exact key x.fn.ops t (fun _ h => h) h1 h3 ((found_iff _ _).mpr ht)

example : ((call anySchema add_address_port_tls [t!"main"] [some t!"::1", some t!"6513"] (some [⟨top, none⟩])).2.getD []).filterMap
    (fun n => n.value.map fun v => ((n.path.map Seg.name).getLast?, v)) = [(some t!"local-address", t!"::1"), (some t!"local-port", t!"6513")] := by decide +kernel

/-- A host key for an endpoint that has an address already. -/
example : ∃ t', call anySchema add_ssh_hostkey [t!"main", t!"key"] [some t!"AAAA", some t!"ietf-crypto-types:rsa-private-key-format", some t!"BBBB", some t!""]
    (some sshEndpt) = (true, some t') :=
  add_succeeds ⟨add_ssh_hostkey, 2, keyPair (hostKeyData lis 1 ++ [inlineDef]) sshFormat⟩ (by simp [stores]) anySchema (fun _ _ => rfl) (fun _ => rfl)
    _ _ rfl (by simp [Plain]) (fun i hi _ => by revert i; decide) sshEndpt ⟨⟨top, none⟩, by decide +kernel, rfl⟩

/-- A mapping of certificates to names with and without a fingerprint. -/
example : (call anySchema add_tls_ctn [t!"main", t!"1"] [none, some t!"ietf-x509-cert-to-name:san-any", some t!""] (some [⟨top, none⟩])).1 = true ∧
    (call anySchema add_tls_ctn [t!"main", t!"1"] [some t!"04:aa", none, some t!""] (some [⟨top, none⟩])).1 = false := by decide +kernel

/-- Adding the address again replaces it; the rest stays. -/
example : ((call anySchema add_address_port_tls [t!"main"] [some t!"::2", some t!"6514"]
      (call anySchema add_address_port_tls [t!"main"] [some t!"::1", some t!"6513"] (some [⟨top, none⟩])).2).2.getD []).filterMap
    (fun n => n.value.map fun v => ((n.path.map Seg.name).getLast?, v)) = [(some t!"local-address", t!"::2"), (some t!"local-port", t!"6514")] := by decide +kernel

end Verif.Props
