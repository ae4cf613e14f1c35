import Verif.Lemmas.ModSel

namespace Verif.Props

open Verif.ModSel

/-! ## C47: the newest revision -/

/-- A revision is older than another one: dates written `YYYY-MM-DD` are compared like words in a dictionary. -/
def OlderRev (a b : Text) : Prop := a.map Char.toNat < b.map Char.toNat

theorem olderRev_iff (a b : Text) : OlderRev a b ↔ strGt b a = true := by
  unfold OlderRev
  induction b generalizing a with
  | nil => simp [strGt]
  | cons y b ih =>
    cases a with
    | nil => simp [strGt]
    | cons x a =>
      simp only [List.map_cons, List.cons_lt_cons_iff, strGt]
      by_cases h : y = x
      · subst h; simp [ih]
      · have : x.toNat ≠ y.toNat := fun e => h (Char.toNat_inj.mp e.symm)
        simp [h, this]

/-- C47, partial: the revision of a module that is listed once is chosen, if none or an empty one is requested. Missing: several revisions, see `newest_revision_false`.
Full statement: if all modules of that name have revisions, the chosen one is listed and no listed one is newer. -/
theorem newest_revision_partial (a b : List Mod) (x : Mod) (ha : ∀ y ∈ a, y.name ≠ x.name) (hb : ∀ y ∈ b, y.name ≠ x.name)
    (req : Option Text) (hr : req = none ∨ req = some []) : modRev (a ++ x :: b) x.name req = .ok (a.length + 1, x.rev) := by
  rcases hr with rfl | rfl <;> simp only [modRev, if_true] <;>
    rw [choose_append _ _ _ ha, choose, if_neg (by simp), if_pos rfl, choose_skip _ _ hb] <;> simp

example : modRev [⟨"a".toList, some "2020-01-01".toList, []⟩, ⟨"b".toList, some "2021-02-02".toList, []⟩] "b".toList (some []) = .ok (2, some "2021-02-02".toList) := by
  decide +kernel

theorem choose_start (name : Text) (mods : List Mod) (u : Nat) (r r' : Option Text) (h : ∃ x ∈ mods, x.name = name) : choose name mods u 0 r = choose name mods u 0 r' := by
  induction mods generalizing u with
  | nil => obtain ⟨x, hx, -⟩ := h; cases hx
  | cons y ys ih =>
    by_cases hy : y.name = name
    · simp [choose, hy]
    · obtain ⟨x, hx, hn⟩ := h
      rcases List.mem_cons.mp hx with rfl | hx
      · exact absurd hn hy
      · simp only [choose, if_pos hy, ne_eq]
        exact ih _ ⟨x, hx, hn⟩

/-- C47: what happens with several revisions: the oldest listed one is chosen. -/
theorem newest_revision_oldest (mods : List Mod) (name : Text) (hrev : ∀ x ∈ mods, x.name = name → x.rev.isSome) (hex : ∃ x ∈ mods, x.name = name)
    (req : Option Text) (hq : req = none ∨ req = some []) :
    ∃ m r, modRev mods name req = .ok (m, some r) ∧ (∃ x ∈ mods, x.name = name ∧ x.rev = some r) ∧
      ∀ x ∈ mods, x.name = name → ∀ r', x.rev = some r' → ¬ OlderRev r' r := by
  obtain ⟨m, rev, h1, -, h3, -, h5⟩ := choose_min name mods hrev 0 0 none (by simp)
  obtain ⟨x, hx, hn⟩ := hex
  obtain ⟨rx, hrx⟩ := Option.isSome_iff_exists.mp (hrev x hx hn)
  obtain ⟨r, hr, -, -⟩ := h3 x hx hn rx hrx
  refine ⟨m, r, ?_, ?_, ?_⟩
  · rcases hq with rfl | rfl
    · simp [modRev, h1, hr]
    · simp [modRev, choose_start name mods 0 (some []) none ⟨x, hx, hn⟩, h1, hr]
  · rcases h5 with h5 | ⟨y, hy, hyn, h⟩
    · rw [hr] at h5; cases h5
    · exact ⟨y, hy, hyn, by rw [← h, hr]⟩
  · intro y hy hyn r' hr'
    obtain ⟨r'', g1, g2, -⟩ := h3 y hy hyn r' hr'
    rw [hr] at g1; cases g1
    intro h
    rw [(olderRev_iff _ _).mp h] at g2
    cases g2

example : modRev [⟨"a".toList, some "2020-01-01".toList, []⟩, ⟨"a".toList, some "2018-02-02".toList, []⟩, ⟨"a".toList, some "2019-02-02".toList, []⟩] "a".toList none =
    .ok (3, some "2018-02-02".toList) := by decide +kernel

/-- C47: the older of two revisions is chosen. -/
theorem newest_revision_false : modRev [⟨"a".toList, some "2020-01-01".toList, []⟩, ⟨"a".toList, some "2021-02-02".toList, []⟩] "a".toList none =
    .ok (2, some "2020-01-01".toList) ∧ OlderRev "2020-01-01".toList "2021-02-02".toList := by unfold OlderRev; decide +kernel

/-- C47: two entries, one of them without revision: NULL is compared. -/
theorem newest_revision_null_false : modRev [⟨"a".toList, some "2020-01-01".toList, []⟩, ⟨"a".toList, none, []⟩] "a".toList none = .ub := by decide +kernel

/-! ## C68: revisions of submodules -/

/-- C68, partial: if the module is listed once and requested without revision, the revision of its submodule is taken from that module.
Missing: a module requested with its revision, see `submodule_revision_false`. Full statement: also for `req = x.rev`. -/
theorem submodule_revision_partial (a b : List Mod) (x : Mod) (ha : ∀ y ∈ a, y.name ≠ x.name) (hb : ∀ y ∈ b, y.name ≠ x.name)
    (s1 s2 : List (Text × Option Text)) (sub : Text) (r : Text) (hs : x.subs = s1 ++ (sub, some r) :: s2) (hs2 : ∀ s ∈ s2, s.1 ≠ sub)
    (req : Option Text) (hr : req = none ∨ req = some []) :
    ∃ m rev, modRev (a ++ x :: b) x.name req = .ok (m, rev) ∧ subRev (a ++ x :: b) m sub = some (some r) := by
  refine ⟨_, _, newest_revision_partial a b x ha hb req hr, ?_⟩
  have h2 : x.subs ≠ [] := by rw [hs]; simp
  have h3 : x.subs.filter (fun s => s.1 == sub) = s1.filter (fun s => s.1 == sub) ++ [(sub, some r)] := by
    rw [hs, List.filter_append, List.filter_cons]
    have : s2.filter (fun s => s.1 == sub) = [] := by
      rw [List.filter_eq_nil_iff]
      intro s h h'
      exact hs2 s h (by simpa using h')
    simp [this]
  simp [subRev, h2, h3]

example : subRev [⟨"a".toList, none, []⟩, ⟨"b".toList, none, [("x".toList, some "1".toList), ("y".toList, some "2".toList)]⟩] 2 "x".toList = some (some "1".toList) := by
  decide +kernel

/-- C68: for a module requested with a revision, the submodules of the first listed module are searched. -/
theorem submodule_revision_false :
    let mods : List Mod := [⟨"a".toList, some "2020-01-01".toList, [("s".toList, some "1999-01-01".toList)]⟩, ⟨"b".toList, some "2020-01-01".toList, [("s".toList, some "2020-01-01".toList)]⟩]
    modRev mods "b".toList (some "2020-01-01".toList) = .ok (1, some "2020-01-01".toList) ∧ subRev mods 1 "s".toList = some (some "1999-01-01".toList) := by
  decide +kernel

/-! ## C67: modules in capabilities -/

/-- What RFC 7950, section 5.6.4 says about a capability with these parameters and these features. -/
def rfcModule (ps : List (Text × Text)) (fs : List Text) : Option CpbltMod :=
  (ps.lookup "module".toList).map fun m => { name := m, rev := ps.lookup "revision".toList, features := fs }

/-- The features parameter of a capability: absent, or the names with commas between them. -/
def FeaturesAre (ps : List (Text × Text)) (fs : List Text) : Prop :=
  (∀ f ∈ fs, ',' ∉ f) ∧ ps.lookup "features".toList = if fs = [] then none else some ([','].intercalate fs)

/-- C67, partial: a capability is understood if the module is its first parameter and neither the namespace nor a value has a `=`. Missing: another order,
see `capability_module_false`. Full statement: the same without the parameter `module` being first. -/
theorem capability_module_partial (ns m : Text) (ps : List (Text × Text)) (hns : '=' ∉ ns) (hk : ∀ p ∈ ("module".toList, m) :: ps, p.1 ∈ cpbltKeys)
    (hv : ∀ p ∈ ("module".toList, m) :: ps, '=' ∉ p.2 ∧ '&' ∉ p.2) (fs : List Text) (hfs : FeaturesAre (("module".toList, m) :: ps) fs) :
    cpbltModule (ns ++ '?' :: encode (("module".toList, m) :: ps)) = rfcModule (("module".toList, m) :: ps) fs := by
  have h0 : strstr "module=".toList (ns ++ '?' :: encode (("module".toList, m) :: ps)) = some (encode (("module".toList, m) :: ps)) := by
    obtain ⟨b, he⟩ : ∃ b, encode (("module".toList, m) :: ps) = "module=".toList ++ b := by
      cases ps with
      | nil => exact ⟨m, rfl⟩
      | cons p ps => exact ⟨m ++ '&' :: encode (p :: ps), rfl⟩
    have e2 : ns ++ '?' :: ("module=".toList ++ b) = (ns ++ ['?']) ++ ("module=".toList ++ b) := by simp
    rw [he, e2, strstr_skip, strstr_here]
    intro s t hst ht
    cases hp : "module=".toList.isPrefixOf (t ++ ("module=".toList ++ b)) with
    | false => rfl
    | true =>
      exfalso
      obtain ⟨r, hr⟩ := (isPrefixOf_append_iff _ _).mp hp
      have hn : '=' ∉ t ++ "module".toList := by
        intro h
        rcases List.mem_append.mp h with h | h
        · have : '=' ∈ ns ++ ['?'] := by rw [hst]; simp [h]
          simp at this
          exact hns this
        · exact absurd h (by decide)
      have e3 : (t ++ "module".toList) ++ '=' :: b = "module".toList ++ '=' :: r := by
        have g1 : t ++ ("module=".toList ++ b) = (t ++ "module".toList) ++ '=' :: b := by simp
        have g2 : "module=".toList ++ r = "module".toList ++ '=' :: r := by simp
        rw [← g1, ← g2, hr]
      have := (split_eq_unique hn (by decide) e3).1
      have := congrArg List.length this
      cases t with
      | nil => exact ht rfl
      | cons _ _ => simp at this
  have hmod := strstr_encode _ hk hv "module".toList (by decide)
  have hrev := strstr_encode _ hk hv "revision".toList (by decide)
  have hfea := strstr_encode _ hk hv "features".toList (by decide)
  have k1 : "module=".toList = "module".toList ++ ['='] := rfl
  have k2 : "revision=".toList = "revision".toList ++ ['='] := rfl
  have k3 : "features=".toList = "features".toList ++ ['='] := rfl
  have hval : ∀ k v, (("module".toList, m) :: ps).lookup k = some v → '&' ∉ v := by
    intro k v h
    obtain ⟨l1, l2, he, -⟩ := List.lookup_eq_some_iff.mp h
    exact (hv (k, v) (by rw [he]; simp)).2
  unfold cpbltModule rfcModule
  rw [h0]
  simp only []
  generalize hps : ("module".toList, m) :: ps = qs at *
  have hl : qs.lookup "module".toList = some m := by rw [← hps, List.lookup_cons_self]
  rw [hl, Option.map_some]
  congr 1
  congr 1
  · rw [hl] at hmod
    obtain ⟨b, h1, hb⟩ := hmod
    -- the text starts with the module
    have h2 : encode qs = "module".toList ++ '=' :: (m ++ b) := by
      have : strstr ("module".toList ++ ['=']) (encode qs) = some (encode qs) := by
        obtain ⟨b, he⟩ : ∃ b, encode qs = ("module".toList ++ ['=']) ++ b := by
          rw [← hps]
          cases ps with
          | nil => exact ⟨m, rfl⟩
          | cons p ps => exact ⟨m ++ '&' :: encode (p :: ps), rfl⟩
        rw [he, strstr_here]
      rw [this] at h1
      exact Option.some.inj h1
    rw [h2]
    exact upToAmp_append (hval _ _ hl) hb
  · rw [k2]
    cases hr : qs.lookup "revision".toList with
    | none => rw [hr] at hrev; simp only [] at hrev; rw [hrev]; rfl
    | some v =>
      rw [hr] at hrev
      obtain ⟨b, h1, hb⟩ := hrev
      rw [h1, Option.map_some]
      congr 1
      exact upToAmp_append (hval _ _ hr) hb
  · rw [k3]
    obtain ⟨g1, g2⟩ := hfs
    cases fs with
    | nil =>
      rw [if_pos rfl] at g2
      rw [g2] at hfea; simp only [] at hfea; rw [hfea]
    | cons f fs =>
      rw [if_neg (by simp)] at g2
      rw [g2] at hfea
      obtain ⟨b, h1, hb⟩ := hfea
      rw [h1]
      have hamp := hval _ _ g2
      have h2 : splitFeatures ([','].intercalate (f :: fs) ++ b) [] = f :: fs := by
        rw [splitFeatures_spec _ b [] hamp hb, splitFeatures_join f fs [] (fun x hx => ⟨g1 x hx, fun h => hamp (mem_intercalate hx h)⟩)]
        rfl
      exact h2

example : cpbltModule "urn:x?module=m&revision=2020-01-01&features=a,b&deviations=d".toList = some ⟨"m".toList, some "2020-01-01".toList, ["a".toList, "b".toList]⟩ := by decide +kernel

/-- C67: parameters before the module are lost. -/
theorem capability_module_false :
    cpbltModule ("urn:x?".toList ++ encode [("revision".toList, "2020-01-01".toList), ("module".toList, "m".toList)]) = some ⟨"m".toList, none, []⟩ ∧
    rfcModule [("revision".toList, "2020-01-01".toList), ("module".toList, "m".toList)] [] = some ⟨"m".toList, some "2020-01-01".toList, []⟩ := by decide +kernel

/-! ## C66: modules in yang-library data -/

/-- What the server said about a module. -/
def ylInfo (m : YlMod) : Info :=
  ⟨m.name, if m.revision = [] then none else some m.revision, m.implement, some m.features, some (m.subs.map (fun s => (s.1, some s.2)))⟩

/-- C66, partial: the list is what the server listed if no module has submodules and the notification modules are listed or not needed. Missing: submodules
and the added modules, see `yang_library_submodules_false` and `yang_library_terminator_false`. Full statement: without `hsub` and `hntf` (with the two modules added). -/
theorem yang_library_partial (mods : List YlMod) (ntf : Bool) (hn : ∀ m ∈ mods, m.name ≠ []) (hf : ∀ m ∈ mods, ∀ f ∈ m.features, f ≠ [])
    (hsub : ∀ m ∈ mods, m.subs = []) (hntf : ntf = true → ∃ m ∈ mods, m.name = "notifications".toList ∨ m.name = "nc-notifications".toList) :
    ylModules mods ntf = ⟨mods.map ylInfo, true⟩ := by
  have hmod : ∀ m ∈ mods, ylModule m = ylInfo m := by
    intro m hm
    have hfeat : ∀ (fs : List Text) (acc : Info) (l : List Text), acc.features = some l → (∀ f ∈ fs, f ≠ []) →
        (fs.map YlChild.feature).foldl ylStep (acc, 0) = ({ acc with features := some (l ++ fs) }, 0) := by
      intro fs
      induction fs with
      | nil => intro acc l h _; cases acc; simp at h; simp [h]
      | cons f fs ih =>
        intro acc l h hf
        have h1 : ylStep (acc, 0) (.feature f) = ({ acc with features := some (l ++ [f]) }, 0) := by
          have : f.isEmpty = false := by simpa using hf f (by simp)
          simp [ylStep, YlChild.hasValue, this, h]
        rw [List.map_cons, List.foldl_cons, h1, ih _ (l ++ [f]) rfl (fun g hg => hf g (by simp [hg]))]
        simp
    have hne : m.name.isEmpty = false := by simpa using hn m hm
    unfold ylModule YlMod.children
    rw [hsub m hm]
    simp only [List.map_nil, List.append_nil, List.foldl_append]
    by_cases hr : m.revision = []
    · have h1 : [YlChild.name m.name, .revision m.revision].foldl ylStep (⟨[], none, false, some [], some []⟩, 0) = (⟨m.name, none, false, some [], some []⟩, 0) := by
        simp [ylStep, YlChild.hasValue, hne, hr]
      rw [h1, hfeat _ _ [] rfl (hf m hm)]
      simp [ylStep, YlChild.hasValue, ylInfo, hr, hsub m hm]
    · have hr' : m.revision.isEmpty = false := by simpa using hr
      have h1 : [YlChild.name m.name, .revision m.revision].foldl ylStep (⟨[], none, false, some [], some []⟩, 0) = (⟨m.name, some m.revision, false, some [], some []⟩, 0) := by
        simp [ylStep, YlChild.hasValue, hne, hr']
      rw [h1, hfeat _ _ [] rfl (hf m hm)]
      simp [ylStep, YlChild.hasValue, ylInfo, hr, hsub m hm]
  unfold ylModules
  rw [if_neg, List.map_congr_left hmod]
  rintro ⟨h1, h2, h3⟩
  obtain ⟨m, hm, hm'⟩ := hntf h1
  rcases hm' with h | h
  · exact h2 (List.any_eq_true.mpr ⟨m, hm, by simp [h]⟩)
  · exact h3 (List.any_eq_true.mpr ⟨m, hm, by simp [h]⟩)

example : ylModules [⟨"a".toList, [], true, ["f".toList, "g".toList], []⟩, ⟨"notifications".toList, "2008-07-14".toList, false, [], []⟩] true =
    ⟨[⟨"a".toList, none, true, some ["f".toList, "g".toList], some []⟩, ⟨"notifications".toList, some "2008-07-14".toList, false, some [], some []⟩], true⟩ := by decide +kernel

/-- C66: submodules are never recorded, whatever the server lists. -/
theorem yang_library_submodules_false :
    ∃ m : YlMod, m.subs ≠ [] ∧ (ylModule m).subs = some [] ∧ (ylInfo m).subs ≠ some [] :=
  ⟨⟨"a".toList, "2020-01-01".toList, true, [], [("s".toList, "2020-01-01".toList)]⟩, by decide, by decide +kernel, by decide⟩

/-- C66: when the notification modules are added, the list has no terminator and the last element is partly uninitialised. -/
theorem yang_library_terminator_false :
    ylModules [⟨"a".toList, "2020-01-01".toList, true, [], []⟩] true =
      ⟨[⟨"a".toList, some "2020-01-01".toList, true, some [], some []⟩, ⟨"notifications".toList, some "2008-07-14".toList, true, some [], some []⟩,
        ⟨"nc-notifications".toList, some "2008-07-14".toList, true, none, none⟩], false⟩ := by decide +kernel

end Verif.Props
