import Verif.Lemmas.ConfStore

/-!
# Properties: keystore and truststore follow the configuration
-/

namespace Verif.Props
open Verif.ConfStore
open Verif.ConfTree (Op Meta)

/-! ## Truststore -/

/-- **C129.** For every truststore that is as configured and every sequence of diffs that fits the configuration, applying the diffs
succeeds and afterwards the truststore is as configured by the patched configuration: exactly the bags, certificates and public keys in
it, each once, with their current data. -/
theorem truststore_follows_diffs (s : Ts) (c : TsConf) (ds : List TsDiff) (c' : TsConf) (hs : HoldsTs s c)
    (hp : patchTsAll c ds = some c') : ∃ s', diffsTs (ds.map tsTree) s = .ok s' ∧ HoldsTs s' c' := by
  induction ds generalizing s c with
  | nil => simp only [patchTsAll, Option.some.injEq] at hp; subst hp; exact ⟨s, rfl, hs⟩
  | cons d ds ih =>
    simp only [patchTsAll] at hp
    cases h : patchTs c d with
    | none => rw [h] at hp; cases hp
    | some c1 =>
      rw [h] at hp
      obtain ⟨s1, h1, h2⟩ := ts_diff_ok s c d c1 hs h
      obtain ⟨s2, h3, h4⟩ := ih s1 c1 h2 hp
      exact ⟨s2, by simp only [List.map_cons, diffsTs, h1]; exact h3, h4⟩

/-- Certificate 11 of bag 1 replaced, certificate 12 removed, bag 2 added, public key 5 of bag 3 changed. -/
example : diffsTs [tsTree (.edit [.change 1 [.change 11 7, .delete 12 []], .create 2 [(21, 8)]] [.change 3 [.change 5 ⟨some 1, some 9⟩]])]
    ⟨[⟨1, [⟨12, some 1⟩, ⟨11, some 2⟩, ⟨13, some 3⟩]⟩], [⟨3, [⟨5, 0, some 4⟩]⟩]⟩ =
    .ok ⟨[⟨1, [⟨13, some 3⟩, ⟨11, some 7⟩]⟩, ⟨2, [⟨21, some 8⟩]⟩], [⟨3, [⟨5, 1, some 9⟩]⟩]⟩ := by decide

/-- The diff of the example fits and gives the expected certificates. -/
example : ∃ c', patchTsAll ⟨upd (fun _ => none) 1 (some (upd (upd (fun _ => none) 12 (some 1)) 11 (some 2))), fun _ => none⟩
      [.edit [.change 1 [.change 11 7, .delete 12 []]] []] = some c' ∧
    ∃ m, c'.certBags 1 = some m ∧ m 11 = some 7 ∧ m 12 = none := by
  refine ⟨_, rfl, _, rfl, rfl, rfl⟩

/-- **C129.** Whatever the truststore was before, after setting up complete data it is as configured by them. -/
theorem truststore_setup (s : Ts) (d : TsData) (c : TsConf) (h : d.conf = some c) :
    ∃ s', setupTs (some d.tree) s = .ok s' ∧ HoldsTs s' c := ts_data_ok d c h

/-- **C129.** Data without a truststore leave none. -/
theorem truststore_setup_none (s : Ts) : ∃ s', setupTs none s = .ok s' ∧ HoldsTs s' TsConf.empty :=
  ⟨⟨[], []⟩, rfl, holds_nil _ _, holds_nil _ _⟩

/-- Old contents are gone. -/
example : setupTs (some (TsData.tree ⟨[(1, [(11, 5)])], [(2, [(21, (1, 6))])]⟩)) ⟨[⟨9, [⟨1, some 2⟩]⟩], []⟩ =
    .ok ⟨[⟨1, [⟨11, some 5⟩]⟩], [⟨2, [⟨21, 1, some 6⟩]⟩]⟩ := by decide

example : (TsData.conf ⟨[(1, [(11, 5)])], [(2, [(21, (1, 6))])]⟩).isSome = true := by decide

/-! ## Keystore -/

/-- **C130.** Full statement (false, see `keystore_follows_diffs_false`): as for the truststore. -/
def KeystoreFollowsDiffs : Prop :=
  ∀ (s : Ks) (c : Map KeyConf) (ds : List KsDiff) (c' : Map KeyConf), HoldsKs s c → patchKsAll c ds = some c' →
    ∃ s', diffsKs (ds.map ksTree) s = .ok s' ∧ HoldsKs s' c'

/-- **C130.** Proved for all diffs that do not remove a leaf `public-key` from a key that stays. -/
theorem keystore_follows_diffs_partial (s : Ks) (c : Map KeyConf) (ds : List KsDiff) (c' : Map KeyConf) (hs : HoldsKs s c)
    (hno : ∀ d ∈ ds, d.noPubDelete) (hp : patchKsAll c ds = some c') : ∃ s', diffsKs (ds.map ksTree) s = .ok s' ∧ HoldsKs s' c' := by
  induction ds generalizing s c with
  | nil => simp only [patchKsAll, Option.some.injEq] at hp; subst hp; exact ⟨s, rfl, hs⟩
  | cons d ds ih =>
    simp only [patchKsAll] at hp
    cases h : patchKs c d with
    | none => rw [h] at hp; cases hp
    | some c1 =>
      rw [h] at hp
      obtain ⟨s1, h1, h2⟩ := ks_diff_ok s c d c1 hs (hno d (by simp)) h
      obtain ⟨s2, h3, h4⟩ := ih s1 c1 h2 (fun d' hd => hno d' (by simp [hd])) hp
      exact ⟨s2, by simp only [List.map_cons, diffsKs, h1]; exact h3, h4⟩

/-- Key 1 gets another public key and private key, key 2 is removed, key 3 created with a certificate. -/
example : diffsKs [ksTree (.edit [.change 1 ⟨.replace 0, .replace 8, some 2, some 9, [.create 4 5]⟩, .delete 2 [],
      .create 3 ⟨none, none, 1, 6, [(7, 7)]⟩])]
    ⟨[⟨1, 1, some 1, 0, some 1, []⟩, ⟨2, 1, none, 0, some 2, []⟩]⟩ =
    .ok ⟨[⟨1, 0, some 8, 2, some 9, [⟨4, some 5⟩]⟩, ⟨3, 0, none, 1, some 6, [⟨7, some 7⟩]⟩]⟩ := by decide

/-- The key of the witness: public key 5 with format 0. -/
def ksWitness : Ks := ⟨[⟨1, 0, some 5, 0, some 6, []⟩]⟩

/-- Its configuration. -/
def ksWitnessConf : Map KeyConf := upd (fun _ => none) 1 (some ⟨some 0, some 5, 0, 6, fun _ => none⟩)

/-- The diff removing the public key. -/
def ksWitnessDiff : KsDiff := .edit [.change 1 ⟨.delete 0, .delete 5, none, none, []⟩]

theorem ksWitness_holds : HoldsKs ksWitness ksWitnessConf := by
  have := holds_append AsymKey.name KRel [] (fun _ => none) (holds_nil _ _) ⟨1, 0, some 5, 0, some 6, []⟩
    ⟨some 0, some 5, 0, 6, fun _ => none⟩ rfl ⟨by simp, rfl, rfl, rfl, holds_nil _ _⟩
  exact this

/-- **C130, false in general.** Removing the public key of an asymmetric key by a diff succeeds but the server keeps it: the callback
ignores the operation and sets the removed value again (src/server_config_ks.c:254-273). -/
theorem keystore_follows_diffs_false : ¬ KeystoreFollowsDiffs := by
  intro h
  obtain ⟨s', h1, h2⟩ := h ksWitness ksWitnessConf [ksWitnessDiff] (upd ksWitnessConf 1 (some ⟨none, none, 0, 6, fun _ => none⟩))
    ksWitness_holds rfl
  have hs : diffsKs ([ksWitnessDiff].map ksTree) ksWitness = .ok ksWitness := by decide
  rw [hs] at h1
  cases h1
  have := h2.2 1
  rw [upd_same] at this
  exact absurd this.2.1 (by decide)

/-- **C130.** Whatever the keystore was before, after setting up complete data it is as configured by them. -/
theorem keystore_setup (s : Ks) (l : List (Nat × KeyData)) (c : Map KeyConf) (h : ksDataConf l = some c) :
    ∃ s', setupKs (some (ksDataTree l)) s = .ok s' ∧ HoldsKs s' c := ks_data_ok l c h

example : setupKs (some (ksDataTree [(1, ⟨some 1, some 5, 2, 6, [(7, 8)]⟩), (2, ⟨none, none, 0, 9, []⟩)])) ksWitness =
    .ok ⟨[⟨1, 1, some 5, 2, some 6, [⟨7, some 8⟩]⟩, ⟨2, 0, none, 0, some 9, []⟩]⟩ := by decide

example : (ksDataConf [(1, ⟨some 1, some 5, 2, 6, [(7, 8)]⟩), (2, ⟨none, none, 0, 9, []⟩)]).isSome = true := by decide

/-- **C130.** Data without a keystore leave none. -/
theorem keystore_setup_none (s : Ks) : ∃ s', setupKs none s = .ok s' ∧ HoldsKs s' (fun _ => none) :=
  ⟨⟨[]⟩, rfl, holds_nil _ _⟩

end Verif.Props
