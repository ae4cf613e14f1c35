import Verif.Lemmas.ConfUsers

/-!
# Properties: users and host keys of an SSH endpoint follow the configuration
-/

namespace Verif.Props
open Verif.ConfUsers
open Verif.ConfStore

/-- No key is in the SubjectPublicKeyInfo format, for the examples. -/
def noSpki (_ : Nat) : Bool := false

/-! ## Users and host keys -/

/-- **C131.** Full statement (false, see `ssh_follows_diffs_false`): whatever data were set up and whatever diffs that fit them were
applied afterwards, users authenticate and host keys are as in the patched configuration. -/
def SshFollowsDiffs (spki : Nat → Bool) : Prop :=
  ∀ (d : SshData) (ds : List SshDiff) (c c' : SshConf), d.conf spki = some c → patchSshAll spki c ds = some c' →
    ∃ s, run spki d.tree (ds.map sshTree) = .ok s ∧ SshAs s c'

/-- **C131.** Proved for all diffs without the changes in `UserConf.lost` and `HostChange.lost`: the server has exactly the users and host
keys of the patched configuration, and each user authenticates with exactly the public keys, password and methods configured. -/
theorem ssh_follows_diffs_partial (spki : Nat → Bool) (d : SshData) (ds : List SshDiff) (c c' : SshConf) (h : d.conf spki = some c)
    (h' : patchSafeAll spki c ds = some c') : ∃ s, run spki d.tree (ds.map sshTree) = .ok s ∧ SshAs s c' := by
  obtain ⟨s, h1, h2, -⟩ := run_ok spki d ds c c' h h'
  exact ⟨s, h1, sshAs_of_rep spki s c' h2⟩

/-- The diffs covered do what diffs should do. -/
theorem ssh_safe_diffs (spki : Nat → Bool) (c c' : SshConf) (d : SshDiff) (h : patchSafe spki c d = some c') : patchSsh spki c d = some c' := by
  have key : ∀ {ι ε α : Type} (mk : ι → Option α) (ch ch' : α → ε → Option α) (hch : ∀ a e b, ch' a e = some b → ch a e = some b)
      (es : List (Edit ι ε)) (m m' : Map α), patchAll mk ch' m es = some m' → patchAll mk ch m es = some m' := by
    intro ι ε α mk ch ch' hch es
    induction es with
    | nil => intro m m' h; exact h
    | cons e es ih =>
      intro m m' h
      simp only [patchAll] at h ⊢
      cases hp : patch mk ch' m e with
      | none => rw [hp] at h; cases h
      | some m1 =>
        rw [hp] at h
        have : patch mk ch m e = some m1 := by
          cases e with
          | create k x => exact hp
          | delete k r => exact hp
          | change k e =>
            obtain ⟨y, z, h1, h2, rfl⟩ := patch_change _ _ _ _ _ _ hp
            simp [patch, h1, hch y e z h2]
        rw [this]
        exact ih m1 m' h
  simp only [patchSafe] at h
  split at h
  · rename_i hm um e1 e2
    have h1 := key _ (HostConf.change spki) _ (by intro a e b hb; split at hb; · cases hb
                                                  · exact hb) _ _ _ e1
    have h2 := key _ (UserConf.change spki) _ (by intro a e b hb; split at hb; · cases hb
                                                  · exact hb) _ _ _ e2
    simp only [Option.some.injEq] at h; subst h
    simp [patchSsh, patchHosts, patchUsers, h1, h2]
  · cases h

/-- **C131.** After whole data the server works as configured by them. -/
theorem ssh_setup (spki : Nat → Bool) (d : SshData) (c : SshConf) (h : d.conf spki = some c) :
    ∃ s, run spki d.tree [] = .ok s ∧ SshAs s c :=
  ssh_follows_diffs_partial spki d [] c c h rfl

/-- Data with two host keys and two users. -/
def sshSample : SshData :=
  ⟨[(1, .inline (some 1) (some 5) 2 6), (2, .ref 7)],
   [(10, ⟨some (.inline [(1, (0, 20)), (2, (1, 21))]), some 30, false, true⟩), (11, ⟨some .system, none, true, false⟩)]⟩

example : (sshSample.conf noSpki).isSome = true := by decide

example : run noSpki sshSample.tree [] =
    .ok ⟨[⟨1, .local, none, 1, some 5, 2, some 6⟩, ⟨2, .keystore, some 7, 0, none, 0, none⟩],
      [⟨10, .local, .keys [⟨1, 0, some 20⟩, ⟨2, 1, some 21⟩], 2, some 30, true, false⟩, ⟨11, .system, .null, 0, none, false, true⟩]⟩ := by decide +kernel

/-- One key of user 10 is removed, one added and their password removed; user 11 gets keys in the configuration; user 12 is new with keys
of the truststore; host key 1 is removed and the other one replaced. -/
def sshSampleDiff : SshDiff :=
  ⟨[.delete 1 [], .change 2 (.toInline 7 none (some 8) 0 9)],
   [.change 10 ⟨.edit [.delete 1 [], .create 3 (1, 22)], .delete 30, .on, .keep⟩,
    .change 11 ⟨.switch .system (.inline [(4, (0, 23))]), .keep, .off, .keep⟩,
    .create 12 ⟨some (.bag 40), none, false, false⟩]⟩

example : ((sshSample.conf noSpki).bind (fun c => patchSafeAll noSpki c [sshSampleDiff])).isSome = true := by decide

example : run noSpki sshSample.tree [sshTree sshSampleDiff] =
    .ok ⟨[⟨2, .local, none, 0, some 8, 0, some 9⟩],
      [⟨10, .local, .keys [⟨2, 1, some 21⟩, ⟨3, 1, some 22⟩], 2, none, true, true⟩, ⟨11, .local, .keys [⟨4, 0, some 23⟩], 1, none, false, false⟩,
       ⟨12, .truststore, .str 40, 0, none, false, false⟩]⟩ := by decide +kernel

/-! ## Changes that are not followed -/

/-- One user with these settings. -/
def oneUser (d : UserData) : SshData := ⟨[], [(1, d)]⟩

/-- A diff of this user. -/
def oneDiff (e : UserChange) : SshDiff := ⟨[], [.change 1 e]⟩

/-- The diff that removes their public keys. -/
def noKeys (rest : List Tree) : SshDiff := oneDiff ⟨.delete rest, .keep, .keep, .keep⟩

/-- **C131, false in general.** After the keys of a user are removed from the configuration, the server still accepts the keys in the files
of the system: `nc_server_config_del_auth_client_pubkeys` does not reset the store (src/server_config.c:604-618). -/
theorem ssh_follows_diffs_false : ¬ SshFollowsDiffs noSpki := by
  intro h
  obtain ⟨s, h1, h2⟩ := h (oneUser ⟨some .system, none, false, false⟩) [noKeys [leaf .useSystemKeys 0]]
    ⟨fun _ => none, upd (fun _ => none) 1 (some ⟨some .system, none, false, false⟩)⟩
    ⟨fun _ => none, upd (upd (fun _ => none) 1 (some ⟨some .system, none, false, false⟩)) 1 (some ⟨none, none, false, false⟩)⟩ rfl rfl
  have hs : run noSpki (oneUser ⟨some .system, none, false, false⟩).tree ([noKeys [leaf .useSystemKeys 0]].map sshTree) =
      .ok ⟨[], [⟨1, .system, .null, 0, none, false, false⟩]⟩ := by decide
  rw [hs] at h1
  cases h1
  have h3 : AuthAs (User.auth ⟨1, .system, .null, 0, none, false, false⟩) none := (h2.2.2 1).1
  exact absurd h3 (by simp [AuthAs, User.auth])

/-- The configuration after the diff has no public keys for the user, the server accepts those of the system. -/
theorem system_keys_stay : ∃ c c' s, (oneUser ⟨some .system, none, false, false⟩).conf noSpki = some c ∧
    patchSshAll noSpki c [noKeys [leaf .useSystemKeys 0]] = some c' ∧ (c'.users 1).map UserConf.keys = some none ∧
    run noSpki (oneUser ⟨some .system, none, false, false⟩).tree [sshTree (noKeys [leaf .useSystemKeys 0])] = .ok s ∧
    authOf s 1 = some (some .system) :=
  ⟨_, _, _, rfl, rfl, rfl, rfl, by decide⟩

/-- With keys of the truststore the name of the bag is freed and the next authentication compares names with NULL. -/
theorem truststore_keys_removed_ub : ∃ c c' s, (oneUser ⟨some (.bag 5), none, false, false⟩).conf noSpki = some c ∧
    patchSshAll noSpki c [noKeys [leaf .centralTruststoreReference 5]] = some c' ∧ (c'.users 1).map UserConf.keys = some none ∧
    run noSpki (oneUser ⟨some (.bag 5), none, false, false⟩).tree [sshTree (noKeys [leaf .centralTruststoreReference 5])] = .ok s ∧
    authOf s 1 = some none :=
  ⟨_, _, _, rfl, rfl, rfl, rfl, by decide⟩

/-- Keyboard-interactive authentication turned off by a diff stays on: the callback belongs to the leaf `use-system-auth`, and leaves below a
removed container are not visited. -/
theorem kbdint_stays : ∃ c c' s, (oneUser ⟨none, some 3, false, true⟩).conf noSpki = some c ∧
    patchSshAll noSpki c [oneDiff ⟨.keep, .keep, .keep, .off⟩] = some c' ∧ (c'.users 1).map UserConf.kbdint = some false ∧
    run noSpki (oneUser ⟨none, some 3, false, true⟩).tree [sshTree (oneDiff ⟨.keep, .keep, .keep, .off⟩)] = .ok s ∧
    (s.users.find? (fun u => u.name == 1)).map User.kbdint = some true :=
  ⟨_, _, _, rfl, rfl, rfl, rfl, by decide⟩

/-- Keys of the truststore replaced by a key in the configuration: the new array is freed as if it were the name of the bag, the next
authentication reads the key through NULL, and so does the removal of the user. -/
theorem truststore_to_inline_ub : ∃ c c' s, (oneUser ⟨some (.bag 5), none, false, false⟩).conf noSpki = some c ∧
    patchSshAll noSpki c [oneDiff ⟨.switch (.bag 5) (.inline [(2, (0, 9))]), .keep, .keep, .keep⟩] = some c' ∧
    run noSpki (oneUser ⟨some (.bag 5), none, false, false⟩).tree
      [sshTree (oneDiff ⟨.switch (.bag 5) (.inline [(2, (0, 9))]), .keep, .keep, .keep⟩)] = .ok s ∧
    authOf s 1 = some none ∧ diffs noSpki [sshTree ⟨[], [.delete 1 []]⟩] s = .ub :=
  ⟨_, _, _, rfl, rfl, rfl, by decide, by decide⟩

/-- The diffs of the next theorem: from keys in the configuration to those of the system and back to another key. -/
def thereAndBack : List SshDiff :=
  [oneDiff ⟨.switch (.inline []) .system, .keep, .keep, .keep⟩, oneDiff ⟨.switch .system (.inline [(2, (0, 9))]), .keep, .keep, .keep⟩]

/-- A key that was in the configuration long ago is accepted again: it is not removed when the keys are replaced by those of the system, and
comes back with the next key. -/
theorem old_key_comes_back : ∃ c c' s m, (oneUser ⟨some (.inline [(1, (0, 8))]), none, false, false⟩).conf noSpki = some c ∧
    patchSshAll noSpki c thereAndBack = some c' ∧ (c'.users 1).map UserConf.keys = some (some (.inline m)) ∧ m 1 = none ∧
    run noSpki (oneUser ⟨some (.inline [(1, (0, 8))]), none, false, false⟩).tree (thereAndBack.map sshTree) = .ok s ∧
    authOf s 1 = some (some (.keys [⟨1, 0, some 8⟩, ⟨2, 0, some 9⟩])) :=
  ⟨_, _, _, _, rfl, rfl, rfl, rfl, rfl, by decide⟩

/-- A host key of the keystore replaced by a private key without public key: the server searches a key without name. -/
theorem hostkey_to_inline_ub : ∃ c c' s, (SshData.mk [(1, .ref 5)] []).conf noSpki = some c ∧
    patchSshAll noSpki c [⟨[.change 1 (.toInline 5 none none 0 9)], []⟩] = some c' ∧
    run noSpki (SshData.mk [(1, .ref 5)] []).tree [sshTree ⟨[.change 1 (.toInline 5 none none 0 9)], []⟩] = .ok s ∧
    s.hostKeys.map HostKey.priv = [none] :=
  ⟨_, _, _, rfl, rfl, rfl, by decide⟩

/-- **C131.** Keys given in the configuration replaced by a bag of the truststore or by keys of the system: this is what counts from then on
until the next change. -/
theorem keys_replaced_at_once (spki : Nat → Bool) (d : SshData) (ds : List SshDiff) (c c' : SshConf) (h : d.conf spki = some c)
    (h' : patchSafeAll spki c ds = some c') (n : Nat) (uc : UserConf) (hn : c'.users n = some uc) (r : List Tree) :
    (∀ b, ∃ s, run spki d.tree (ds.map sshTree ++ [sshTree ⟨[], [.change n ⟨.switch (.inline r) (.bag b), .keep, .keep, .keep⟩]⟩]) = .ok s ∧
      authOf s n = some (some (.bag b))) ∧
    (∃ s, run spki d.tree (ds.map sshTree ++ [sshTree ⟨[], [.change n ⟨.switch (.inline r) .system, .keep, .keep, .keep⟩]⟩]) = .ok s ∧
      authOf s n = some (some .system)) := by
  obtain ⟨s, h1, h2, -⟩ := run_ok spki d ds c c' h h'
  obtain ⟨i, u, g1, g2, g3, g4, -⟩ := holds_get User.name _ _ _ h2.2 n uc hn
  have hfind : ∀ u' : User, u'.name = u.name → authOf { s with users := s.users.set i u' } n = some u'.auth := by
    intro u' hu'
    have := findIdx_set User.name s.users n i u u' g1 g2 hu'
    have hf : (s.users.set i u').find? (fun u => u.name == n) = some u' := by
      obtain ⟨l1, l2, l3⟩ := List.findIdx?_eq_some_iff_getElem.mp this
      rw [List.find?_eq_some_iff_getElem]
      refine ⟨by simpa using l2, i, l1, ?_, ?_⟩
      · simp
      · intro j hj; simpa using l3 j hj
    simp only [authOf, hf, Option.map_some]
  obtain ⟨k1, k2⟩ := switch_inline spki n (some 0) (some 0) (sPath (some 0)) u r
  refine ⟨fun b => ?_, ?_⟩
  · obtain ⟨e1, e2⟩ := user_diff spki s n i u { u with store := .truststore, ptr := .str b } ⟨.switch (.inline r) (.bag b), .keep, .keep, .keep⟩ g1 g2
      (by simp [KeysEdit.trees, switchTrees, leafTree, noneTrees, kbdTrees, visitsL, visits, leaf, inUser, notUser])
      (by simpa [leafTree, noneTrees, kbdTrees] using k1 b)
    exact ⟨_, (run_append spki d.tree _ _ s h1).trans e1, hfind _ rfl⟩
  · obtain ⟨e1, e2⟩ := user_diff spki s n i u { u with store := .system } ⟨.switch (.inline r) .system, .keep, .keep, .keep⟩ g1 g2
      (by simp [KeysEdit.trees, switchTrees, leafTree, noneTrees, kbdTrees, visitsL, visits, leaf, inUser, notUser])
      (by simpa [leafTree, noneTrees, kbdTrees] using k2)
    exact ⟨_, (run_append spki d.tree _ _ s h1).trans e1, hfind _ rfl⟩

example : run noSpki sshSample.tree [sshTree ⟨[], [.change 10 ⟨.switch (.inline []) (.bag 8), .keep, .keep, .keep⟩]⟩] =
    .ok ⟨[⟨1, .local, none, 1, some 5, 2, some 6⟩, ⟨2, .keystore, some 7, 0, none, 0, none⟩],
      [⟨10, .truststore, .str 8, 2, some 30, true, false⟩, ⟨11, .system, .null, 0, none, false, true⟩]⟩ := by decide +kernel

/-! ## Order of host keys -/

/-- **C132.** Full statement (false, see `hostkey_order_false`): the host keys are in the order of the configuration. -/
def HostkeyOrder (spki : Nat → Bool) : Prop :=
  ∀ (d : SshData) (ds : List SshDiff) (c c' : SshConf), d.conf spki = some c → patchSafeAll spki c ds = some c' →
    ∃ s, run spki d.tree (ds.map sshTree) = .ok s ∧
      s.hostKeys.map HostKey.name = ds.foldl (fun ns d => d.hosts.foldl hostOrder ns) (d.hosts.map Prod.fst)

/-- **C132.** Proved as long as no host key is removed. -/
theorem hostkey_order_partial (spki : Nat → Bool) (d : SshData) (ds : List SshDiff) (c c' : SshConf) (h : d.conf spki = some c)
    (h' : patchSafeAll spki c ds = some c') (hd : ∀ d ∈ ds, ∀ e ∈ d.hosts, isDelete e = false) :
    ∃ s, run spki d.tree (ds.map sshTree) = .ok s ∧
      s.hostKeys.map HostKey.name = ds.foldl (fun ns d => d.hosts.foldl hostOrder ns) (d.hosts.map Prod.fst) := by
  obtain ⟨s, h1, -, h3⟩ := run_ok spki d ds c c' h h'
  refine ⟨s, h1, h3 (fun d hm => ?_)⟩
  rw [List.all_eq_true]
  intro e he
  simp [hd d hm e he]

/-- Two host keys from the data and a third one. -/
example : (run noSpki sshSample.tree [sshTree ⟨[.create 3 (.ref 9)], []⟩] =
    .ok ⟨[⟨1, .local, none, 1, some 5, 2, some 6⟩, ⟨2, .keystore, some 7, 0, none, 0, none⟩, ⟨3, .keystore, some 9, 0, none, 0, none⟩],
      [⟨10, .local, .keys [⟨1, 0, some 20⟩, ⟨2, 1, some 21⟩], 2, some 30, true, false⟩, ⟨11, .system, .null, 0, none, false, true⟩]⟩) := by decide +kernel

/-- Three host keys; the first one is removed. -/
def threeKeys : SshData := ⟨[(1, .ref 4), (2, .ref 5), (3, .ref 6)], []⟩

/-- **C132, false in general.** The last host key takes the place of a removed one (src/server_config.c:580-586). -/
theorem hostkey_order_false : ¬ HostkeyOrder noSpki := by
  intro h
  obtain ⟨s, h1, h2⟩ := h threeKeys [⟨[.delete 1 []], []⟩] _ _ rfl rfl
  have hs : run noSpki threeKeys.tree ([(⟨[.delete 1 []], []⟩ : SshDiff)].map sshTree) =
      .ok ⟨[⟨3, .keystore, some 6, 0, none, 0, none⟩, ⟨2, .keystore, some 5, 0, none, 0, none⟩], []⟩ := by decide
  rw [hs] at h1
  cases h1
  exact absurd h2 (by decide)

end Verif.Props
