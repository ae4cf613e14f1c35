import Verif.Lemmas.ConfUsers
import Verif.Spec.ConfTls
import Verif.Lemmas.Ctn

/-! Lemmas about `Model.ConfTls`. -/

namespace Verif.ConfTls
open Verif.ConfTree (Op Meta current)
open Verif.ConfStore
open Verif.ConfUsers (parentN keyOr pubSupported Focus focus focusL visits visitsL visitsL_append visitsL_map leafEdit_old leafEdit_new holds_mono)

theorem leaf_cb {σ : Type} (cb : List Anc → Nat → Op → σ → Res σ) (p : Op) (mt : Meta) (path : List Anc) (s : σ) (l : Label) (v : Nat)
    (h : current mt p = .create ∨ current mt p = .replace ∨ current mt p = .delete) :
    parse cb p path s (leaf l v mt) = cb (⟨l, none⟩ :: path) v (current mt p) s := by
  simp only [leaf, parse, List.head?_nil, Option.map_none, parseList]
  rcases h with h | h | h <;> rw [h] <;> simp <;> cases cb (⟨l, none⟩ :: path) v _ s <;> rfl

theorem single {σ : Type} (cb : List Anc → Nat → Op → σ → Res σ) (p : Op) (path : List Anc) (s s' : σ) (t : Tree) (h : parse cb p path s t = .ok s') :
    parseList cb p path s [t] = .ok s' := by
  rw [parseList_cons _ _ _ _ _ _ _ h, parseList_nil]

/-! ## Identity -/

/-- The identity is as configured. -/
def IdRep (spki : Nat → Bool) (i : Ident) (c : IdConf) : Prop :=
  c.valid spki = true ∧
  match c with
  | .inline f _ pf pd cert => i.store = .local ∧ i.privType = pf ∧ i.privData = some pd ∧ i.certData = cert ∧ (f = none → i.slot0.freeable = true)
  | .ref k c => i.store = .keystore ∧ i.slot0 = .str k ∧ i.slot1 = some c

/-- The path of the leaves of `inline-definition`. -/
def iPath (a b c : Option Nat) (rest : List Anc) : List Anc := ⟨.inlineDefinition, a⟩ :: ⟨.certificate, b⟩ :: ⟨.serverIdentity, c⟩ :: rest

/-- The path of the leaves of `central-keystore-reference`. -/
def rPath (a b c : Option Nat) (rest : List Anc) : List Anc := ⟨.centralKeystoreReference, a⟩ :: ⟨.certificate, b⟩ :: ⟨.serverIdentity, c⟩ :: rest

theorem setting_of (op : Op) (h : op = .create ∨ op = .replace) : setting op = true := by rcases h with rfl | rfl <;> rfl

theorem fmt_set (spki : Nat → Bool) (a b c : Option Nat) (rest : List Anc) (i : Ident) (op : Op) (h : op = .create ∨ op = .replace) :
    idCb spki (⟨.publicKeyFormat, none⟩ :: iPath a b c rest) 1 op i = .ok { i with slot0 := i.slot0.write 1 } := by
  simp [idCb, iPath, parentN, idPubFormat, pubSupported, setting_of op h]

theorem pub_set (spki : Nat → Bool) (a b c : Option Nat) (rest : List Anc) (i : Ident) (v : Nat) (op : Op) (h : op = .create ∨ op = .replace) (hv : spki v = true) :
    idCb spki (⟨.publicKey, none⟩ :: iPath a b c rest) v op i = .ok { i with store := .local, slot1 := some v } := by
  simp [idCb, iPath, parentN, idPublicKey, hv, setting_of op h]

theorem pub_del (spki : Nat → Bool) (a b c : Option Nat) (rest : List Anc) (i : Ident) (v : Nat) (hv : spki v = true) :
    idCb spki (⟨.publicKey, none⟩ :: iPath a b c rest) v .delete i = .ok i := by
  simp [idCb, iPath, parentN, idPublicKey, hv, setting]

theorem pf_set (spki : Nat → Bool) (path : List Anc) (i : Ident) (v : Nat) (op : Op) (hv : privOk v = true) :
    idCb spki (⟨.privateKeyFormat, none⟩ :: path) v op i = .ok { i with privType := v } := by
  have : privSupported v = true := by
    simp only [privOk, Bool.or_eq_true, beq_iff_eq] at hv
    simp only [privSupported, decide_eq_true_eq]; omega
  simp [idCb, idPrivFormat, this]

theorem pd_set (spki : Nat → Bool) (path : List Anc) (i : Ident) (v : Nat) (op : Op) (h : op = .create ∨ op = .replace) :
    idCb spki (⟨.cleartextPrivateKey, none⟩ :: path) v op i = .ok { i with privData := some v } := by
  simp [idCb, idPrivKey, setting_of op h]

theorem cd_set (spki : Nat → Bool) (a b c : Option Nat) (rest : List Anc) (i : Ident) (v : Nat) (op : Op) (h : op = .create ∨ op = .replace) :
    idCb spki (⟨.certData, none⟩ :: iPath a b c rest) v op i = .ok { i with certData := some v } := by
  simp [idCb, iPath, parentN, idCertData, setting_of op h]

theorem kr_set (spki : Nat → Bool) (path : List Anc) (i : Ident) (v : Nat) (op : Op) (h : op = .create ∨ op = .replace) (hf : i.slot0.freeable = true) :
    idCb spki (⟨.asymmetricKey, none⟩ :: path) v op i = .ok { i with store := .keystore, slot0 := .str v } := by
  simp [idCb, idKeyRef, hf, setting_of op h]

theorem cr_set (spki : Nat → Bool) (a b c : Option Nat) (rest : List Anc) (i : Ident) (v : Nat) (op : Op) (h : op = .create ∨ op = .replace) :
    idCb spki (⟨.certificate, none⟩ :: rPath a b c rest) v op i = .ok { i with store := .keystore, slot1 := some v } := by
  simp [idCb, rPath, parentN, idCertRef, setting_of op h]

theorem id_valid (spki : Nat → Bool) (f p : Option Nat) (pf pd : Nat) (c : Option Nat) (h : (IdConf.inline f p pf pd c).valid spki = true) :
    (∀ v, f = some v → v = 1) ∧ (∀ v, p = some v → spki v = true) ∧ privOk pf = true := by
  simp only [IdConf.valid, Bool.and_eq_true] at h
  refine ⟨?_, ?_, h.2⟩
  · rintro v rfl; simpa using h.1.1
  · rintro v rfl; simpa using h.1.2

theorem cc : current .absent .create = .create := rfl

/-- Creation of all leaves of `inline-definition`. -/
theorem inline_create (spki : Nat → Bool) (a b c : Option Nat) (rest : List Anc) (i : Ident) (f p : Option Nat) (pf pd : Nat) (cert : Option Nat)
    (hv : (IdConf.inline f p pf pd cert).valid spki = true) :
    ∃ i', parseList (idCb spki) .create (iPath a b c rest) i (idTrees f p pf pd cert) = .ok i' ∧
      i'.store = (if p.isSome then .local else i.store) ∧ i'.privType = pf ∧ i'.privData = some pd ∧
      i'.certData = (if cert.isSome then cert else i.certData) ∧ (f = none → i'.slot0 = i.slot0) := by
  obtain ⟨h1, h2, h3⟩ := id_valid spki f p pf pd cert hv
  have g1 : ∃ j, parseList (idCb spki) .create (iPath a b c rest) i (optLeaf .publicKeyFormat f) = .ok j ∧
      j.store = i.store ∧ j.certData = i.certData ∧ (f = none → j.slot0 = i.slot0) := by
    cases f with
    | none => exact ⟨i, parseList_nil _ _ _ _, rfl, rfl, fun _ => rfl⟩
    | some v =>
      obtain rfl := h1 v rfl
      exact ⟨_, single _ _ _ _ _ _ ((leaf_cb _ _ _ _ _ _ _ (Or.inl rfl)).trans (fmt_set spki a b c rest i _ (Or.inl rfl))), rfl, rfl, fun h => by cases h⟩
  obtain ⟨j, g1, j1, j2, j3⟩ := g1
  have g2 : ∃ k, parseList (idCb spki) .create (iPath a b c rest) j (optLeaf .publicKey p) = .ok k ∧
      k.store = (if p.isSome then .local else i.store) ∧ k.certData = i.certData ∧ k.slot0 = j.slot0 := by
    cases p with
    | none => exact ⟨j, parseList_nil _ _ _ _, by simp [j1], j2, rfl⟩
    | some v =>
      exact ⟨_, single _ _ _ _ _ _ ((leaf_cb _ _ _ _ _ _ _ (Or.inl rfl)).trans (pub_set spki a b c rest j v _ (Or.inl rfl) (h2 v rfl))), rfl, j2, rfl⟩
  obtain ⟨k, g2, k1, k2, k3⟩ := g2
  have g3 : parse (idCb spki) .create (iPath a b c rest) k (leaf .privateKeyFormat pf) = .ok { k with privType := pf } :=
    (leaf_cb _ _ _ _ _ _ _ (Or.inl rfl)).trans (pf_set spki _ k pf _ h3)
  have g4 : parse (idCb spki) .create (iPath a b c rest) { k with privType := pf } (leaf .cleartextPrivateKey pd) = .ok { k with privType := pf, privData := some pd } :=
    (leaf_cb _ _ _ _ _ _ _ (Or.inl rfl)).trans (pd_set spki _ _ pd _ (Or.inl rfl))
  rw [idTrees, parseList_append _ _ _ _ _ _ _ g1, parseList_append _ _ _ _ _ _ _ g2, parseList_cons _ _ _ _ _ _ _ g3, parseList_cons _ _ _ _ _ _ _ g4]
  cases cert with
  | none => exact ⟨_, parseList_nil _ _ _ _, k1, rfl, rfl, by simp [k2], fun h => k3.trans (j3 h)⟩
  | some v =>
    exact ⟨_, single _ _ _ _ _ _ ((leaf_cb _ _ _ _ _ _ _ (Or.inl rfl)).trans (cd_set spki a b c rest _ v _ (Or.inl rfl))), k1, rfl, rfl, by simp, fun h => k3.trans (j3 h)⟩

/-- Changes of leaves of `inline-definition`. -/
theorem leaves_change (spki : Nat → Bool) (a b c : Option Nat) (rest : List Anc) (i : Ident) (f p f' p' : Option Nat) (pf pd : Nat) (cert cert' : Option Nat)
    (ef ep ec : LeafEdit) (epf epd : Option Nat) (hr : IdRep spki i (.inline f p pf pd cert))
    (hf : ef.apply f = some f') (hp : ep.apply p = some p') (hc : ec.apply cert = some cert')
    (hv : (IdConf.inline f' p' (epf.getD pf) (epd.getD pd) cert').valid spki = true)
    (hl1 : ∀ v, ef ≠ .delete v) (hl2 : ∀ v, ec ≠ .delete v) :
    ∃ i', parseList (idCb spki) .none (iPath a b c rest) i (leafTree .publicKeyFormat ef ++ (leafTree .publicKey ep ++
      (replaced .privateKeyFormat epf ++ (replaced .cleartextPrivateKey epd ++ leafTree .certData ec)))) = .ok i' ∧
      IdRep spki i' (.inline f' p' (epf.getD pf) (epd.getD pd) cert') := by
  obtain ⟨hv0, r1, r2, r3, r4, r5⟩ := hr
  obtain ⟨v1, v2, v3⟩ := id_valid spki _ _ _ _ _ hv
  obtain ⟨w1, w2, w3⟩ := id_valid spki _ _ _ _ _ hv0
  have g1 : ∃ j, parseList (idCb spki) .none (iPath a b c rest) i (leafTree .publicKeyFormat ef) = .ok j ∧
      j.store = .local ∧ j.privType = pf ∧ j.privData = some pd ∧ j.certData = cert ∧ (f' = none → j.slot0.freeable = true) := by
    cases ef with
    | keep => cases hf; exact ⟨i, parseList_nil _ _ _ _, r1, r2, r3, r4, r5⟩
    | create v =>
      have := leafEdit_new _ _ _ v hf (Or.inl rfl); subst this
      obtain rfl := v1 v rfl
      exact ⟨_, single _ _ _ _ _ _ ((leaf_cb _ _ _ _ _ _ _ (Or.inl rfl)).trans (fmt_set spki a b c rest i _ (Or.inl rfl))), r1, r2, r3, r4, fun h => by cases h⟩
    | replace v =>
      have := leafEdit_new _ _ _ v hf (Or.inr rfl); subst this
      obtain rfl := v1 v rfl
      exact ⟨_, single _ _ _ _ _ _ ((leaf_cb _ _ _ _ _ _ _ (Or.inr (Or.inl rfl))).trans (fmt_set spki a b c rest i _ (Or.inr rfl))), r1, r2, r3, r4, fun h => by cases h⟩
    | delete v => exact absurd rfl (hl1 v)
  obtain ⟨j, g1, j1, j2, j3, j4, j5⟩ := g1
  have g2 : ∃ k, parseList (idCb spki) .none (iPath a b c rest) j (leafTree .publicKey ep) = .ok k ∧
      k.store = .local ∧ k.privType = pf ∧ k.privData = some pd ∧ k.certData = cert ∧ k.slot0 = j.slot0 := by
    cases ep with
    | keep => exact ⟨j, parseList_nil _ _ _ _, j1, j2, j3, j4, rfl⟩
    | create v =>
      have := leafEdit_new _ _ _ v hp (Or.inl rfl); subst this
      exact ⟨_, single _ _ _ _ _ _ ((leaf_cb _ _ _ _ _ _ _ (Or.inl rfl)).trans (pub_set spki a b c rest j v _ (Or.inl rfl) (v2 v rfl))), rfl, j2, j3, j4, rfl⟩
    | replace v =>
      have := leafEdit_new _ _ _ v hp (Or.inr rfl); subst this
      exact ⟨_, single _ _ _ _ _ _ ((leaf_cb _ _ _ _ _ _ _ (Or.inr (Or.inl rfl))).trans (pub_set spki a b c rest j v _ (Or.inr rfl) (v2 v rfl))), rfl, j2, j3, j4, rfl⟩
    | delete v =>
      have := leafEdit_old _ _ _ v hp rfl; subst this
      exact ⟨_, single _ _ _ _ _ _ ((leaf_cb _ _ _ _ _ _ _ (Or.inr (Or.inr rfl))).trans (pub_del spki a b c rest j v (w2 v rfl))), j1, j2, j3, j4, rfl⟩
  obtain ⟨k, g2, k1, k2, k3, k4, k5⟩ := g2
  have g3 : parseList (idCb spki) .none (iPath a b c rest) k (replaced .privateKeyFormat epf) = .ok { k with privType := epf.getD pf } := by
    cases epf with
    | none => rw [replaced, parseList_nil]; simp only [Option.getD_none, ← k2]
    | some v => exact single _ _ _ _ _ _ ((leaf_cb _ _ _ _ _ _ _ (Or.inr (Or.inl rfl))).trans (pf_set spki _ k v _ v3))
  have g4 : parseList (idCb spki) .none (iPath a b c rest) { k with privType := epf.getD pf } (replaced .cleartextPrivateKey epd) =
      .ok { k with privType := epf.getD pf, privData := some (epd.getD pd) } := by
    cases epd with
    | none => rw [replaced, parseList_nil]; simp only [Option.getD_none, ← k3]
    | some v => exact single _ _ _ _ _ _ ((leaf_cb _ _ _ _ _ _ _ (Or.inr (Or.inl rfl))).trans (pd_set spki _ _ v _ (Or.inr rfl)))
  rw [parseList_append _ _ _ _ _ _ _ g1, parseList_append _ _ _ _ _ _ _ g2, parseList_append _ _ _ _ _ _ _ g3, parseList_append _ _ _ _ _ _ _ g4]
  have hfree : f' = none → k.slot0.freeable = true := fun h => by rw [k5]; exact j5 h
  cases ec with
  | keep => cases hc; exact ⟨_, parseList_nil _ _ _ _, hv, k1, rfl, rfl, k4, hfree⟩
  | create v =>
    have := leafEdit_new _ _ _ v hc (Or.inl rfl); subst this
    exact ⟨_, single _ _ _ _ _ _ ((leaf_cb _ _ _ _ _ _ _ (Or.inl rfl)).trans (cd_set spki a b c rest _ v _ (Or.inl rfl))), hv, k1, rfl, rfl, rfl, hfree⟩
  | replace v =>
    have := leafEdit_new _ _ _ v hc (Or.inr rfl); subst this
    exact ⟨_, single _ _ _ _ _ _ ((leaf_cb _ _ _ _ _ _ _ (Or.inr (Or.inl rfl))).trans (cd_set spki a b c rest _ v _ (Or.inr rfl))), hv, k1, rfl, rfl, rfl, hfree⟩
  | delete v => exact absurd rfl (hl2 v)

/-- Nodes that only lead to others. -/
theorem id_pass (spki : Nat → Bool) (l : Label) (hl : l = .inlineDefinition ∨ l = .centralKeystoreReference) (k : Option Nat) (path : List Anc) (v : Nat) (op : Op) (i : Ident) :
    idCb spki (⟨l, k⟩ :: path) v op i = .ok i := by
  rcases hl with rfl | rfl <;> rfl

theorem ref_create (spki : Nat → Bool) (a b c : Option Nat) (rest : List Anc) (i : Ident) (k cr : Nat) (hf : i.slot0.freeable = true) :
    parseList (idCb spki) .create (rPath a b c rest) i (refTrees k cr) = .ok { i with store := .keystore, slot0 := .str k, slot1 := some cr } := by
  rw [refTrees, parseList_cons _ _ _ _ { i with store := .keystore, slot0 := .str k } _ _ ((leaf_cb _ _ _ _ _ _ _ (Or.inl rfl)).trans (kr_set spki _ i k _ (Or.inl rfl) hf))]
  exact single _ _ _ _ _ _ ((leaf_cb _ _ _ _ _ _ _ (Or.inl rfl)).trans (cr_set spki a b c rest _ cr _ (Or.inl rfl)))

theorem id_change (spki : Nat → Bool) (b c : Option Nat) (rest : List Anc) (i : Ident) (ic ic' : IdConf) (e : IdChange) (hr : IdRep spki i ic)
    (he : ic.change spki e = some ic') (hl : ic.lost e = false) :
    ∃ i', parseList (idCb spki) .none (⟨.certificate, b⟩ :: ⟨.serverIdentity, c⟩ :: rest) i e.trees = .ok i' ∧ IdRep spki i' ic' := by
  cases e with
  | keep =>
    have : ic' = ic := by cases ic <;> simp [IdConf.change] at he <;> exact he.symm
    subst this
    exact ⟨i, parseList_nil _ _ _ _, hr⟩
  | leaves ef ep epf epd ec =>
    cases ic with
    | ref k cr => simp [IdConf.change] at he
    | inline f p pf pd cert =>
      simp only [IdConf.change] at he
      cases h1 : ef.apply f with
      | none => simp [h1] at he
      | some f' =>
      cases h2 : ep.apply p with
      | none => simp [h1, h2] at he
      | some p' =>
      cases h3 : ec.apply cert with
      | none => simp [h1, h2, h3] at he
      | some cert' =>
        simp only [h1, h2, h3] at he
        split at he
        · rename_i hv
          simp only [Option.some.injEq] at he; subst he
          obtain ⟨i', g1, g2⟩ := leaves_change spki ((leafTree .publicKeyFormat ef ++ (leafTree .publicKey ep ++
              (replaced .privateKeyFormat epf ++ (replaced .cleartextPrivateKey epd ++ leafTree .certData ec)))).head?.map Tree.val) b c rest i f p f' p' pf pd cert cert'
            ef ep ec epf epd hr h1 h2 h3 hv (by rintro v rfl; simp [IdConf.lost] at hl) (by rintro v rfl; simp [IdConf.lost] at hl)
          refine ⟨i', ?_, g2⟩
          refine single _ _ _ _ _ _ ?_
          rw [parse_none _ _ _ _ _ _ _ _ rfl]; exact g1
        · cases he
  | reref ek ec =>
    cases ic with
    | inline f p pf pd cert => simp [IdConf.change] at he
    | ref k cr =>
      simp only [IdConf.change, Option.some.injEq] at he; subst he
      obtain ⟨-, r1, r2, r3⟩ := hr
      have g1 : parseList (idCb spki) .none (rPath ((replaced .asymmetricKey ek ++ replaced .certificate ec).head?.map Tree.val) b c rest) i (replaced .asymmetricKey ek) =
          .ok { i with slot0 := .str (ek.getD k) } := by
        cases ek with
        | none => rw [replaced, parseList_nil]; simp only [Option.getD_none, ← r2]
        | some v =>
          refine single _ _ _ _ _ _ ((leaf_cb _ _ _ _ _ _ _ (Or.inr (Or.inl rfl))).trans ?_)
          rw [show current Meta.replace Op.none = .replace from rfl, kr_set spki _ i v _ (Or.inr rfl) (by rw [r2]; rfl)]
          simp only [Option.getD_some, ← r1]
      have g2 : parseList (idCb spki) .none (rPath ((replaced .asymmetricKey ek ++ replaced .certificate ec).head?.map Tree.val) b c rest) { i with slot0 := .str (ek.getD k) } (replaced .certificate ec) =
          .ok { i with slot0 := .str (ek.getD k), slot1 := some (ec.getD cr) } := by
        cases ec with
        | none => rw [replaced, parseList_nil]; simp only [Option.getD_none, ← r3]
        | some v =>
          refine single _ _ _ _ _ _ ((leaf_cb _ _ _ _ _ _ _ (Or.inr (Or.inl rfl))).trans ?_)
          rw [show current Meta.replace Op.none = .replace from rfl, cr_set spki _ b c rest _ v _ (Or.inr rfl)]
          simp only [Option.getD_some, ← r1]
      refine ⟨{ i with slot0 := .str (ek.getD k), slot1 := some (ec.getD cr) }, ?_, rfl, r1, rfl, rfl⟩
      refine single _ _ _ _ _ _ ?_
      rw [parse_none _ _ _ _ _ _ _ _ rfl]
      exact (parseList_append _ _ _ _ _ _ _ g1).trans g2
  | toRef r k cr =>
    cases ic with
    | ref k cr => simp [IdConf.change] at he
    | inline f p pf pd cert =>
      simp only [IdConf.change, Option.some.injEq] at he; subst he
      obtain ⟨-, -, -, -, -, r5⟩ := hr
      have hf : f = none := by cases f <;> simp [IdConf.lost] at hl; rfl
      have h0 : parse (idCb spki) .none (⟨.certificate, b⟩ :: ⟨.serverIdentity, c⟩ :: rest) i (.node .inlineDefinition 0 .delete r) = .ok i := by
        rw [parse_del]; rfl
      refine ⟨{ i with store := .keystore, slot0 := .str k, slot1 := some cr }, ?_, rfl, rfl, rfl, rfl⟩
      rw [IdChange.trees, parseList_cons _ _ _ _ _ _ _ h0]
      refine single _ _ _ _ _ _ ?_
      rw [parse_set _ _ _ _ _ i _ _ _ .create rfl (Or.inl rfl) rfl]
      exact ref_create spki _ b c rest i k cr (r5 hf)
  | toInline r f p pf pd cert =>
    cases ic with
    | inline f p pf pd cert => simp [IdConf.change] at he
    | ref k cr =>
      simp only [IdConf.change] at he
      split at he
      · rename_i hv
        simp only [Option.some.injEq] at he; subst he
        simp only [IdConf.lost, Bool.or_eq_false_iff] at hl
        obtain ⟨-, r1, r2, r3⟩ := hr
        obtain ⟨i', g1, g2, g3, g4, g5, g6⟩ := inline_create spki ((idTrees f p pf pd cert).head?.map Tree.val) b c rest i f p pf pd cert hv
        have hp : p.isSome = true := by cases p <;> simp at hl ⊢
        have hc : cert.isSome = true := by cases cert <;> simp at hl ⊢
        rw [hp] at g2; rw [hc] at g5
        have h0 : parse (idCb spki) .none (⟨.certificate, b⟩ :: ⟨.serverIdentity, c⟩ :: rest) i (.node .inlineDefinition 0 .create (idTrees f p pf pd cert)) = .ok i' := by
          rw [parse_set _ _ _ _ _ i _ _ _ .create rfl (Or.inl rfl) rfl]; exact g1
        refine ⟨i', ?_, hv, g2, g3, g4, g5, fun h => by rw [g6 h, r2]; rfl⟩
        rw [IdChange.trees, parseList_cons _ _ _ _ _ _ _ h0]
        refine single _ _ _ _ _ _ ?_
        rw [parse_del]; rfl
      · cases he

theorem id_create (spki : Nat → Bool) (b c : Option Nat) (rest : List Anc) (ic : IdConf) (hv : ic.valid spki = true) :
    ∃ i', parseList (idCb spki) .create (⟨.certificate, b⟩ :: ⟨.serverIdentity, c⟩ :: rest) newIdent ic.trees = .ok i' ∧ IdRep spki i' ic := by
  cases ic with
  | inline f p pf pd cert =>
    obtain ⟨i', g1, g2, g3, g4, g5, g6⟩ := inline_create spki ((idTrees f p pf pd cert).head?.map Tree.val) b c rest newIdent f p pf pd cert hv
    refine ⟨i', ?_, hv, ?_, g3, g4, ?_, fun h => by rw [g6 h]; rfl⟩
    · refine single _ _ _ _ _ _ ?_
      rw [parse_set _ _ _ _ _ newIdent _ _ _ .create rfl (Or.inl rfl) rfl]; exact g1
    · rw [g2]; cases p <;> rfl
    · rw [g5]; cases cert <;> rfl
  | ref k cr =>
    refine ⟨{ newIdent with store := .keystore, slot0 := .str k, slot1 := some cr }, ?_, rfl, rfl, rfl, rfl⟩
    refine single _ _ _ _ _ _ ?_
    rw [parse_set _ _ _ _ _ newIdent _ _ _ .create rfl (Or.inl rfl) rfl]
    exact ref_create spki _ b c rest newIdent k cr rfl

/-! ## Trusted certificates -/

/-- The array of the structure. -/
def Arr (g : Grp) (l : List Cert) : Prop := g.certs? = some l ∧ g.count = l.length

theorem arr_add (g : Grp) (l : List Cert) (k : Nat) (h : Arr g l) : Arr (addCert k g) (l ++ [⟨k, none⟩]) ∧ (addCert k g).store = g.store := by
  obtain ⟨h1, h2⟩ := h
  simp only [addCert, h1]
  exact ⟨⟨by simp [Grp.certs?, h2, List.take_of_length_le], by simp [h2]⟩, trivial⟩

theorem arr_del (g : Grp) (l : List Cert) (i : Nat) (h : Arr g l) (hi : i < l.length) : Arr (delCert i g) (swapDel l i) ∧ (delCert i g).store = g.store := by
  obtain ⟨h1, h2⟩ := h
  have hl := ConfUsers.swapDel_length l i hi
  simp only [delCert, h1]
  by_cases hc : g.count = 1
  · have : swapDel l i = [] := List.eq_nil_of_length_eq_zero (by omega)
    simp [hc, this, Arr, Grp.certs?]
  · rw [if_neg hc]
    have : g.count - 1 ≠ 0 := by omega
    refine ⟨⟨?_, by simp [hl, h2]⟩, rfl⟩
    simp only [Grp.certs?, this, if_false]
    rw [if_pos (by omega), List.take_of_length_le (by omega)]

theorem arr_set (g : Grp) (l : List Cert) (i : Nat) (d : Option Nat) (h : Arr g l) (hi : i < l.length) :
    Arr (setData i d g) (l.modify i (fun c => { c with data := d })) ∧ (setData i d g).store = g.store := by
  obtain ⟨h1, h2⟩ := h
  simp only [setData, h1]
  refine ⟨⟨?_, by simp [h2]⟩, trivial⟩
  have : g.count ≠ 0 := by omega
  simp only [Grp.certs?, this, if_false, List.length_modify]
  rw [if_pos (by omega), List.take_of_length_le (by simp; omega)]

theorem keyOr_head (k : Nat) (path : List Anc) : keyOr (⟨.certificate, some k⟩ :: path) .certificate = some k := by
  simp [keyOr, keyOf_head]

theorem getCert_ok (path : List Anc) (g : Grp) (l : List Cert) (k i : Nat) (h : Arr g l) (hk : keyOr path .certificate = some k)
    (hi : l.findIdx? (fun c => c.name == k) = some i) : getCert path g = .found i := by
  simp only [getCert, hk, h.1, hi]

/-- The certificates held by the array. -/
def GInv (st : ConfUsers.Store) (g : Grp) (m : Map Nat) : Prop := g.store = st ∧ ∃ l, Arr g l ∧ HoldsCerts l m

/-- The path of `inline-definition` of trusted certificates. -/
def gPath (L : Label) (a b : Option Nat) (rest : List Anc) : List Anc := ⟨.inlineDefinition, a⟩ :: ⟨L, b⟩ :: rest

theorem gname (L : Label) (p : Op) (hp : p = .create ∨ p = .none) (path : List Anc) (g : Grp) (n : Nat) :
    parse (grpCb L) p path g (leaf .name n) = .ok g := by
  rcases hp with rfl | rfl <;> simp [leaf, parse, current, ConfTree.ownOp, grpCb, parseList]

theorem gdata (L : Label) (p : Op) (mt : Meta) (hs : current mt p = .create ∨ current mt p = .replace) (k : Nat) (a b : Option Nat) (rest : List Anc)
    (g : Grp) (l : List Cert) (i v : Nat) (h : Arr g l) (hi : l.findIdx? (fun c => c.name == k) = some i) :
    parse (grpCb L) p (⟨.certificate, some k⟩ :: gPath L a b rest) g (leaf .certData v mt) = .ok (setData i (some v) g) := by
  have hg := getCert_ok (⟨.certData, none⟩ :: ⟨.certificate, some k⟩ :: gPath L a b rest) g l k i h
    (by rw [ConfUsers.keyOr_cons _ _ _ _ (by decide)]; exact keyOr_head k _) hi
  rw [leaf_cb _ _ _ _ _ _ _ (by rcases hs with h | h; exact Or.inl h; exact Or.inr (Or.inl h))]
  simp only [grpCb, List.head?_cons, Option.map_some, grpCertData, hg, setting_of _ hs, if_true]
  simp [parentN, gPath]

theorem gcreate (L : Label) (p : Op) (mt : Meta) (hs : current mt p = .create) (a b : Option Nat) (rest : List Anc) (st : ConfUsers.Store)
    (g : Grp) (m m' : Map Nat) (hi : GInv st g m) (k d : Nat) (h : patch some (fun _ d => some d) m (.create k d) = some m') :
    ∃ g', parse (grpCb L) p (gPath L a b rest) g (certData k d mt) = .ok g' ∧ GInv st g' m' := by
  obtain ⟨hst, l, ha, hl⟩ := hi
  obtain ⟨h1, y, hy, rfl⟩ := patch_create _ _ _ _ _ _ h
  cases hy
  have hf := holds_absent Cert.name _ l m hl k h1
  have hidx : (l ++ [(⟨k, none⟩ : Cert)]).findIdx? (fun (c : Cert) => c.name == k) = some l.length := findIdx_new _ l _ hf (by simp)
  obtain ⟨b1, b2⟩ := arr_add g l k ha
  obtain ⟨c1, c2⟩ := arr_set (addCert k g) _ l.length (some d) b1 (by simp)
  rw [modify_new] at c1
  refine ⟨setData l.length (some d) (addCert k g), ?_, by rw [c2, b2, hst], _, c1, holds_append Cert.name _ l m hl ⟨k, some d⟩ d h1 rfl⟩
  rw [certData, parse_set _ _ _ _ _ (addCert k g) _ _ _ _ hs (Or.inl rfl)]
  · rw [show Option.map Tree.val (List.head? [leaf .name k, leaf .certData d]) = some k from rfl,
      parseList_cons _ _ _ _ _ _ _ (gname L .create (Or.inl rfl) _ _ _)]
    exact single _ _ _ _ _ _ (gdata L .create .absent (Or.inl rfl) k a b rest _ _ _ d b1 hidx)
  · rw [show Option.map Tree.val (List.head? [leaf .name k, leaf .certData d]) = some k from rfl]
    simp [grpCb, parentN, gPath, grpCertificate, setting, ownKey]

theorem gstep (L : Label) (a b : Option Nat) (rest : List Anc) (st : ConfUsers.Store)
    (g : Grp) (m : Map Nat) (e : CertEdit) (m' : Map Nat) (hi : GInv st g m) (h : patch some (fun _ d => some d) m e = some m') :
    ∃ g', parse (grpCb L) .none (gPath L a b rest) g (certTree e) = .ok g' ∧ GInv st g' m' := by
  cases e with
  | create k d => exact gcreate L .none .create rfl a b rest st g m m' hi k d h
  | delete k r =>
    obtain ⟨hst, l, ha, hl⟩ := hi
    obtain ⟨⟨y, hy⟩, rfl⟩ := patch_delete _ _ _ _ _ _ h
    obtain ⟨j, c, hj, hjc, hlt, hcn, hcd⟩ := holds_get _ _ _ _ hl k y hy
    have hlt : j < l.length := (List.getElem?_eq_some_iff.mp hjc).1
    obtain ⟨b1, b2⟩ := arr_del g l j ha hlt
    refine ⟨delCert j g, ?_, by rw [b2, hst], _, b1, holds_del Cert.name _ _ _ hl k j c hjc hcn⟩
    unfold certTree
    rw [parse_del, show Option.map Tree.val (List.head? (leaf .name k :: r)) = some k from rfl]
    simp only [grpCb, List.head?_cons, Option.map_some, grpCertificate, getCert_ok (⟨.certificate, some k⟩ :: gPath L a b rest) g l k j ha (keyOr_head k _) hj]
    simp [parentN, gPath, setting]
  | change k d =>
    obtain ⟨hst, l, ha, hl⟩ := hi
    obtain ⟨y, z, hy, hz, rfl⟩ := patch_change _ _ _ _ _ _ h
    cases hz
    obtain ⟨j, c, hj, hjc, hlt, hcn, hcd⟩ := holds_get _ _ _ _ hl k y hy
    have hlt : j < l.length := (List.getElem?_eq_some_iff.mp hjc).1
    obtain ⟨b1, b2⟩ := arr_set g l j (some d) ha hlt
    refine ⟨setData j (some d) g, ?_, by rw [b2, hst], _, b1, holds_mod Cert.name _ _ _ hl k j hj c hjc (fun c => { c with data := some d }) (fun _ => rfl) d rfl⟩
    unfold certTree
    rw [parse_none _ _ _ _ _ _ _ _ rfl, show Option.map Tree.val (List.head? [leaf .name k, leaf .certData d .replace]) = some k from rfl,
      parseList_cons _ _ _ _ _ _ _ (gname L .none (Or.inr rfl) _ _ _)]
    exact single _ _ _ _ _ _ (gdata L .none .replace (Or.inr rfl) k a b rest _ _ _ d ha hj)

/-- The trusted certificates are as configured. -/
def GrpRep (g : Grp) : Option CertsConf → Prop
  | none => g.store = .local ∧ g.count = 0
  | some (.inline m) => GInv .local g m
  | some (.bag n) => g = ⟨.truststore, .str n, 0⟩

theorem empty_inv (g : Grp) (h : g.count = 0) : GInv g.store g (fun _ => none) :=
  ⟨rfl, [], ⟨by simp [Grp.certs?, h], by simp [h]⟩, holds_nil _ _⟩

theorem gtsref (L : Label) (p : Op) (mt : Meta) (hs : current mt p = .create ∨ current mt p = .replace) (b : Option Nat) (rest : List Anc) (g : Grp) (n : Nat) :
    parse (grpCb L) p (⟨L, b⟩ :: rest) g (leaf .centralTruststoreReference n mt) = .ok { g with store := .truststore, ptr := .str n } := by
  rw [leaf_cb _ _ _ _ _ _ _ (by rcases hs with h | h; exact Or.inl h; exact Or.inr (Or.inl h))]
  simp [grpCb, parentN, grpTsRef, setting_of _ hs]

theorem gcerts (L : Label) (p : Op) (mt : Meta) (hs : current mt p = .create) (b : Option Nat) (rest : List Anc) (g : Grp) (hg : g.count = 0)
    (l : List (Nat × Nat)) (m : Map Nat) (hm : certMap l = some m) :
    ∃ g', parse (grpCb L) p (⟨L, b⟩ :: rest) g (certsTree l mt) = .ok g' ∧ GInv g.store g' m := by
  obtain ⟨g', h1, h2⟩ := creates_ok (grpCb L) (gPath L ((l.map (fun p => certData p.1 p.2)).head?.map Tree.val) b rest) some (fun _ d => some d)
    (fun k x => certData k x) (GInv g.store)
    (fun s m k x m' hi hp => gcreate L .create .absent rfl _ b rest g.store s m m' hi k x hp) l g (fun _ => none) m (empty_inv g hg) hm
  refine ⟨g', ?_, h2⟩
  rw [certsTree, parse_set _ _ _ _ _ g _ _ _ _ hs (Or.inl rfl)]
  · exact h1
  · simp [grpCb]

/-- The children of the container, created. -/
theorem gcreates (L : Label) (b : Option Nat) (rest : List Anc) (g : Grp) (hg : GrpRep g none) (d : CertsData) (c : CertsConf) (hc : d.conf = some c) :
    ∃ g', parseList (grpCb L) .create (⟨L, b⟩ :: rest) g d.trees = .ok g' ∧ GrpRep g' (some c) := by
  cases d with
  | inline l =>
    simp only [CertsData.conf] at hc
    cases hm : certMap l with
    | none => rw [hm] at hc; cases hc
    | some m =>
      rw [hm] at hc; cases hc
      obtain ⟨g', h1, h2⟩ := gcerts L .create .absent rfl b rest g hg.2 l m hm
      rw [hg.1] at h2
      exact ⟨g', single _ _ _ _ _ _ h1, h2⟩
  | bag n =>
    cases hc
    refine ⟨_, single _ _ _ _ _ _ (gtsref L .create .absent (Or.inl rfl) b rest g n), ?_⟩
    simp [GrpRep, hg.2]

theorem del_ok (g : Grp) (c : Option CertsConf) (h : GrpRep g c) : delCerts g = .ok newGrp := by
  cases c with
  | none =>
    obtain ⟨h1, h2⟩ := h
    simp [delCerts, h1, Grp.certs?, h2, newGrp]
  | some c =>
    cases c with
    | inline m =>
      obtain ⟨h1, l, h2, -⟩ := h
      simp [delCerts, h1, h2.1, newGrp]
    | bag n =>
      simp only [GrpRep] at h
      subst h; rfl

theorem new_rep : GrpRep newGrp none := ⟨rfl, rfl⟩

/-- The container itself. -/
theorem gself (L : Label) (hL : L = .caCerts ∨ L = .eeCerts) (b : Option Nat) (rest : List Anc) (v : Nat) (g : Grp) :
    grpCb L (⟨L, b⟩ :: rest) v .create g = .ok g ∧ grpCb L (⟨L, b⟩ :: rest) v .delete g = delCerts g := by
  rcases hL with rfl | rfl <;> simp [grpCb]

theorem gedit (L : Label) (hL : L = .caCerts ∨ L = .eeCerts) (rest : List Anc) (g : Grp) (c c' : Option CertsConf) (e : CertsEdit) (hr : GrpRep g c)
    (he : e.apply c = some c') (hl : e.lost = false) :
    ∃ g', parseList (grpCb L) .none rest g (e.trees L) = .ok g' ∧ GrpRep g' c' := by
  cases e with
  | keep => cases c <;> (simp only [CertsEdit.apply, Option.some.injEq] at he; subst he; exact ⟨g, parseList_nil _ _ _ _, hr⟩)
  | create d =>
    cases c with
    | some c => simp [CertsEdit.apply] at he
    | none =>
      simp only [CertsEdit.apply] at he
      cases hd : d.conf with
      | none => rw [hd] at he; cases he
      | some x =>
        rw [hd] at he; cases he
        obtain ⟨g', h1, h2⟩ := gcreates L (d.trees.head?.map Tree.val) rest g hr d x hd
        refine ⟨g', single _ _ _ _ _ _ ?_, h2⟩
        rw [parse_set _ _ _ _ _ g _ _ _ .create rfl (Or.inl rfl) (gself L hL _ rest 0 g).1]
        exact h1
  | delete r =>
    cases c with
    | none => simp [CertsEdit.apply] at he
    | some c =>
      simp only [CertsEdit.apply, Option.some.injEq] at he; subst he
      refine ⟨newGrp, single _ _ _ _ _ _ ?_, new_rep⟩
      rw [parse_del, (gself L hL _ rest 0 g).2]; exact del_ok g _ hr
  | edit es =>
    cases c with
    | none => simp [CertsEdit.apply] at he
    | some c =>
      cases c with
      | bag n => simp [CertsEdit.apply] at he
      | inline m =>
        simp only [CertsEdit.apply] at he
        cases hp : patchCerts m es with
        | none => rw [hp] at he; cases he
        | some m' =>
          rw [hp] at he; cases he
          obtain ⟨g', h1, h2⟩ := edits_ok (grpCb L) .none (gPath L ((es.map certTree).head?.map Tree.val) (some 0) rest) some (fun _ d => some d) certTree (GInv .local)
            (fun s m e m' hi hp => gstep L _ _ rest .local s m e m' hi hp) es g m m' hr hp
          refine ⟨g', single _ _ _ _ _ _ ?_, h2⟩
          rw [parse_none _ _ _ _ _ _ _ _ rfl]
          refine single _ _ _ _ _ _ ?_
          rw [parse_none _ _ _ _ _ _ _ _ rfl]
          exact h1
  | reref n =>
    cases c with
    | none => simp [CertsEdit.apply] at he
    | some c =>
      cases c with
      | inline m => simp [CertsEdit.apply] at he
      | bag o =>
        simp only [CertsEdit.apply, Option.some.injEq] at he; subst he
        simp only [GrpRep] at hr
        subst hr
        refine ⟨_, single _ _ _ _ _ _ ?_, rfl⟩
        rw [parse_none _ _ _ _ _ _ _ _ rfl]
        exact single _ _ _ _ _ _ (gtsref L .none .replace (Or.inr rfl) _ rest _ n)
  | toBag r n => simp [CertsEdit.lost] at hl
  | toInline o l => simp [CertsEdit.lost] at hl

theorem trust_of_rep (g : Grp) (c : Option CertsConf) (h : GrpRep g c) : TrustAs g.trust c := by
  cases c with
  | none =>
    obtain ⟨h1, h2⟩ := h
    simp [TrustAs, Grp.trust, h1, Grp.certs?, h2]
  | some c =>
    cases c with
    | inline m =>
      obtain ⟨h1, l, h2, h3⟩ := h
      exact ⟨l, h3, by simp [Grp.trust, h1, h2.1]⟩
    | bag n =>
      simp only [GrpRep] at h
      subst h; rfl

/-! ## Parts of the endpoint -/

/-- Labels of nodes within the identity or within trusted certificates. -/
def inPart (l : Label) (_ : Nat) : Bool := l != .clientAuthentication && (l != .tlsVersion && (l != .caCerts && l != .eeCerts))

theorem inPart_ne {l : Label} {v : Nat} (h : inPart l v = true) : l ≠ .clientAuthentication ∧ l ≠ .tlsVersion ∧ l ≠ .caCerts ∧ l ≠ .eeCerts := by
  simpa [inPart] using h

theorem isEe_cons (l : Label) (key : Option Nat) (path : List Anc) (h1 : l ≠ .caCerts) (h2 : l ≠ .eeCerts) : isEe (⟨l, key⟩ :: path) = isEe path := by
  simp [isEe, h1, h2]

theorem cb_part (spki : Nat → Bool) (l : Label) (key : Option Nat) (path : List Anc) (v : Nat) (op : Op) (s : Tls)
    (h1 : l ≠ .clientAuthentication) (h2 : l ≠ .tlsVersion) :
    tlsCb spki (⟨l, key⟩ :: path) v op s = match isEe (⟨l, key⟩ :: path) with
    | some true => lift (grpCb .eeCerts (⟨l, key⟩ :: path) v op s.ee) (fun g => { s with ee := g })
    | some false => lift (grpCb .caCerts (⟨l, key⟩ :: path) v op s.ca) (fun g => { s with ca := g })
    | none => lift (idCb spki (⟨l, key⟩ :: path) v op s.id) (fun i => { s with id := i }) := by
  simp only [tlsCb, List.head?_cons, Option.map_some]
  split
  · rename_i h; exact absurd (Option.some.inj h) h1
  · rename_i h; exact absurd (Option.some.inj h) h2
  · rfl

/-- Following the identity. -/
def idFocus (spki : Nat → Bool) (s : Tls) : ConfUsers.Focus (tlsCb spki) (idCb spki) (fun x => { s with id := x }) where
  Good path := isEe path = none
  Inv _ := True
  ok := inPart
  good := by
    intro l v key path ho hg
    obtain ⟨-, -, h3, h4⟩ := inPart_ne ho
    rw [isEe_cons _ _ _ h3 h4]; exact hg
  step := by
    intro l v key path op x x' ho hg _ hc
    obtain ⟨h1, h2, h3, h4⟩ := inPart_ne ho
    rw [cb_part spki l key path v op _ h1 h2, isEe_cons _ _ _ h3 h4, hg]
    simp only [hc, lift, and_self]

/-- One of the arrays replaced. -/
def putGrp (s : Tls) : Bool → Grp → Tls
  | true, g => { s with ee := g }
  | false, g => { s with ca := g }

/-- The name of its container. -/
def grpLabel : Bool → Label
  | true => .eeCerts
  | false => .caCerts

/-- Following the certificates of a container. -/
def grpFocus (spki : Nat → Bool) (s : Tls) (e : Bool) : ConfUsers.Focus (tlsCb spki) (grpCb (grpLabel e)) (putGrp s e) where
  Good path := isEe path = some e
  Inv _ := True
  ok := inPart
  good := by
    intro l v key path ho hg
    obtain ⟨-, -, h3, h4⟩ := inPart_ne ho
    rw [isEe_cons _ _ _ h3 h4]; exact hg
  step := by
    intro l v key path op x x' ho hg _ hc
    obtain ⟨h1, h2, h3, h4⟩ := inPart_ne ho
    rw [cb_part spki l key path v op _ h1 h2, isEe_cons _ _ _ h3 h4, hg]
    cases e <;> simp only [grpLabel] at hc <;> simp only [putGrp, hc, lift, and_self]

theorem isEe_grp (e : Bool) (key : Option Nat) (path : List Anc) (h : isEe path = none) : isEe (⟨grpLabel e, key⟩ :: path) = some e := by
  simp only [isEe] at h
  split at h
  · cases h
  · split at h
    · cases h
    · rename_i h1 h2
      cases e
      · simp [isEe, grpLabel] at h1 ⊢; exact h1
      · simp [isEe, grpLabel]

/-- A container of certificates. -/
theorem grp_node (spki : Nat → Bool) (s : Tls) (e : Bool) (p : Op) (path : List Anc) (hp : isEe path = none) (m : Meta) (ch : List Tree) (v : Nat)
    (g g' : Grp) (hv : m = .delete ∨ ConfUsers.visitsL inPart ch = true)
    (h : parse (grpCb (grpLabel e)) p path g (.node (grpLabel e) v m ch) = .ok g') :
    parse (tlsCb spki) p path (putGrp s e g) (.node (grpLabel e) v m ch) = .ok (putGrp s e g') := by
  have hg := isEe_grp e ((ch.head?).map Tree.val) path hp
  have hstep : ∀ x x', grpCb (grpLabel e) (⟨grpLabel e, (ch.head?).map Tree.val⟩ :: path) v (current m p) x = .ok x' →
      tlsCb spki (⟨grpLabel e, (ch.head?).map Tree.val⟩ :: path) v (current m p) (putGrp s e x) = .ok (putGrp s e x') := by
    intro x x' hx
    rw [cb_part spki _ _ path v _ _ (by cases e <;> decide) (by cases e <;> decide), hg]
    cases e <;> simp only [grpLabel] at hx <;> simp only [putGrp, grpLabel, hx, lift]
  have hkids : ∀ x x' q, ConfUsers.visitsL inPart ch = true → parseList (grpCb (grpLabel e)) q (⟨grpLabel e, (ch.head?).map Tree.val⟩ :: path) x ch = .ok x' →
      parseList (tlsCb spki) q (⟨grpLabel e, (ch.head?).map Tree.val⟩ :: path) (putGrp s e x) ch = .ok (putGrp s e x') := by
    intro x x' q hq hx
    exact (ConfUsers.focusL (grpFocus spki s e) ch q _ x x' hg trivial hq hx).1
  by_cases h1 : current m p = .unknown
  · simp [parse, h1] at h
  by_cases h2 : current m p = .none
  · simp only [parse, h2, reduceCtorEq, if_false, if_true] at h ⊢
    rcases hv with hm | hv
    · subst hm; simp [current, ConfTree.ownOp] at h2
    · exact hkids _ _ _ hv h
  · simp only [parse, h1, h2, if_false] at h ⊢
    cases hc : grpCb (grpLabel e) (⟨grpLabel e, (ch.head?).map Tree.val⟩ :: path) v (current m p) g with
    | fail y => rw [hc] at h; cases h
    | ub => rw [hc] at h; cases h
    | ok y =>
      rw [hc] at h
      rw [hstep _ _ hc]
      by_cases h3 : current m p = .delete
      · simp only [h3, if_true] at h ⊢
        cases h; rfl
      · simp only [h3, if_false] at h ⊢
        rcases hv with hm | hv
        · subst hm; exact absurd rfl h3
        · exact hkids _ _ _ hv h

theorem optLeaf_visits (l : Label) (o : Option Nat) (h : inPart l 0 = true) : ConfUsers.visitsL inPart (optLeaf l o) = true := by
  obtain ⟨h1, h2, h3, h4⟩ := inPart_ne h
  cases o <;> simp [optLeaf, ConfUsers.visitsL, ConfUsers.visits, leaf, inPart, h1, h2, h3, h4]

theorem replaced_visits (l : Label) (o : Option Nat) (h : inPart l 0 = true) : ConfUsers.visitsL inPart (replaced l o) = true := by
  obtain ⟨h1, h2, h3, h4⟩ := inPart_ne h
  cases o <;> simp [replaced, ConfUsers.visitsL, ConfUsers.visits, leaf, inPart, h1, h2, h3, h4]

theorem leafTree_visits (l : Label) (o : LeafEdit) (h : inPart l 0 = true) : ConfUsers.visitsL inPart (leafTree l o) = true := by
  obtain ⟨h1, h2, h3, h4⟩ := inPart_ne h
  cases o <;> simp [leafTree, ConfUsers.visitsL, ConfUsers.visits, leaf, inPart, h1, h2, h3, h4]

theorem idTrees_visits (f p : Option Nat) (pf pd : Nat) (c : Option Nat) : ConfUsers.visitsL inPart (idTrees f p pf pd c) = true := by
  simp only [idTrees, ConfUsers.visitsL_append, ConfUsers.visitsL, Bool.and_eq_true]
  exact ⟨optLeaf_visits _ _ rfl, optLeaf_visits _ _ rfl, rfl, rfl, optLeaf_visits _ _ rfl⟩

theorem idChange_visits (e : IdChange) : ConfUsers.visitsL inPart e.trees = true := by
  cases e with
  | keep => rfl
  | leaves f p pf pd c =>
    simp only [IdChange.trees, ConfUsers.visitsL, ConfUsers.visits, ConfUsers.visitsL_append, Bool.and_eq_true, Bool.or_eq_true]
    exact ⟨⟨rfl, Or.inr ⟨leafTree_visits _ _ rfl, leafTree_visits _ _ rfl, replaced_visits _ _ rfl, replaced_visits _ _ rfl, leafTree_visits _ _ rfl⟩⟩, trivial⟩
  | reref k c =>
    simp only [IdChange.trees, ConfUsers.visitsL, ConfUsers.visits, ConfUsers.visitsL_append, Bool.and_eq_true, Bool.or_eq_true]
    exact ⟨⟨rfl, Or.inr ⟨replaced_visits _ _ rfl, replaced_visits _ _ rfl⟩⟩, trivial⟩
  | toRef r k c => rfl
  | toInline r f p pf pd c =>
    simp only [IdChange.trees, ConfUsers.visitsL, ConfUsers.visits, Bool.and_eq_true, Bool.or_eq_true]
    exact ⟨⟨rfl, Or.inr (idTrees_visits f p pf pd c)⟩, ⟨rfl, Or.inl rfl⟩, trivial⟩

theorem idConf_visits (c : IdConf) : ConfUsers.visitsL inPart c.trees = true := by
  cases c with
  | inline f p pf pd c =>
    simp only [IdConf.trees, ConfUsers.visitsL, ConfUsers.visits, Bool.and_eq_true, Bool.or_eq_true]
    exact ⟨⟨rfl, Or.inr (idTrees_visits f p pf pd c)⟩, trivial⟩
  | ref k c => rfl

theorem certData_visits (k d : Nat) (m : Meta) : ConfUsers.visits inPart (certData k d m) = true := by
  simp [certData, ConfUsers.visits, ConfUsers.visitsL, leaf, inPart]

theorem certTree_visits (e : CertEdit) : ConfUsers.visits inPart (certTree e) = true := by
  cases e with
  | create k d => exact certData_visits _ _ _
  | delete k r => simp [certTree, ConfUsers.visits, inPart]
  | change k d => simp [certTree, ConfUsers.visits, ConfUsers.visitsL, leaf, inPart]

theorem certsTree_visits (l : List (Nat × Nat)) (m : Meta) : ConfUsers.visits inPart (certsTree l m) = true := by
  simp only [certsTree, ConfUsers.visits, Bool.and_eq_true, Bool.or_eq_true]
  exact ⟨rfl, Or.inr (ConfUsers.visitsL_map _ _ _ (fun x _ => certData_visits _ _ _))⟩

theorem certsData_visits (d : CertsData) : ConfUsers.visitsL inPart d.trees = true := by
  cases d with
  | inline l => simp [CertsData.trees, ConfUsers.visitsL, certsTree_visits]
  | bag n => rfl

/-- A change of the certificates of a container, within the endpoint. -/
theorem grp_edit (spki : Nat → Bool) (s : Tls) (e : Bool) (path : List Anc) (hp : isEe path = none) (x : CertsEdit) (g : Grp) (c c' : Option CertsConf)
    (hr : GrpRep g c) (he : x.apply c = some c') (hl : x.lost = false) :
    ∃ g', parseList (tlsCb spki) .none path (putGrp s e g) (x.trees (grpLabel e)) = .ok (putGrp s e g') ∧ GrpRep g' c' := by
  obtain ⟨g', h1, h2⟩ := gedit (grpLabel e) (by cases e; exact Or.inl rfl; exact Or.inr rfl) path g c c' x hr he hl
  refine ⟨g', ?_, h2⟩
  have key : ∀ m ch, (m = .delete ∨ ConfUsers.visitsL inPart ch = true) →
      parseList (grpCb (grpLabel e)) .none path g [.node (grpLabel e) 0 m ch] = .ok g' →
      parseList (tlsCb spki) .none path (putGrp s e g) [.node (grpLabel e) 0 m ch] = .ok (putGrp s e g') := by
    intro m ch hv h
    refine single _ _ _ _ _ _ (grp_node spki s e .none path hp m ch 0 g g' hv ?_)
    simp only [parseList] at h
    cases hc : parse (grpCb (grpLabel e)) .none path g (.node (grpLabel e) 0 m ch) with
    | ok y => rw [hc] at h; exact h
    | fail y => rw [hc] at h; cases h
    | ub => rw [hc] at h; cases h
  cases x with
  | keep => simp only [CertsEdit.trees, parseList, Res.ok.injEq] at h1 ⊢; rw [h1]
  | create d => exact key _ _ (Or.inr (certsData_visits d)) h1
  | delete r => exact key _ _ (Or.inl rfl) h1
  | edit es =>
    refine key _ _ (Or.inr ?_) h1
    simp only [ConfUsers.visitsL, ConfUsers.visits, Bool.and_eq_true, Bool.or_eq_true]
    exact ⟨⟨rfl, Or.inr (ConfUsers.visitsL_map _ _ _ (fun x _ => certTree_visits x))⟩, trivial⟩
  | reref n => exact key _ _ (Or.inr rfl) h1
  | toBag r n => simp [CertsEdit.lost] at hl
  | toInline o l => simp [CertsEdit.lost] at hl

/-- The nodes of a container created with `client-authentication`. -/
def gTrees (l : Label) : Option CertsData → List Tree
  | none => []
  | some x => [.node l 0 .absent x.trees]

/-- The certificates of a container created with `client-authentication`. -/
theorem grp_data (spki : Nat → Bool) (s : Tls) (e : Bool) (path : List Anc) (hp : isEe path = none) (d : Option CertsData) (c : Option CertsConf) (g : Grp)
    (hr : GrpRep g none) (he : (match d with | none => CertsEdit.keep | some x => .create x).apply none = some c) :
    ∃ g', parseList (tlsCb spki) .create path (putGrp s e g) (gTrees (grpLabel e) d) = .ok (putGrp s e g') ∧
      GrpRep g' c := by
  cases d with
  | none => simp only [CertsEdit.apply, Option.some.injEq] at he; subst he; exact ⟨g, parseList_nil _ _ _ _, hr⟩
  | some x =>
    simp only [CertsEdit.apply] at he
    cases hd : x.conf with
    | none => rw [hd] at he; cases he
    | some y =>
      rw [hd] at he; cases he
      obtain ⟨g', h1, h2⟩ := gcreates (grpLabel e) (x.trees.head?.map Tree.val) path g hr x y hd
      refine ⟨g', ?_, h2⟩
      refine single _ _ _ _ _ _ (grp_node spki s e .create path hp .absent x.trees 0 g g' (Or.inr (certsData_visits x)) ?_)
      rw [parse_set _ _ _ _ _ g _ _ _ .create rfl (Or.inl rfl) (gself (grpLabel e) (by cases e; exact Or.inl rfl; exact Or.inr rfl) _ path 0 g).1]
      exact h1

/-! ## client-authentication -/

/-- The trusted certificates are as configured. -/
def AuthRep (s : Tls) (c : Option AuthConf) : Prop := GrpRep s.ca (c.bind AuthConf.ca) ∧ GrpRep s.ee (c.bind AuthConf.ee)

theorem auth_data (spki : Nat → Bool) (s : Tls) (path : List Anc) (hp : isEe path = none) (d : AuthData) (c : AuthConf) (hr : AuthRep s none)
    (hc : d.conf = some c) : ∃ ca ee, parseList (tlsCb spki) .create path s d.trees = .ok { s with ca := ca, ee := ee } ∧ GrpRep ca c.ca ∧ GrpRep ee c.ee := by
  unfold AuthData.conf at hc
  split at hc
  · rename_i a b ha hb
    cases hc
    obtain ⟨g, h1, h2⟩ := grp_data spki s false path hp d.ca a s.ca hr.1 ha
    obtain ⟨g', h3, h4⟩ := grp_data spki { s with ca := g } true path hp d.ee b s.ee hr.2 hb
    refine ⟨g, g', ?_, h2, h4⟩
    have : d.trees = gTrees .caCerts d.ca ++ gTrees .eeCerts d.ee := by
      unfold AuthData.trees; cases d.ca <;> cases d.ee <;> rfl
    rw [this]
    exact (parseList_append _ _ _ _ _ _ _ h1).trans h3
  · cases hc

theorem auth_edit (spki : Nat → Bool) (s : Tls) (path : List Anc) (hp : isEe path = none) (e : AuthEdit) (c c' : Option AuthConf) (hr : AuthRep s c)
    (he : e.apply c = some c') (hl : e.lost = false) :
    ∃ ca ee, parseList (tlsCb spki) .none path s e.trees = .ok { s with ca := ca, ee := ee } ∧ AuthRep { s with ca := ca, ee := ee } c' := by
  have hpc : ∀ k, isEe (⟨.clientAuthentication, k⟩ :: path) = none := fun k => by rw [isEe_cons _ _ _ (by decide) (by decide), hp]
  cases e with
  | keep =>
    have : c' = c := by cases c <;> simp [AuthEdit.apply] at he <;> exact he.symm
    subst this
    exact ⟨s.ca, s.ee, parseList_nil _ _ _ _, hr⟩
  | create d =>
    cases c with
    | some c => simp [AuthEdit.apply] at he
    | none =>
      simp only [AuthEdit.apply] at he
      cases hd : d.conf with
      | none => rw [hd] at he; cases he
      | some x =>
        rw [hd] at he; cases he
        obtain ⟨ca, ee, h1, h2, h3⟩ := auth_data spki s _ (hpc (d.trees.head?.map Tree.val)) d x hr hd
        refine ⟨ca, ee, single _ _ _ _ _ _ ?_, h2, h3⟩
        rw [parse_set _ _ _ _ _ s _ _ _ .create rfl (Or.inl rfl) (by simp [tlsCb])]
        exact h1
  | delete r =>
    cases c with
    | none => simp [AuthEdit.apply] at he
    | some c =>
      simp only [AuthEdit.apply, Option.some.injEq] at he; subst he
      refine ⟨newGrp, newGrp, single _ _ _ _ _ _ ?_, new_rep, new_rep⟩
      rw [parse_del]
      simp [tlsCb, delAuth, del_ok _ _ hr.1, del_ok _ _ hr.2]
  | change a b =>
    cases c with
    | none => simp [AuthEdit.apply] at he
    | some c =>
      simp only [AuthEdit.apply] at he
      simp only [AuthEdit.lost, Bool.or_eq_false_iff] at hl
      cases ha : a.apply c.ca with
      | none => rw [ha] at he; cases he
      | some x =>
        cases hb : b.apply c.ee with
        | none => rw [ha, hb] at he; cases he
        | some y =>
          rw [ha, hb] at he; cases he
          obtain ⟨g, h1, h2⟩ := grp_edit spki s false _ (hpc ((a.trees .caCerts ++ b.trees .eeCerts).head?.map Tree.val)) a s.ca c.ca x hr.1 ha hl.1
          obtain ⟨g', h3, h4⟩ := grp_edit spki { s with ca := g } true _ (hpc ((a.trees .caCerts ++ b.trees .eeCerts).head?.map Tree.val)) b s.ee c.ee y hr.2 hb hl.2
          refine ⟨g, g', single _ _ _ _ _ _ ?_, h2, h4⟩
          rw [parse_none _ _ _ _ _ _ _ _ rfl]
          exact (parseList_append _ _ _ _ _ _ _ h1).trans h3

/-! ## Versions -/

/-- The mask has the configured versions. -/
def VerRep (m : BitVec 32) (f : Nat → Bool) : Prop := (∀ v, has m v = f v) ∧ ∀ v, f v = true → v < 4

theorem bit_at (v x : Nat) (hv : v < 4) : (1#32 <<< v).getLsbD x = (x == v) := by
  rw [BitVec.getLsbD_shiftLeft, BitVec.getLsbD_one]
  by_cases h : x = v
  · subst h; simp; omega
  · simp only [beq_eq_false_iff_ne.mpr h]
    by_cases h2 : x < v
    · simp [h2]
    · have : ¬ x - v = 0 := by omega
      simp [this]

theorem ver_step (m : BitVec 32) (f f' : Nat → Bool) (e : VerEdit) (hr : VerRep m f) (he : VerEdit.apply f e = some f') (p : Op) (mt : Meta) (v : Nat)
    (ht : (e = .add v ∧ current mt p = .create) ∨ (e = .remove v ∧ current mt p = .delete) ∨ (e = .move v ∧ current mt p = .replace)) :
    ∃ m', tlsVersion v (current mt p) m = .ok m' ∧ VerRep m' f' := by
  obtain ⟨h1, h2⟩ := hr
  rcases ht with ⟨rfl, hc⟩ | ⟨rfl, hc⟩ | ⟨rfl, hc⟩
  · simp only [VerEdit.apply] at he
    split at he
    · rename_i hv
      cases he
      refine ⟨m ||| (1#32 <<< v), by simp [tlsVersion, hc, Nat.not_le.mpr hv.1], ?_, ?_⟩
      · intro x
        have := h1 x
        simp only [has] at this ⊢
        rw [BitVec.getLsbD_or, bit_at v x hv.1, this, Bool.or_comm]
      · intro x hx
        simp only [Bool.or_eq_true, beq_iff_eq] at hx
        rcases hx with rfl | hx
        · exact hv.1
        · exact h2 x hx
    · cases he
  · simp only [VerEdit.apply] at he
    split at he
    · rename_i hv
      cases he
      have h4 := h2 v hv
      have hb : (m &&& (1#32 <<< v)) ≠ 0 := by
        intro h0
        have := congrArg (fun b => b.getLsbD v) h0
        have hm := h1 v
        simp only [has] at hm
        simp [BitVec.getLsbD_and, bit_at v v h4, hm, hv] at this
      refine ⟨m &&& ~~~(1#32 <<< v), by simp [tlsVersion, hc, Nat.not_le.mpr h4]; intro h; exact absurd h hb, ?_, ?_⟩
      · intro x
        have := h1 x
        simp only [has] at this ⊢
        rw [BitVec.getLsbD_and, BitVec.getLsbD_not, bit_at v x h4, this]
        by_cases hx : x < 32
        · simp [hx, bne, Bool.and_comm]
        · have : f x = false := by
            cases hf : f x with
            | false => rfl
            | true => exact absurd (h2 x hf) (by omega)
          simp [this]
      · intro x hx
        simp only [Bool.and_eq_true] at hx
        exact h2 x hx.2
    · cases he
  · simp only [VerEdit.apply] at he
    split at he
    · rename_i hv
      cases he
      have h4 := h2 v hv
      exact ⟨m, by simp [tlsVersion, hc, Nat.not_le.mpr h4], h1, h2⟩
    · cases he

theorem ver_leaf (spki : Nat → Bool) (path : List Anc) (s : Tls) (p : Op) (mt : Meta) (v : Nat) (m' : BitVec 32)
    (hc : current mt p = .create ∨ current mt p = .replace ∨ current mt p = .delete) (h : tlsVersion v (current mt p) s.versions = .ok m') :
    parse (tlsCb spki) p path s (leaf .tlsVersion v mt) = .ok { s with versions := m' } := by
  rw [leaf_cb _ _ _ _ _ _ _ hc]
  simp [tlsCb, h, lift]

theorem ver_edits (spki : Nat → Bool) (path : List Anc) (es : List VerEdit) : ∀ (s : Tls) (f f' : Nat → Bool), VerRep s.versions f → patchVersions f es = some f' →
    ∃ m', parseList (tlsCb spki) .none path s (es.map verTree) = .ok { s with versions := m' } ∧ VerRep m' f' := by
  induction es with
  | nil => intro s f f' hr h; cases h; exact ⟨s.versions, parseList_nil _ _ _ _, hr⟩
  | cons e es ih =>
    intro s f f' hr h
    simp only [patchVersions] at h
    cases he : VerEdit.apply f e with
    | none => rw [he] at h; cases h
    | some f1 =>
      rw [he] at h
      have h1 : ∃ m', parse (tlsCb spki) .none path s (verTree e) = .ok { s with versions := m' } ∧ VerRep m' f1 := by
        cases e with
        | add v =>
          obtain ⟨m', a, b⟩ := ver_step s.versions f f1 _ hr he .none .create v (Or.inl ⟨rfl, rfl⟩)
          exact ⟨m', ver_leaf spki path s .none .create v m' (Or.inl rfl) a, b⟩
        | remove v =>
          obtain ⟨m', a, b⟩ := ver_step s.versions f f1 _ hr he .none .delete v (Or.inr (Or.inl ⟨rfl, rfl⟩))
          exact ⟨m', ver_leaf spki path s .none .delete v m' (Or.inr (Or.inr rfl)) a, b⟩
        | move v =>
          obtain ⟨m', a, b⟩ := ver_step s.versions f f1 _ hr he .none .replace v (Or.inr (Or.inr ⟨rfl, rfl⟩))
          exact ⟨m', ver_leaf spki path s .none .replace v m' (Or.inr (Or.inl rfl)) a, b⟩
      obtain ⟨m1, a, b⟩ := h1
      obtain ⟨m2, c, d⟩ := ih { s with versions := m1 } f1 f' b h
      exact ⟨m2, by rw [List.map_cons, parseList_cons _ _ _ _ _ _ _ a]; exact c, d⟩

theorem ver_adds (spki : Nat → Bool) (path : List Anc) (l : List Nat) : ∀ (s : Tls) (f f' : Nat → Bool), VerRep s.versions f →
    patchVersions f (l.map VerEdit.add) = some f' →
    ∃ m', parseList (tlsCb spki) .create path s (l.map (fun v => leaf .tlsVersion v)) = .ok { s with versions := m' } ∧ VerRep m' f' := by
  induction l with
  | nil => intro s f f' hr h; cases h; exact ⟨s.versions, parseList_nil _ _ _ _, hr⟩
  | cons v l ih =>
    intro s f f' hr h
    simp only [List.map_cons, patchVersions] at h
    cases he : VerEdit.apply f (.add v) with
    | none => rw [he] at h; cases h
    | some f1 =>
      rw [he] at h
      obtain ⟨m1, a, b⟩ := ver_step s.versions f f1 _ hr he .create .absent v (Or.inl ⟨rfl, rfl⟩)
      obtain ⟨m2, c, d⟩ := ih { s with versions := m1 } f1 f' b h
      exact ⟨m2, by rw [List.map_cons, parseList_cons _ _ _ _ _ _ _ (ver_leaf spki path s .create .absent v m1 (Or.inl rfl) a)]; exact c, d⟩

/-! ## The whole endpoint -/

/-- The endpoint is as configured. -/
def TlsRep (spki : Nat → Bool) (s : Tls) (c : TlsConf) : Prop := IdRep spki s.id c.id ∧ AuthRep s c.auth ∧ VerRep s.versions c.versions

theorem tls_of_rep (spki : Nat → Bool) (s : Tls) (c : TlsConf) (h : TlsRep spki s c) : TlsAs s c := by
  obtain ⟨⟨-, h1⟩, h2, h3⟩ := h
  refine ⟨?_, trust_of_rep _ _ h2.1, trust_of_rep _ _ h2.2, h3.1⟩
  revert h1
  cases c.id with
  | inline f p pf pd cert => rintro ⟨a, b, c, d, -⟩; simp [ShownAs, Ident.shown, a, b, c, d]
  | ref k c => rintro ⟨a, b, c⟩; simp [ShownAs, Ident.shown, a, b, c]

theorem tls_diff (spki : Nat → Bool) (s : Tls) (c c' : TlsConf) (d : TlsDiff) (hr : TlsRep spki s c) (hp : patchSafe spki c d = some c') :
    ∃ s', parse (tlsCb spki) .unknown [] s (tlsTree d) = .ok s' ∧ TlsRep spki s' c' := by
  unfold patchSafe at hp
  split at hp
  · cases hp
  rename_i hlost
  simp only [Bool.or_eq_true, not_or, Bool.not_eq_true] at hlost
  obtain ⟨h1, h2, h3⟩ := hr
  unfold patchTls at hp
  split at hp
  · rename_i ic ac vc hic hac hvc
    cases hp
    obtain ⟨i', a1, a2⟩ := id_change spki (d.id.trees.head?.map Tree.val) (some 0) [⟨.tlsServerParameters, some 0⟩] s.id c.id ic d.id h1 hic hlost.1
    have a3 := (ConfUsers.focusL (idFocus spki s) d.id.trees .none (⟨.certificate, d.id.trees.head?.map Tree.val⟩ :: ⟨.serverIdentity, some 0⟩ :: [⟨.tlsServerParameters, some 0⟩])
      s.id i' (by simp [idFocus, isEe]) trivial (idChange_visits _) a1).1
    obtain ⟨ca, ee, b1, b2⟩ := auth_edit spki { s with id := i' } [⟨.tlsServerParameters, some 0⟩] (by simp [isEe]) d.auth c.auth ac h2 hac hlost.2
    obtain ⟨m', e1, e2⟩ := ver_edits spki (⟨.tlsVersions, (d.versions.map verTree).head?.map Tree.val⟩ :: ⟨.helloParams, some 0⟩ :: [⟨.tlsServerParameters, some 0⟩])
      d.versions { s with id := i', ca := ca, ee := ee } c.versions vc h3 hvc
    refine ⟨{ s with id := i', ca := ca, ee := ee, versions := m' }, ?_, a2, b2, e2⟩
    rw [tlsTree, parse_none _ _ _ _ _ _ _ _ rfl]
    change parseList (tlsCb spki) .none [⟨.tlsServerParameters, some 0⟩] s _ = _
    refine (parseList_cons _ _ _ _ { s with id := i' } _ _ ?_).trans ((parseList_append _ _ _ _ _ _ _ b1).trans (single _ _ _ _ _ _ ?_))
    · rw [parse_none _ _ _ _ _ _ _ _ rfl]
      refine single _ _ _ _ _ _ ?_
      rw [parse_none _ _ _ _ _ _ _ _ rfl]
      exact a3
    · rw [parse_none _ _ _ _ _ _ _ _ rfl]
      refine single _ _ _ _ _ _ ?_
      rw [parse_none _ _ _ _ _ _ _ _ rfl]
      exact e1
  · cases hp

theorem other_set (spki : Nat → Bool) (l : Label) (k : Option Nat) (path : List Anc) (s : Tls) (v : Nat) (op : Op)
    (hl : l = .tlsServerParameters ∨ l = .serverIdentity ∨ l = .helloParams ∨ l = .tlsVersions) (hp : isEe path = none) :
    tlsCb spki (⟨l, k⟩ :: path) v op s = .ok s := by
  rw [cb_part spki l k path v op s (by rcases hl with rfl | rfl | rfl | rfl <;> decide) (by rcases hl with rfl | rfl | rfl | rfl <;> decide),
    isEe_cons _ _ _ (by rcases hl with rfl | rfl | rfl | rfl <;> decide) (by rcases hl with rfl | rfl | rfl | rfl <;> decide), hp]
  rcases hl with rfl | rfl | rfl | rfl <;> simp [idCb, lift]

theorem tls_data (spki : Nat → Bool) (d : TlsData) (c : TlsConf) (hc : d.conf spki = some c) :
    ∃ s', parse (tlsCb spki) .create [] newTls d.tree = .ok s' ∧ TlsRep spki s' c := by
  unfold TlsData.conf at hc
  split at hc
  · rename_i ic ac vc hic hac hvc
    cases hc
    split at hic
    · rename_i hval
      cases hic
      obtain ⟨i', a1, a2⟩ := id_create spki (d.id.trees.head?.map Tree.val) (some 0) [⟨.tlsServerParameters, some 0⟩] d.id hval
      have a3 := (ConfUsers.focusL (idFocus spki newTls) d.id.trees .create
        (⟨.certificate, d.id.trees.head?.map Tree.val⟩ :: ⟨.serverIdentity, some 0⟩ :: [⟨.tlsServerParameters, some 0⟩])
        newIdent i' (by simp [idFocus, isEe]) trivial (idConf_visits _) a1).1
      have hnew : AuthRep { newTls with id := i' } none := ⟨new_rep, new_rep⟩
      have hb : ∃ ca ee, parseList (tlsCb spki) .create [⟨.tlsServerParameters, some 0⟩] { newTls with id := i' }
          (match d.auth with | none => [] | some a => [.node .clientAuthentication 0 .absent a.trees]) = .ok { newTls with id := i', ca := ca, ee := ee } ∧
          AuthRep { newTls with id := i', ca := ca, ee := ee } ac := by
        cases hd : d.auth with
        | none =>
          rw [hd] at hac
          simp only [AuthEdit.apply, Option.some.injEq] at hac; subst hac
          exact ⟨newGrp, newGrp, parseList_nil _ _ _ _, hnew⟩
        | some a =>
          rw [hd] at hac
          simp only [AuthEdit.apply] at hac
          cases hx : a.conf with
          | none => rw [hx] at hac; cases hac
          | some x =>
            rw [hx] at hac; cases hac
            obtain ⟨ca, ee, h1, h2, h3⟩ := auth_data spki { newTls with id := i' } (⟨.clientAuthentication, a.trees.head?.map Tree.val⟩ :: [⟨.tlsServerParameters, some 0⟩])
              (by simp [isEe]) a x hnew hx
            refine ⟨ca, ee, single _ _ _ _ _ _ ?_, h2, h3⟩
            rw [parse_set _ _ _ _ _ { newTls with id := i' } _ _ _ .create rfl (Or.inl rfl) (by simp [tlsCb])]
            exact h1
      obtain ⟨ca, ee, b1, b2⟩ := hb
      obtain ⟨m', e1, e2⟩ := ver_adds spki (⟨.tlsVersions, (d.versions.map (fun v => leaf .tlsVersion v)).head?.map Tree.val⟩ :: ⟨.helloParams, some 0⟩ :: [⟨.tlsServerParameters, some 0⟩])
        d.versions { newTls with id := i', ca := ca, ee := ee } (fun _ => false) vc ⟨fun v => by simp [newTls, has], fun v h => by cases h⟩ hvc
      refine ⟨{ newTls with id := i', ca := ca, ee := ee, versions := m' }, ?_, a2, b2, e2⟩
      rw [TlsData.tree, parse_set _ _ _ _ _ newTls _ _ _ .create rfl (Or.inl rfl) (other_set spki _ _ _ _ _ _ (by simp) (by simp [isEe]))]
      change parseList (tlsCb spki) .create [⟨.tlsServerParameters, some 0⟩] newTls _ = _
      refine (parseList_cons _ _ _ _ { newTls with id := i' } _ _ ?_).trans ((parseList_append _ _ _ _ _ _ _ b1).trans (single _ _ _ _ _ _ ?_))
      · rw [parse_set _ _ _ _ _ newTls _ _ _ .create rfl (Or.inl rfl) (other_set spki _ _ _ _ _ _ (by simp) (by simp [isEe]))]
        refine single _ _ _ _ _ _ ?_
        rw [parse_set _ _ _ _ _ newTls _ _ _ .create rfl (Or.inl rfl)]
        · exact a3
        · rw [cb_part _ _ _ _ _ _ _ (by decide) (by decide)]
          simp [isEe, idCb, parentN, lift]
      · rw [parse_set _ _ _ _ _ { newTls with id := i', ca := ca, ee := ee } _ _ _ .create rfl (Or.inl rfl) (other_set spki _ _ _ _ _ _ (by simp) (by simp [isEe]))]
        refine single _ _ _ _ _ _ ?_
        rw [parse_set _ _ _ _ _ { newTls with id := i', ca := ca, ee := ee } _ _ _ .create rfl (Or.inl rfl) (other_set spki _ _ _ _ _ _ (by simp) (by simp [isEe]))]
        exact e1
    · cases hic
  · cases hc

theorem tls_diffs (spki : Nat → Bool) (ds : List TlsDiff) : ∀ (s : Tls) (c c' : TlsConf), TlsRep spki s c → patchSafeAll spki c ds = some c' →
    ∃ s', diffs spki (ds.map tlsTree) s = .ok s' ∧ TlsRep spki s' c' := by
  induction ds with
  | nil => intro s c c' hr h; cases h; exact ⟨s, rfl, hr⟩
  | cons d ds ih =>
    intro s c c' hr h
    simp only [patchSafeAll] at h
    cases hp : patchSafe spki c d with
    | none => rw [hp] at h; cases h
    | some c1 =>
      rw [hp] at h
      obtain ⟨s1, h1, h2⟩ := tls_diff spki s c c1 d hr hp
      obtain ⟨s2, h3, h4⟩ := ih s1 c1 c' h2 h
      exact ⟨s2, by simp only [List.map_cons, diffs, h1, h3], h4⟩

theorem tls_run (spki : Nat → Bool) (d : TlsData) (ds : List TlsDiff) (c c' : TlsConf) (hc : d.conf spki = some c) (h : patchSafeAll spki c ds = some c') :
    ∃ s', run spki d.tree (ds.map tlsTree) = .ok s' ∧ TlsAs s' c' := by
  obtain ⟨s, h1, h2⟩ := tls_data spki d c hc
  obtain ⟨s', h3, h4⟩ := tls_diffs spki ds s c c' h2 h
  exact ⟨s', by simp only [run, h1, h3], tls_of_rep spki s' c' h4⟩

/-! ## Accepted versions -/

theorem zero_iff (m : BitVec 32) (f : Nat → Bool) (hr : VerRep m f) : m = 0 ↔ ∀ v, f v = false := by
  constructor
  · rintro rfl v; rw [← hr.1 v]; simp [has]
  · intro h
    apply BitVec.eq_of_getLsbD_eq
    intro i _
    have := hr.1 i
    simp only [has] at this
    rw [this, h i]; simp

/-- All versions are given by four of them. -/
theorem lt4 (v : Nat) (h : v < 4) : v = 0 ∨ v = 1 ∨ v = 2 ∨ v = 3 := by omega

theorem openssl_within (m : BitVec 32) (f : Nat → Bool) (hr : VerRep m f) (hne : ∃ w, f w = true) (v : Nat) :
    within (opensslRange m) v = true ↔ ∃ a b, f a = true ∧ f b = true ∧ a ≤ v ∧ v ≤ b := by
  have hm : has m = f := funext hr.1
  have h4 := hr.2
  constructor
  · intro h
    obtain ⟨w, hw⟩ := hne
    have hw4 := h4 w hw
    simp only [within, opensslRange, hm, Bool.and_eq_true] at h
    obtain ⟨ha, hb⟩ := h
    have h1 : ∃ a, f a = true ∧ a ≤ v := by
      cases h0 : f 0
      · cases h1 : f 1
        · cases h2 : f 2
          · cases h3 : f 3
            · rcases lt4 w hw4 with rfl | rfl | rfl | rfl <;> simp_all
            · exact ⟨3, h3, by simpa [h0, h1, h2, h3] using ha⟩
          · exact ⟨2, h2, by simpa [h0, h1, h2] using ha⟩
        · exact ⟨1, h1, by simpa [h0, h1] using ha⟩
      · exact ⟨0, h0, by simp⟩
    have h2 : ∃ b, f b = true ∧ v ≤ b := by
      cases h3 : f 3
      · cases h2 : f 2
        · cases h1 : f 1
          · cases h0 : f 0
            · rcases lt4 w hw4 with rfl | rfl | rfl | rfl <;> simp_all
            · exact ⟨0, h0, by simpa [h0, h1, h2, h3] using hb⟩
          · exact ⟨1, h1, by simpa [h1, h2, h3] using hb⟩
        · exact ⟨2, h2, by simpa [h2, h3] using hb⟩
      · exact ⟨3, h3, by simpa [h3] using hb⟩
    obtain ⟨a, x1, x2⟩ := h1
    obtain ⟨b, x3, x4⟩ := h2
    exact ⟨a, b, x1, x3, x2, x4⟩
  · rintro ⟨a, b, x1, x2, x3, x4⟩
    have ha := h4 a x1
    have hb := h4 b x2
    simp only [within, opensslRange, hm, Bool.and_eq_true]
    constructor
    · rcases lt4 a ha with rfl | rfl | rfl | rfl <;> cases h0 : f 0 <;> cases h1 : f 1 <;> cases h2 : f 2 <;> cases h3 : f 3 <;> simp_all <;> omega
    · rcases lt4 b hb with rfl | rfl | rfl | rfl <;> cases h0 : f 0 <;> cases h1 : f 1 <;> cases h2 : f 2 <;> cases h3 : f 3 <;> simp_all <;> omega

theorem mbed_within (m : BitVec 32) (f : Nat → Bool) (hr : VerRep m f) (v : Nat) (hv : v = 2 ∨ v = 3) :
    within (mbedRange m) v = true ↔ f v = true ∨ (f 2 = false ∧ f 3 = false) := by
  have hm : has m = f := funext hr.1
  simp only [within, mbedRange, hm, Bool.and_eq_true]
  rcases hv with rfl | rfl <;> cases h2 : f 2 <;> cases h3 : f 3 <;> simp

/-! ## cert-to-name -/

theorem get_of_find (l : List Ctn.Ctn) (k : Nat) (c : Ctn.Ctn) (h : l.find? (fun c => c.id == k) = some c) : ∃ i, Ctn.get l k = some i := by
  cases hg : Ctn.get l k with
  | some i => exact ⟨i, rfl⟩
  | none =>
    rw [Ctn.get, List.findIdx?_eq_none_iff] at hg
    have := List.mem_of_find?_eq_some h
    have h2 := List.find?_some h
    have h3 := hg c this
    rw [h2] at h3; cases h3

/-- An entry is as configured. -/
def CtnRep (a : Ctn.Ctn) (b : CtnConf) : Prop := a.mapType = b.mapType ∧ a.name = b.name ∧ a.fingerprint = b.fingerprint

theorem setFp_ok (l : List Ctn.Ctn) (m : Map CtnConf) (h : CtnsAs l m) (k : Nat) (c : CtnConf) (hk : m k = some c) (fp : Option Nat) :
    ∃ l', Ctn.setFp l k fp = some l' ∧ CtnsAs l' (upd m k (some ⟨c.mapType, c.name, fp⟩)) := by
  obtain ⟨hs, hf⟩ := h
  have hkk := hf k
  rw [hk] at hkk
  cases hx : l.find? (fun c => c.id == k) with
  | none => rw [hx] at hkk; exact hkk.elim
  | some a =>
    rw [hx] at hkk
    obtain ⟨i, hi⟩ := get_of_find l k a hx
    refine ⟨l.modify i (fun c => { c with fingerprint := fp }), by simp [Ctn.setFp, hi], ?_, ?_⟩
    · exact Ctn.sorted_map_id (Ctn.modify_map_id l i fp).symm hs
    · intro j
      rw [Ctn.find_modify l k i fp hi j]
      by_cases hj : j = k
      · subst hj
        rw [hx]
        simp only [upd, if_true, Option.map_some]
        exact ⟨hkk.1, hkk.2.1, rfl⟩
      · simp only [upd, hj, if_false, Option.map_id']
        exact hf j

theorem ctn_step (l : List Ctn.Ctn) (m m' : Map CtnConf) (e : CtnEdit) (h : CtnsAs l m) (ho : ∀ k x, e = .change k x → x.mapType = none ∧ x.name = .keep)
    (hp : patch (fun c => if c.valid then some c else none) CtnConf.change m e = some m') :
    ∃ l', ctnNode l (ctnEdit e) = some l' ∧ CtnsAs l' m' := by
  cases e with
  | create k c =>
    obtain ⟨h1, y, hy, rfl⟩ := patch_create _ _ _ _ _ _ hp
    split at hy
    · rename_i hv
      cases hy
      simp only [CtnConf.valid, Bool.and_eq_true, decide_eq_true_eq, beq_iff_eq] at hv
      have hname : (if c.mapType = 0 then c.name else none) = c.name := by
        split
        · rfl
        · rename_i h0
          cases hn : c.name with
          | none => rfl
          | some n => rw [hn] at hv; simp [h0] at hv
      have hno : ¬ (c.mapType = 0 ∧ c.name = none) := by
        rintro ⟨a, b⟩; rw [a, b] at hv; simp at hv
      have habs : l.find? (fun c => c.id == k) = none := by
        have := h.2 k
        rw [h1] at this
        cases hx : l.find? (fun c => c.id == k) with
        | none => rfl
        | some a => rw [hx] at this; exact this.elim
      obtain ⟨c1, c2⟩ := Ctn.create_spec l h.1 k c.name c.mapType
      have hcre : CtnsAs (Ctn.create l k c.name c.mapType) (upd m k (some ⟨c.mapType, c.name, none⟩)) := by
        refine ⟨c1, fun j => ?_⟩
        rw [c2 j]
        by_cases hj : j = k
        · subst hj; simp [upd, Ctn.made, habs, OptRel]
        · simp only [upd, hj, if_false]; exact h.2 j
      simp only [ctnEdit, ctnNode, Nat.not_le.mpr hv.1, if_false, hno, hname]
      cases hfp : c.fingerprint with
      | none =>
        refine ⟨_, rfl, ?_⟩
        have : c = ⟨c.mapType, c.name, none⟩ := by rw [← hfp]
        rw [this]; exact hcre
      | some f =>
        obtain ⟨l', a, b⟩ := setFp_ok _ _ hcre k ⟨c.mapType, c.name, none⟩ (by simp [upd]) (some f)
        refine ⟨l', a, ?_⟩
        have e1 : c = ⟨c.mapType, c.name, some f⟩ := by rw [← hfp]
        have e2 : upd (upd m k (some ⟨c.mapType, c.name, none⟩)) k (some ⟨c.mapType, c.name, some f⟩) = upd m k (some c) := by
          funext j
          by_cases hj : j = k
          · subst hj; simp only [upd, if_true]; rw [← e1]
          · simp [upd, hj]
        rw [← e2]; exact b
    · cases hy
  | delete k r =>
    obtain ⟨⟨y, hy⟩, rfl⟩ := patch_delete _ _ _ _ _ _ hp
    have := h.2 k
    rw [hy] at this
    cases hx : l.find? (fun c => c.id == k) with
    | none => rw [hx] at this; exact this.elim
    | some a =>
      obtain ⟨i, hi⟩ := get_of_find l k a hx
      refine ⟨l.eraseIdx i, by simp [ctnEdit, ctnNode, Ctn.delete, hi], Ctn.sorted_erase h.1 i, fun j => ?_⟩
      rw [Ctn.find_erase l h.1 k i hi j]
      by_cases hj : j = k
      · subst hj; simp [upd, OptRel]
      · simp only [upd, hj, if_false]; exact h.2 j
  | change k x =>
    obtain ⟨y, z, hy, hz, rfl⟩ := patch_change _ _ _ _ _ _ hp
    obtain ⟨o1, o2⟩ := ho k x rfl
    have hz' : ∃ f, x.fingerprint.apply y.fingerprint = some f ∧ z = ⟨y.mapType, y.name, f⟩ := by
      simp only [CtnConf.change, o1, o2, show LeafEdit.apply .keep y.name = some y.name from rfl, Option.getD_none] at hz
      cases hf : LeafEdit.apply x.fingerprint y.fingerprint with
      | none => rw [hf] at hz; cases hz
      | some f =>
        rw [hf] at hz
        simp only at hz
        split at hz
        · cases hz; exact ⟨f, rfl, rfl⟩
        · cases hz
    obtain ⟨f, hf, rfl⟩ := hz'
    simp only [ctnEdit, ctnNode]
    cases hx : x.fingerprint with
    | keep =>
      rw [hx] at hf; cases hf
      refine ⟨l, rfl, ?_⟩
      have : upd m k (some y) = m := by
        funext j
        by_cases hj : j = k
        · subst hj; simp [upd, hy]
        · simp [upd, hj]
      change CtnsAs l (upd m k (some y))
      rw [this]; exact h
    | create v =>
      rw [hx] at hf
      have : f = some v := by revert hf; cases y.fingerprint <;> simp [LeafEdit.apply]; exact Eq.symm
      subst this
      exact setFp_ok l m h k y hy (some v)
    | replace v =>
      rw [hx] at hf
      have : f = some v := by revert hf; cases y.fingerprint <;> simp [LeafEdit.apply]; exact Eq.symm
      subst this
      exact setFp_ok l m h k y hy (some v)
    | delete v =>
      rw [hx] at hf
      have : f = none := by
        revert hf; cases y.fingerprint with
        | none => simp [LeafEdit.apply]
        | some w => simp only [LeafEdit.apply]; split <;> simp; exact Eq.symm
      subst this
      exact setFp_ok l m h k y hy none

theorem ctn_edits (es : List CtnEdit) : ∀ (l : List Ctn.Ctn) (m m' : Map CtnConf), CtnsAs l m → onlyFingerprints es → patchCtns m es = some m' →
    ∃ l', ctnNodes (es.map ctnEdit) l = some l' ∧ CtnsAs l' m' := by
  induction es with
  | nil => intro l m m' h ho hp; cases hp; exact ⟨l, rfl, h⟩
  | cons e es ih =>
    intro l m m' h ho hp
    simp only [patchCtns, patchAll] at hp
    cases hq : patch (fun c => if CtnConf.valid c = true then some c else none) CtnConf.change m e with
    | none => rw [hq] at hp; cases hp
    | some m1 =>
      rw [hq] at hp
      obtain ⟨l1, a, b⟩ := ctn_step l m m1 e h (fun k x hx => ho k x (by rw [hx]; exact List.mem_cons_self)) hq
      obtain ⟨l2, c, d⟩ := ih l1 m1 m' b (fun k x hx => ho k x (List.mem_cons_of_mem _ hx)) hp
      exact ⟨l2, by simp only [List.map_cons, ctnNodes, a]; exact c, d⟩

/-! ## Changes that break the endpoint -/

/-- Certificates given instead of a bag of the truststore. -/
theorem gto_inline (L : Label) (rest : List Anc) (n : Nat) (l : List (Nat × Nat)) (m : Map Nat) (hm : certMap l = some m) :
    ∃ g', parseList (grpCb L) .none rest ⟨.truststore, .str n, 0⟩ ((CertsEdit.toInline n l).trees L) = .ok g' ∧ g'.trust = none := by
  obtain ⟨g', h1, h2⟩ := gcerts L .none .create rfl (some 0) rest ⟨.truststore, .str n, 0⟩ rfl l m hm
  refine ⟨{ g' with ptr := .null }, single _ _ _ _ _ _ ?_, by simp [Grp.trust, h2.1]⟩
  rw [parse_none _ _ _ _ _ _ _ _ rfl]
  change parseList (grpCb L) .none (⟨L, some 0⟩ :: rest) _ _ = _
  rw [parseList_cons _ _ _ _ _ _ _ h1]
  refine single _ _ _ _ _ _ ?_
  rw [leaf_cb _ _ _ _ _ _ _ (Or.inr (Or.inr rfl))]
  simp [grpCb, parentN, grpTsRef, setting, current, ConfTree.ownOp]

theorem to_inline (spki : Nat → Bool) (s : Tls) (e : Bool) (path : List Anc) (hp : isEe path = none) (n : Nat) (l : List (Nat × Nat)) (m : Map Nat)
    (hm : certMap l = some m) : ∃ g', parseList (tlsCb spki) .none path (putGrp s e ⟨.truststore, .str n, 0⟩) ((CertsEdit.toInline n l).trees (grpLabel e)) =
      .ok (putGrp s e g') ∧ g'.trust = none := by
  obtain ⟨g', h1, h2⟩ := gto_inline (grpLabel e) path n l m hm
  refine ⟨g', single _ _ _ _ _ _ ?_, h2⟩
  refine grp_node spki s e .none path hp _ _ 0 _ g' (Or.inr ?_) ?_
  · simp only [ConfUsers.visitsL, certsTree_visits]; rfl
  · simp only [CertsEdit.trees, parseList] at h1 ⊢
    cases hc : parse (grpCb (grpLabel e)) .none path ⟨.truststore, .str n, 0⟩
        (.node (grpLabel e) 0 .none [certsTree l .create, leaf .centralTruststoreReference n .delete]) with
    | ok y => rw [hc] at h1; exact h1
    | fail y => rw [hc] at h1; cases h1
    | ub => rw [hc] at h1; cases h1

theorem tls_reach (spki : Nat → Bool) (d : TlsData) (ds : List TlsDiff) (c c' : TlsConf) (hc : d.conf spki = some c) (h : patchSafeAll spki c ds = some c') :
    ∃ s', run spki d.tree (ds.map tlsTree) = .ok s' ∧ TlsRep spki s' c' := by
  obtain ⟨s, h1, h2⟩ := tls_data spki d c hc
  obtain ⟨s', h3, h4⟩ := tls_diffs spki ds s c c' h2 h
  exact ⟨s', by simp only [run, h1, h3], h4⟩

theorem diffs_snoc (spki : Nat → Bool) (ts : List Tree) (t : Tree) : ∀ (s s1 s2 : Tls), diffs spki ts s = .ok s1 → parse (tlsCb spki) .unknown [] s1 t = .ok s2 →
    diffs spki (ts ++ [t]) s = .ok s2 := by
  induction ts with
  | nil => intro s s1 s2 h1 h2; cases h1; simp only [List.nil_append, diffs, h2]
  | cons x ts ih =>
    intro s s1 s2 h1 h2
    simp only [diffs, List.cons_append] at h1 ⊢
    cases hp : parse (tlsCb spki) .unknown [] s x with
    | ok y => rw [hp] at h1; exact ih y s1 s2 h1 h2
    | fail y => rw [hp] at h1; cases h1
    | ub => rw [hp] at h1; cases h1

theorem run_snoc (spki : Nat → Bool) (t : Tree) (ts : List Tree) (u : Tree) (s s' : Tls) (h1 : run spki t ts = .ok s)
    (h2 : parse (tlsCb spki) .unknown [] s u = .ok s') : run spki t (ts ++ [u]) = .ok s' := by
  simp only [run] at h1 ⊢
  cases hp : parse (tlsCb spki) .create [] newTls t with
  | ok y => rw [hp] at h1; exact diffs_snoc spki ts u y s s' h1 h2
  | fail y => rw [hp] at h1; cases h1
  | ub => rw [hp] at h1; cases h1

/-- The path of the children of `client-authentication` in a diff. -/
def aPath : List Anc := [⟨.clientAuthentication, some 0⟩, ⟨.tlsServerParameters, some 0⟩]

/-- A diff of nothing but `client-authentication`. -/
theorem only_auth (spki : Nat → Bool) (s s' : Tls) (a b : CertsEdit)
    (hk : (a.trees .caCerts ++ b.trees .eeCerts).head?.map Tree.val = some 0)
    (h : parseList (tlsCb spki) .none aPath s (a.trees .caCerts ++ b.trees .eeCerts) = .ok s') :
    parse (tlsCb spki) .unknown [] s (tlsTree ⟨.keep, .change a b, []⟩) = .ok s' := by
  rw [tlsTree, parse_none _ _ _ _ _ _ _ _ rfl]
  change parseList (tlsCb spki) .none [⟨.tlsServerParameters, some 0⟩] s _ = _
  refine (parseList_cons _ _ _ _ s _ _ ?_).trans ((parseList_append _ _ _ _ s' _ _ (single _ _ _ _ _ _ ?_)).trans (single _ _ _ _ _ _ ?_))
  · rw [parse_none _ _ _ _ _ _ _ _ rfl]
    refine single _ _ _ _ _ _ ?_
    rw [parse_none _ _ _ _ _ _ _ _ rfl]; rfl
  · rw [parse_none _ _ _ _ _ _ _ _ rfl, hk]; exact h
  · rw [parse_none _ _ _ _ _ _ _ _ rfl]
    refine single _ _ _ _ _ _ ?_
    rw [parse_none _ _ _ _ _ _ _ _ rfl]; rfl

theorem ca_to_inline (spki : Nat → Bool) (s : Tls) (n : Nat) (l : List (Nat × Nat)) (m : Map Nat) (hm : certMap l = some m) (hr : GrpRep s.ca (some (.bag n))) :
    ∃ s', parse (tlsCb spki) .unknown [] s (tlsTree ⟨.keep, .change (.toInline n l) .keep, []⟩) = .ok s' ∧ s'.ca.trust = none := by
  simp only [GrpRep] at hr
  obtain ⟨g', h1, h2⟩ := to_inline spki s false aPath rfl n l m hm
  refine ⟨putGrp s false g', only_auth spki s _ _ _ rfl ?_, h2⟩
  rw [show putGrp s false ⟨.truststore, .str n, 0⟩ = s by rw [← hr]; rfl] at h1
  rw [show CertsEdit.trees .eeCerts .keep = [] from rfl, List.append_nil]
  exact h1

theorem ee_to_inline (spki : Nat → Bool) (s : Tls) (n : Nat) (l : List (Nat × Nat)) (m : Map Nat) (hm : certMap l = some m) (hr : GrpRep s.ee (some (.bag n))) :
    ∃ s', parse (tlsCb spki) .unknown [] s (tlsTree ⟨.keep, .change .keep (.toInline n l), []⟩) = .ok s' ∧ s'.ee.trust = none := by
  simp only [GrpRep] at hr
  obtain ⟨g', h1, h2⟩ := to_inline spki s true aPath rfl n l m hm
  refine ⟨putGrp s true g', only_auth spki s _ _ _ rfl ?_, h2⟩
  rw [show putGrp s true ⟨.truststore, .str n, 0⟩ = s by rw [← hr]; rfl] at h1
  rw [show CertsEdit.trees .caCerts .keep = [] from rfl, List.nil_append]
  exact h1

/-- A bag of the truststore instead of certificates. -/
theorem to_bag (spki : Nat → Bool) (s : Tls) (e : Bool) (path : List Anc) (hp : isEe path = none) (g : Grp) (r : List Tree) (n : Nat) :
    parseList (tlsCb spki) .none path (putGrp s e g) ((CertsEdit.toBag r n).trees (grpLabel e)) = .ok (putGrp s e { g with store := .truststore, ptr := .str n }) := by
  refine single _ _ _ _ _ _ ?_
  refine grp_node spki s e .none path hp _ _ 0 g _ (Or.inr ?_) ?_
  · simp [ConfUsers.visitsL, ConfUsers.visits, leaf, inPart]
  · rw [parse_none _ _ _ _ _ _ _ _ rfl]
    have h1 : ∀ p', parse (grpCb (grpLabel e)) .none p' g (.node .inlineDefinition 0 .delete r) = .ok g := by
      intro p'; rw [parse_del]; simp [grpCb]
    rw [parseList_cons _ _ _ _ _ _ _ (h1 _)]
    exact single _ _ _ _ _ _ (gtsref (grpLabel e) .none .create (Or.inl rfl) _ path g n)

theorem ca_to_bag (spki : Nat → Bool) (s : Tls) (r : List Tree) (n : Nat) :
    parse (tlsCb spki) .unknown [] s (tlsTree ⟨.keep, .change (.toBag r n) .keep, []⟩) = .ok { s with ca := { s.ca with store := .truststore, ptr := .str n } } := by
  refine only_auth spki s _ _ _ rfl ?_
  rw [show CertsEdit.trees .eeCerts .keep = [] from rfl, List.append_nil]
  exact to_bag spki s false aPath rfl s.ca r n

theorem ee_to_bag (spki : Nat → Bool) (s : Tls) (r : List Tree) (n : Nat) :
    parse (tlsCb spki) .unknown [] s (tlsTree ⟨.keep, .change .keep (.toBag r n), []⟩) = .ok { s with ee := { s.ee with store := .truststore, ptr := .str n } } := by
  refine only_auth spki s _ _ _ rfl ?_
  rw [show CertsEdit.trees .caCerts .keep = [] from rfl, List.nil_append]
  exact to_bag spki s true aPath rfl s.ee r n

end Verif.ConfTls
