import Verif.Lemmas.ConfUse
import Verif.Props.ConfSetup

/-!
# Properties: the server listens where the configuration functions were told
-/

namespace Verif.Props
open Verif.ConfStore (Res)
open Verif.ConfEndpt (Ti Env Serves EndptConf grants)
open Verif.ConfUtil (Text Node Schema)
open Verif.ConfUse

/-- The server listens as wanted: every endpoint wanted serves its transport on a socket at its address and port, there is no other endpoint, and
no other socket listens. -/
def ListensAsWanted (C : Codes) (s : ConfSetup.Server) (w : Text → Option Want) : Prop :=
  (∀ n x, w n = some x → ∃ e ∈ s.listen.endpts, e.name = C.name n ∧ Serves s.listen.net e (confOf C x)) ∧
  (∀ e ∈ s.listen.endpts, ∃ n, (w n).isSome ∧ e.name = C.name n) ∧
  ∀ x ∈ s.listen.net.socks, ∃ n y, w n = some y ∧ x.addr = C.addr y.2.1 ∧ x.port = y.2.2

/-- **C244.** Full statement (false, see `functions_listen_false`): whatever endpoints were given an address and a port by
`nc_server_config_add_address_port` and removed by `nc_server_config_del_endpt`, in any order, the server that is set up with the data listens as the
last call for each endpoint says, and nowhere else. -/
def FunctionsListen (env : Env) (disp : Bool) (C : Codes) (S : Schema) : Prop :=
  ∀ (cs : List Call) (t : List Node) (s : ConfSetup.Server) (c : ConfSetup.Conf), (∀ x ∈ cs, x.good) → build S cs none = (true, some t) →
    Reached env disp s c → (disp = true ∨ c.ch = none) →
    ∃ s', ConfSetup.call env disp s (.data (topsOf C t)) = .ok s' ∧ ListensAsWanted C s' (wanted cs)

/-- **C244.** Proved if no endpoint is given another transport while it has one: whatever the server was configured to before. -/
theorem functions_listen_partial (env : Env) (hg : grants env) (disp : Bool) (C : Codes) (hC : ∀ a b, C.name a = C.name b → a = b) (S : Schema)
    (cs : List Call) (t : List Node) (s : ConfSetup.Server) (c : ConfSetup.Conf) (hgood : ∀ x ∈ cs, x.good) (hst : Steady cs)
    (h : build S cs none = (true, some t)) (hr : Reached env disp s c) (hc : disp = true ∨ c.ch = none) :
    ∃ s', ConfSetup.call env disp s (.data (topsOf C t)) = .ok s' ∧ ListensAsWanted C s' (wanted cs) := by
  have hi : Inv t (wanted cs) := inv_build S cs [] none (some t) hgood hst inv_nil h
  let l : List (Nat × EndptConf) := (names t).filterMap (fun n => (wanted cs n).map (fun w => (C.name n, confOf C w)))
  have hsome : ∀ n ∈ names t, ∃ w, wanted cs n = some w := fun n hn => Option.isSome_iff_exists.mp ((hi.name n).mp hn)
  have hl : ∀ ns : List Text, (∀ n ∈ ns, ∃ w, wanted cs n = some w) →
      ns.map (endptTree C t) = (ns.filterMap (fun n => (wanted cs n).map (fun w => (C.name n, confOf C w)))).map (fun q => ConfEndpt.endptData q.1 q.2) ∧
      (ns.filterMap (fun n => (wanted cs n).map (fun w => (C.name n, confOf C w)))).map Prod.fst = ns.map C.name := by
    intro ns
    induction ns with
    | nil => intro _; exact ⟨rfl, rfl⟩
    | cons n ns ih =>
      intro hns
      obtain ⟨w, hw⟩ := hns n (.head _)
      obtain ⟨i1, i2⟩ := ih (fun k hk => hns k (.tail _ hk))
      simp only [List.filterMap_cons, hw, Option.map_some, List.map_cons, i1, i2, hi.tree C hw, and_self]
  obtain ⟨l1, l2⟩ := hl (names t) hsome
  have hmem : ∀ q, q ∈ l ↔ ∃ n w, wanted cs n = some w ∧ q = (C.name n, confOf C w) := by
    intro q
    simp only [l, List.mem_filterMap, Option.map_eq_some_iff]
    constructor
    · rintro ⟨n, _, w, hw, rfl⟩
      exact ⟨n, w, hw, rfl⟩
    · rintro ⟨n, w, hw, rfl⟩
      exact ⟨n, (hi.name n).mpr (by rw [hw]; rfl), w, hw, rfl⟩
  have hport : ∀ n w, wanted cs n = some w → 0 < w.2.2 := by
    intro n w hw
    unfold wanted at hw
    rw [Option.join_eq_some_iff] at hw
    obtain ⟨x, hx, hf⟩ := List.exists_of_findSome?_eq_some hw
    have hgx := hgood x (List.mem_reverse.mp hx)
    cases x with
    | add k i a p =>
      dsimp only at hf
      split at hf
      · cases hf; exact hgx.2.1
      · cases hf
    | del k =>
      dsimp only at hf
      split at hf <;> cases hf
  have hnd : (l.map Prod.fst).Nodup := by
    rw [l2, List.nodup_iff_pairwise_ne, List.pairwise_map]
    exact (names_nodup hi.nodup).imp (fun h e => h (hC _ _ e))
  obtain ⟨m, m1, m2, m3⟩ := creates_ok l (fun _ => none) hnd (fun q hq => ⟨rfl, by
    obtain ⟨n, w, hw, rfl⟩ := (hmem q).mp hq
    have := hport n w hw
    simp only [EndptConf.valid, EndptConf.effPort, confOf, Option.getD_some, bne_iff_ne, ne_eq]
    omega⟩)
  let d : ConfSetup.Data := ⟨none, none, some ⟨none, l⟩, none, none, true⟩
  have hd : d.conf = some ⟨fun _ => none, ConfStore.TsConf.empty, some ⟨none, m⟩, none, []⟩ := by
    simp only [d, ConfSetup.Data.conf, ConfSetup.partConf, ConfEndpt.ListenData.conf, m1, Option.map_some]
  have ht : d.tops = topsOf C t := by
    simp only [d, ConfSetup.Data.tops, ConfSetup.Data.server, ConfSetup.Data.stores, topsOf, listenTree, ConfEndpt.ListenData.tree, if_true, Option.map_some,
      Option.map_none, Option.toList_none, List.append_nil, l1]
    rfl
  obtain ⟨s', h1, h2⟩ := data_again_keeps_intervals env hg disp s c hr d _ hd hc
  refine ⟨s', by rw [← ht]; exact h1, ?_⟩
  obtain ⟨-, -, ⟨a1, a2, a3, a4⟩, -⟩ := h2
  have e : ∀ k, (ConfSetup.Conf.endpts ⟨fun _ => none, ConfStore.TsConf.empty, some ⟨none, m⟩, none, c.ivs ++ []⟩) k = m k := fun k => rfl
  have back : ∀ x ∈ s'.listen.endpts, ∃ n y, wanted cs n = some y ∧ x.name = C.name n ∧ Serves s'.listen.net x (confOf C y) := by
    intro x hx
    have h3 := a2 x.name
    cases hf : s'.listen.endpts.find? (fun z => z.name == x.name) with
    | none => exact absurd (List.find?_eq_none.mp hf x hx) (by simp)
    | some z =>
      have hz : z = x := by
        have hzm := List.mem_of_find?_eq_some hf
        have hzn := List.find?_some hf
        simp only [beq_iff_eq] at hzn
        obtain ⟨i, hi', rfl⟩ := List.getElem_of_mem hzm
        obtain ⟨j, hj, rfl⟩ := List.getElem_of_mem hx
        have := (List.getElem_inj (i := i) (j := j) (h₀ := by simpa using hi') (h₁ := by simpa using hj) a1).mp (by simpa using hzn)
        subst this; rfl
      subst hz
      rw [hf] at h3
      cases hm : m z.name with
      | none => rw [show (ConfSetup.Conf.endpts _) z.name = m z.name from rfl, hm] at h3; exact h3.elim
      | some y =>
        rw [show (ConfSetup.Conf.endpts _) z.name = m z.name from rfl, hm] at h3
        have : ∃ q ∈ l, q.1 = z.name := by
          refine Classical.byContradiction (fun hne => ?_)
          rw [m3 z.name (fun q hq e => hne ⟨q, hq, e⟩)] at hm
          cases hm
        obtain ⟨q, hq, hqz⟩ := this
        obtain ⟨n, w, hw, rfl⟩ := (hmem q).mp hq
        have h4 := m2 _ hq
        dsimp only at h4 hqz
        rw [hqz, hm] at h4
        cases h4
        exact ⟨n, w, hw, hqz.symm, h3⟩
  refine ⟨fun n x hx => ?_, fun x hx => ?_, fun x hx => ?_⟩
  · have h3 := a2 (C.name n)
    have h4 := m2 _ ((hmem _).mpr ⟨n, x, hx, rfl⟩)
    dsimp only at h4
    rw [show (ConfSetup.Conf.endpts _) (C.name n) = m (C.name n) from rfl, h4] at h3
    cases hf : s'.listen.endpts.find? (fun z => z.name == C.name n) with
    | none => rw [hf] at h3; exact h3.elim
    | some z =>
      rw [hf] at h3
      exact ⟨z, List.mem_of_find?_eq_some hf, by simpa using List.find?_some hf, h3⟩
  · obtain ⟨n, y, h3, h4, _⟩ := back x hx
    exact ⟨n, by rw [h3]; rfl, h4⟩
  · obtain ⟨z, hz, hs⟩ := a3 x hx
    obtain ⟨n, y, h3, _, _, _, f, h5, _, h6⟩ := back z hz
    rw [hs] at h5
    cases h5
    have := h6 x hx rfl
    exact ⟨n, y, h3, by rw [this]; rfl, by rw [this]; rfl⟩

/-- The letters of a name or an address as digits of a number, for the examples. -/
def textCode (t : Text) : Nat := t.foldl (fun a c => a * 1114112 + c.toNat + 1) 0

/-- Numbers for texts, for the examples. -/
def textCodes : Codes := ⟨textCode, textCode⟩

/-- An endpoint for SSH that is moved, one for TLS, and one that is removed. -/
def useCalls : List Call :=
  [.add t!"main" .ssh t!"::1" 830, .add t!"tls" .tls t!"0.0.0.0" 6513, .add t!"old" .ssh t!"::1" 22, .add t!"main" .ssh t!"10.0.0.1" 8300, .del t!"old"]

example : ∃ t s, build anySchema useCalls none = (true, some t) ∧ ConfSetup.call openEnv true ConfSetup.boot (.data (topsOf textCodes t)) = .ok s ∧
    s.listen.net.socks.map (fun x => (x.addr, x.port)) = [(textCode t!"10.0.0.1", 8300), (textCode t!"0.0.0.0", 6513)] := by
  refine ⟨((build anySchema useCalls none).2.getD []), ?_⟩
  have h : (build anySchema useCalls none) = (true, some ((build anySchema useCalls none).2.getD [])) := by decide +kernel
  have h2 : (match ConfSetup.call openEnv true ConfSetup.boot (.data (topsOf textCodes ((build anySchema useCalls none).2.getD []))) with
    | .ok s => s.listen.net.socks.map (fun x => (x.addr, x.port)) | _ => []) = [(textCode t!"10.0.0.1", 8300), (textCode t!"0.0.0.0", 6513)] := by decide +kernel
  generalize ConfSetup.call openEnv true ConfSetup.boot (.data (topsOf textCodes ((build anySchema useCalls none).2.getD []))) = r at h2
  cases r with
  | ok s => exact ⟨s, h, rfl, h2⟩
  | fail s => cases h2
  | ub => cases h2

/-- **C244.** The calls succeed if libyang takes the names and values and only endpoints are removed that are there. -/
theorem functions_succeed (S : Schema) (hv : ∀ p v, S.valid p v = true) (cs : List Call) (hgood : ∀ x ∈ cs, x.good) (hst : Steady cs)
    (hdel : ∀ pre n post, cs = pre ++ .del n :: post → (wanted pre n).isSome) (hne : cs ≠ []) : ∃ t, build S cs none = (true, some t) := by
  have key : ∀ (post pre : List Call) (cfg : ConfUtil.Config), pre ++ post = cs → Inv (cfg.getD []) (wanted pre) → (cfg = none → pre = []) →
      ∃ cfg', build S post cfg = (true, cfg') ∧ (post ≠ [] → cfg'.isSome) := by
    intro post
    induction post with
    | nil => intro pre cfg _ _ _; exact ⟨cfg, rfl, fun h => absurd rfl h⟩
    | cons c post ih =>
      intro pre cfg he hi hnone
      have hc : c.good := hgood c (by rw [← he]; simp)
      have hst' : Steady (pre ++ [c]) := by
        intro p1 n t a p p2 e
        exact hst p1 n t a p (p2 ++ post) (by rw [← he, show pre ++ c :: post = (pre ++ [c]) ++ post by simp, e]; simp)
      obtain ⟨t, ht⟩ : ∃ t, c.run S cfg = (true, some t) := by
        cases c with
        | add n t a p => exact add_some hv cfg t a p hc.1
        | del n =>
          have hw := hdel pre n post he.symm
          cases cfg with
          | none => rw [hnone rfl] at hw; cases hw
          | some t =>
            have hf : ConfUtil.found t (ep n) = true := mem_names.mp ((hi.name n).mpr hw)
            obtain ⟨x, hx, e⟩ := (ConfUtil.found_iff _ _).mp hf
            exact ⟨_, del_some hc hf (hi.closed x hx _ (by simp [ConfUtil.top]) (e ▸ ⟨_, rfl⟩))⟩
      have hi' : Inv t (wanted (pre ++ [c])) := by
        have hb : build S [c] cfg = (true, some t) := by simp only [build, ht]
        exact inv_build S [c] pre cfg (some t) (by intro x hx; rw [List.mem_singleton.mp hx]; exact hc) hst' hi hb
      obtain ⟨cfg', h1, h2⟩ := ih (pre ++ [c]) (some t) (by rw [← he]; simp) hi' (fun h => by cases h)
      refine ⟨cfg', by simp only [build, ht]; exact h1, fun _ => ?_⟩
      cases post with
      | nil => simp only [build, Prod.mk.injEq, true_and] at h1; rw [← h1]; rfl
      | cons a b => exact h2 (by simp)
  obtain ⟨cfg', h1, h2⟩ := key cs [] none rfl inv_nil (fun _ => rfl)
  obtain ⟨t, ht⟩ := Option.isSome_iff_exists.mp (h2 hne)
  exact ⟨t, by rw [h1, ht]⟩

/-- An endpoint for TLS that is to be one for SSH. -/
def switchCalls : List Call := [.add t!"main" .tls t!"::1" 6513, .add t!"main" .ssh t!"::1" 830]

/-- The nodes of a transport in the data. -/
def transNodes (n : Text) (i : Ti) (a p : Text) : List Node :=
  [⟨ep n ++ [tiSeg i], none⟩, ⟨tcp n i, none⟩, ⟨tcp n i ++ [seg t!"local-address"], some a⟩, ⟨tcp n i ++ [seg t!"local-port"], some p⟩]

/-- The data after the first call. -/
def switchFirst : List Node :=
  [⟨base.take 1, none⟩, ⟨base.take 2, none⟩, ⟨base, none⟩, ⟨ep t!"main", none⟩] ++ transNodes t!"main" .tls t!"::1" t!"6513"

/-- The data after both calls. -/
def switchData : List Node := switchFirst ++ transNodes t!"main" .ssh t!"::1" t!"830"

theorem switch_build : build anySchema switchCalls none = (true, some switchData) := by
  have a1 : (Call.add t!"main" .tls t!"::1" 6513).run anySchema none = (true, some switchFirst) := by decide +kernel
  have a2 : (Call.add t!"main" .ssh t!"::1" 830).run anySchema (some switchFirst) = (true, some switchData) := by decide +kernel
  simp only [build, switchCalls, a1, a2]

/-- **C244, false in general.** Both calls succeed; the data have both transports (C111), and the server set up with them serves TLS, though the last call
asked for SSH. -/
theorem functions_listen_false (disp : Bool) : ¬ FunctionsListen openEnv disp textCodes anySchema := by
  intro h
  have h2 : ∀ disp, (match ConfSetup.call openEnv disp ConfSetup.boot (.data (topsOf textCodes switchData)) with
    | .ok s => s.listen.endpts.map (·.ti) | _ => []) = [some .tls] := by decide +kernel
  obtain ⟨s, h3, h4, -⟩ := h switchCalls _ ConfSetup.boot ConfSetup.Conf.empty (by
    intro x hx
    simp only [switchCalls, List.mem_cons, List.not_mem_nil, or_false] at hx
    rcases hx with rfl | rfl <;> simp [Call.good]) switch_build ⟨[], trivial, rfl, rfl⟩ (.inr rfl)
  obtain ⟨e, he, -, hs, -⟩ := h4 t!"main" (.ssh, t!"::1", 830) (by decide +kernel)
  have h5 := h2 disp
  rw [h3] at h5
  have : e.ti ∈ s.listen.endpts.map (·.ti) := List.mem_map.mpr ⟨e, he, rfl⟩
  dsimp only at h5
  rw [h5, hs] at this
  exact absurd this (by decide)

end Verif.Props
