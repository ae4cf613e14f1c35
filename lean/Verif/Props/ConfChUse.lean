import Verif.Lemmas.ConfChUse
import Verif.Props.ConfUse

/-!
# Properties: the server calls the clients that the configuration functions were told
-/

namespace Verif.Props
open Verif.ConfStore (Res)
open Verif.ConfEndpt (Ti Env grants)
open Verif.ConfUtil (Text Node Schema)
open Verif.ConfChUse

/-- The server calls home as wanted: every client wanted is called at its endpoints in their order, when and how it is wanted; no client is there twice and there
is no other one. -/
def CallsHomeAsWanted (C : Codes) (s : ConfSetup.Server) (w : Text → Option ClientWant) : Prop :=
  (∀ c x, w c = some x → ∃ k ∈ s.ch, k.name = C.name c ∧ ClientOk C k x) ∧
  (∀ k ∈ s.ch, ∃ c, (w c).isSome ∧ k.name = C.name c) ∧ (s.ch.map ConfCh.Client.name).Nodup

/-- **C249.** Full statement (false, see `functions_call_home_false`): whatever the functions for Call Home were called with, in any order, the server that is set
up with the data calls the clients as the calls say. -/
def FunctionsCallHome (env : Env) (disp : Bool) (C : Codes) (S : Schema) : Prop :=
  ∀ (cs : List Call) (t : List Node) (s : ConfSetup.Server) (c : ConfSetup.Conf), (∀ x ∈ cs, x.good) → Timed cs → build S cs none = (true, some t) →
    Reached env disp s c → (disp = true ∨ c.ch = none) →
    ∃ s', ConfSetup.call env disp s (.data (topsOf C t)) = .ok s' ∧ CallsHomeAsWanted C s' (wanted cs)

theorem listRel_get {α β : Type} {P : α → β → Prop} : ∀ {l : List α} {m : List β}, ConfCh.ListRel P l m →
    l.length = m.length ∧ ∀ (i : Nat) a b, l[i]? = some a → m[i]? = some b → P a b
  | [], [], _ => ⟨rfl, fun i a b h => by simp at h⟩
  | x :: l, y :: m, h => by
    obtain ⟨h1, h2⟩ := listRel_get h.2
    refine ⟨by simp [h1], fun i a b ha hb => ?_⟩
    cases i with
    | zero => simp at ha hb; subst ha; subst hb; exact h.1
    | succ i => simp at ha hb; exact h2 i a b ha hb
  | [], _ :: _, h => h.elim
  | _ :: _, [], h => h.elim

theorem client_ok {C : Codes} {k : ConfCh.Client} {w : ClientWant} (h : ConfCh.EpsAs k (clientConf C w) ∧ ConfCh.OptAs k (clientConf C w)) : ClientOk C k w := by
  obtain ⟨h1, h2, h3⟩ := h
  obtain ⟨g1, g2⟩ := listRel_get h1
  have e : (clientConf C w).eps = w.eps.map (fun x => (C.name x.1, epConf C x.2)) := rfl
  rw [e] at g1 g2
  refine ⟨by rw [g1, List.length_map], fun i y v hy hv => ?_, ?_, h3⟩
  · obtain ⟨a1, a2, a3, a4, a5, a6, a7⟩ := g2 i y _ hy (by rw [List.getElem?_map, hv]; rfl)
    exact ⟨a1, a2, a4, a5, a6, a7⟩
  · have h2' : ConfCh.ConnAs k.opt (connConf C w.conn) := h2
    cases hw : w.conn with
    | none => trivial
    | some x =>
      rw [hw] at h2'
      cases x with
      | persistent => exact h2'
      | periodic p a i => exact h2'

/-- **C249.** Proved if no endpoint is given another transport while it has one: whatever the server was configured to before. -/
theorem functions_call_home_partial (env : Env) (hg : grants env) (disp : Bool) (C : Codes) (hC : ∀ a b, C.name a = C.name b → a = b) (S : Schema)
    (cs : List Call) (t : List Node) (s : ConfSetup.Server) (c : ConfSetup.Conf) (hgood : ∀ x ∈ cs, x.good) (hst : Steady cs) (htm : Timed cs)
    (h : build S cs none = (true, some t)) (hr : Reached env disp s c) (hc : disp = true ∨ c.ch = none) :
    ∃ s', ConfSetup.call env disp s (.data (topsOf C t)) = .ok s' ∧ CallsHomeAsWanted C s' (wanted cs) := by
  have hi : Inv t (wanted cs) := inv_build S cs [] none (some t) hgood hst inv_nil h
  let l : List (Nat × ConfCh.ClientConf) := (clients t).filterMap (fun n => (wanted cs n).map (fun w => (C.name n, clientConf C w)))
  have hsome : ∀ n ∈ clients t, ∃ w, wanted cs n = some w := fun n hn => Option.isSome_iff_exists.mp ((hi.client n).mp hn)
  have hl : ∀ ns : List Text, (∀ n ∈ ns, ∃ w, wanted cs n = some w) →
      ns.map (clientTree C t) = (ns.filterMap (fun n => (wanted cs n).map (fun w => (C.name n, clientConf C w)))).map (fun q => ConfCh.clientData q.1 q.2) ∧
      (ns.filterMap (fun n => (wanted cs n).map (fun w => (C.name n, clientConf C w)))).map Prod.fst = ns.map C.name := by
    intro ns
    induction ns with
    | nil => intro _; exact ⟨rfl, rfl⟩
    | cons n ns ih =>
      intro hns
      obtain ⟨w, hw⟩ := hns n (.head _)
      obtain ⟨i1, i2⟩ := ih (fun k hk => hns k (.tail _ hk))
      simp only [List.filterMap_cons, hw, Option.map_some, List.map_cons, i1, i2, hi.tree C hw (htm n w hw), and_self]
  obtain ⟨l1, l2⟩ := hl (clients t) hsome
  have hmem : ∀ q, q ∈ l ↔ ∃ n w, wanted cs n = some w ∧ q = (C.name n, clientConf C w) := by
    intro q
    simp only [l, List.mem_filterMap, Option.map_eq_some_iff]
    constructor
    · rintro ⟨n, _, w, hw, rfl⟩
      exact ⟨n, w, hw, rfl⟩
    · rintro ⟨n, w, hw, rfl⟩
      exact ⟨n, (hi.client n).mpr (by rw [hw]; rfl), w, hw, rfl⟩
  have hnd : (l.map Prod.fst).Nodup := by
    rw [l2, List.nodup_iff_pairwise_ne, List.pairwise_map]
    exact (clients_nodup hi.sound.nodup).imp (fun h e => h (hC _ _ e))
  obtain ⟨m, m1, m2, m3⟩ := ConfUserUse.patch_creates ConfCh.mkClient (ConfCh.ClientConf.change .all) l (fun _ => none) hnd (fun q hq => ⟨rfl, by
    obtain ⟨n, w, hw, rfl⟩ := (hmem q).mp hq
    rw [hi.valid C hC hw]; rfl⟩)
  let d : ConfSetup.Data := ⟨none, none, none, some l, none, true⟩
  have hd : d.conf = some ⟨fun _ => none, ConfStore.TsConf.empty, none, some m, []⟩ := by
    have : ConfCh.chConf l = some m := m1
    simp only [d, ConfSetup.Data.conf, ConfSetup.partConf, this, Option.map_some]
  have ht : d.tops = topsOf C t := by
    simp only [d, ConfSetup.Data.tops, ConfSetup.Data.server, ConfSetup.Data.stores, topsOf, ConfCh.chData, if_true, Option.map_some, Option.map_none,
      Option.toList_none, List.append_nil, l1]
    rfl
  obtain ⟨s', h1, h2⟩ := data_again_keeps_intervals env hg disp s c hr d _ hd hc
  refine ⟨s', by rw [← ht]; exact h1, ?_⟩
  obtain ⟨-, -, -, -, ⟨a1, a2⟩, -⟩ := h2
  have a2' : ∀ n, ConfStore.OptRel (fun a x => ConfCh.EpsAs a x ∧ ConfCh.OptAs a x) (s'.ch.find? (fun x => x.name == n)) (m n) := a2
  refine ⟨fun n x hx => ?_, fun k hk => ?_, a1⟩
  · have h3 := a2' (C.name n)
    have h4 := m2 _ ((hmem _).mpr ⟨n, x, hx, rfl⟩)
    dsimp only at h4
    rw [hi.valid C hC hx] at h4
    rw [h4] at h3
    cases hf : s'.ch.find? (fun z => z.name == C.name n) with
    | none => rw [hf] at h3; exact h3.elim
    | some z =>
      rw [hf] at h3
      exact ⟨z, List.mem_of_find?_eq_some hf, by simpa using List.find?_some hf, client_ok h3⟩
  · have h3 := a2' k.name
    cases hf : s'.ch.find? (fun z => z.name == k.name) with
    | none => exact absurd (List.find?_eq_none.mp hf k hk) (by simp)
    | some z =>
      rw [hf] at h3
      cases hm : m k.name with
      | none => rw [hm] at h3; exact h3.elim
      | some y =>
        have : ∃ q ∈ l, q.1 = k.name := by
          refine Classical.byContradiction (fun hne => ?_)
          rw [m3 k.name (fun q hq e => hne ⟨q, hq, e⟩)] at hm
          cases hm
        obtain ⟨q, hq, hqz⟩ := this
        obtain ⟨n, w, hw, rfl⟩ := (hmem q).mp hq
        exact ⟨n, by rw [hw]; rfl, hqz.symm⟩

theorem ch_build_some (S : Schema) (cs : List Call) (cfg : ConfUtil.Config) (hgood : ∀ x ∈ cs, x.good) (hst : Steady cs) (h : build S cs none = (true, cfg))
    (hne : cs ≠ []) : cfg.isSome := by
  have key : ∀ (post pre : List Call) (c0 c1 : ConfUtil.Config), pre ++ post = cs → Inv (c0.getD []) (wanted pre) → build S post c0 = (true, c1) → post ≠ [] →
      c1.isSome := by
    intro post
    induction post with
    | nil => intro _ _ _ _ _ _ h; exact absurd rfl h
    | cons c post ih =>
      intro pre c0 c1 he hi hb _
      rw [build] at hb
      cases hr : c.run S c0 with
      | mk b c2 =>
        rw [hr] at hb
        cases b with
        | false => simp at hb
        | true =>
          have hst' : Steady (pre ++ [c]) := by
            intro p1 d e t a p p2 h2
            exact hst p1 d e t a p (p2 ++ post) (by rw [← he, show pre ++ c :: post = (pre ++ [c]) ++ post by simp, h2]; simp)
          obtain ⟨t', rfl, hi'⟩ := inv_call (hgood c (by rw [← he]; simp)) hst' hi hr
          cases post with
          | nil => simp only [build, Prod.mk.injEq, true_and] at hb; rw [← hb]; rfl
          | cons x post => exact ih (pre ++ [c]) (some t') c1 (by rw [← he]; simp) hi' hb (by simp)
  exact key cs [] none cfg rfl inv_nil h hne

/-- The function deletes a node that libyang creates by default where it is not given (src/server_config_util.c:66-67 adds the defaults;
modules/ietf-netconf-server@2023-12-28.yang:569, 599 and 615 are the nodes). -/
def deletesDefault : Call → Prop
  | .delPeriod _ | .delIdle _ | .delStrategy _ => True
  | _ => False

/-- **C249.** After calls that succeeded, a function succeeds if what it deletes is there, the place to start is one of the three, and, if it says when to connect,
it is not the first call; provided that libyang takes names and values. It does not succeed otherwise, unless it deletes a node that has a default, which the
model does not tell. -/
theorem ch_function_succeeds (S : Schema) (hS : ConfUserUse.Takes S) (pre : List Call) (cfg : ConfUtil.Config) (hgood : ∀ c ∈ pre, c.good) (hst : Steady pre)
    (h : build S pre none = (true, cfg)) (c : Call) (hc : c.good) :
    (c.possible (wanted pre c.client) pre.isEmpty → ∃ t, c.run S cfg = (true, some t)) ∧
    (¬ deletesDefault c → (∃ t, c.run S cfg = (true, some t)) → c.possible (wanted pre c.client) pre.isEmpty) := by
  have hi : Inv (cfg.getD []) (wanted pre) := inv_build S pre [] none cfg hgood hst inv_nil h
  rw [possible_img]
  refine And.symm ⟨?_, ?_⟩
  · rintro - ⟨t, ht⟩
    refine ⟨fun r hr => ?_, fun hl => ?_, fun d s x a he => ?_⟩
    · have := call_found hc ht r hr
      rwa [ConfUserUse.view_found, hi.at] at this
    · cases pre with
      | nil =>
        simp only [build, Prod.mk.injEq, true_and] at h
        subst h
        exact absurd ht (call_looks hl)
      | cons _ _ => rfl
    · subst he
      cases hs : startText s with
      | some v => rfl
      | none =>
        rw [show (Call.strategy d s x a).run S cfg = ConfUtil.run S [d] [startText s, unless0 a, unless0 x] ConfUtil.add_ch_reconnect_strategy.ops cfg from rfl, hs] at ht
        simp [ConfUtil.run, ConfUtil.add_ch_reconnect_strategy, ConfUtil.step] at ht
  · rintro ⟨h1, h2, h3⟩
    refine call_some hS hc hi.sound (fun r hr => ?_) (fun hl => ?_) h3
    · rw [ConfUserUse.view_found, hi.at]
      exact h1 r hr
    · refine ch_build_some S pre cfg hgood hst h (fun e => ?_)
      have := h2 hl
      rw [e] at this
      cases this

example : (Call.persistent t!"a").run anySchema none = (false, none) ∧ (Call.strategy t!"a" 3 0 0).run anySchema none = (false, none) ∧
    ((Call.strategy t!"a" 2 0 0).run anySchema none).1 = true := by decide +kernel

/-- Numbers for texts, for the examples. -/
def chCodes : Codes := ⟨textCode, textCode, textCode⟩

/-- The nodes of a transport in the data. -/
def chTrans (c e : Text) (i : Ti) (a p : Text) : List Node :=
  [⟨chEp c e ++ [ConfUse.tiSeg i], none⟩, ⟨tcp c e i, none⟩, ⟨tcp c e i ++ [ConfUse.seg t!"remote-address"], some a⟩, ⟨tcp c e i ++ [ConfUse.seg t!"remote-port"], some p⟩]

/-- The data after the first call. -/
def chFirst (i : Ti) (a p : Text) : List Node :=
  [⟨(cl t!"a").take 1, none⟩, ⟨(cl t!"a").take 2, none⟩, ⟨cl t!"a", none⟩, ⟨cl t!"a" ++ [ConfUse.seg t!"endpoints"], none⟩, ⟨chEp t!"a" t!"x", none⟩] ++
    chTrans t!"a" t!"x" i a p

/-- A client with two endpoints, of which the first one is moved: it keeps its place. -/
def chCalls : List Call :=
  [.addr t!"a" t!"x" .ssh t!"::1" 4334, .addr t!"a" t!"y" .tls t!"::2" 4335, .period t!"a" 5, .addr t!"a" t!"x" .ssh t!"::3" 22, .strategy t!"a" 1 0 7]

/-- The data after two calls, the first endpoint being at this address and port. -/
def chTwo (a p : Text) : List Node := chFirst .ssh a p ++ ⟨chEp t!"a" t!"y", none⟩ :: chTrans t!"a" t!"y" .tls t!"::2" t!"4335"

/-- After three calls. -/
def chThree (a p : Text) : List Node :=
  chTwo a p ++ [⟨cl t!"a" ++ [ConfUse.seg t!"connection-type"], none⟩, ⟨periodicPath t!"a", none⟩, ⟨periodicPath t!"a" ++ [ConfUse.seg t!"period"], some t!"5"⟩]

/-- The data after all calls. -/
def chBuilt : List Node :=
  chThree t!"::3" t!"22" ++ [⟨rsPath t!"a", none⟩, ⟨rsPath t!"a" ++ [ConfUse.seg t!"start-with"], some t!"last-connected"⟩,
    ⟨rsPath t!"a" ++ [ConfUse.seg t!"max-attempts"], some t!"7"⟩]

theorem chCalls_build : build anySchema chCalls none = (true, some chBuilt) := by
  have a1 : (Call.addr t!"a" t!"x" .ssh t!"::1" 4334).run anySchema none = (true, some (chFirst .ssh t!"::1" t!"4334")) := by decide +kernel
  have a2 : (Call.addr t!"a" t!"y" .tls t!"::2" 4335).run anySchema (some (chFirst .ssh t!"::1" t!"4334")) = (true, some (chTwo t!"::1" t!"4334")) := by
    decide +kernel
  have a3 : (Call.period t!"a" 5).run anySchema (some (chTwo t!"::1" t!"4334")) = (true, some (chThree t!"::1" t!"4334")) := by decide +kernel
  have a4 : (Call.addr t!"a" t!"x" .ssh t!"::3" 22).run anySchema (some (chThree t!"::1" t!"4334")) = (true, some (chThree t!"::3" t!"22")) := by
    decide +kernel
  have a5 : (Call.strategy t!"a" 1 0 7).run anySchema (some (chThree t!"::3" t!"22")) = (true, some chBuilt) := by decide +kernel
  simp only [build, chCalls, a1, a2, a3, a4, a5]

example : ∃ s, build anySchema chCalls none = (true, some chBuilt) ∧ ConfSetup.call openEnv true ConfSetup.boot (.data (topsOf chCodes chBuilt)) = .ok s ∧
    s.ch.map (fun k => (k.eps.map (fun e => (e.ti, e.dstAddr, e.dstPort)), k.opt)) =
      [([(some .ssh, some (textCode t!"::3"), 22), (some .tls, some (textCode t!"::2"), 4335)], ⟨.period, 5, 0, 180, 1, 7, 5⟩)] := by
  have h2 : (match ConfSetup.call openEnv true ConfSetup.boot (.data (topsOf chCodes chBuilt)) with
    | .ok s => s.ch.map (fun k => (k.eps.map (fun e => (e.ti, e.dstAddr, e.dstPort)), k.opt))
    | _ => []) = [([(some .ssh, some (textCode t!"::3"), 22), (some .tls, some (textCode t!"::2"), 4335)], ⟨.period, 5, 0, 180, 1, 7, 5⟩)] := by decide +kernel
  refine Exists.imp (fun s h => ⟨chCalls_build, h⟩) ?_
  generalize ConfSetup.call openEnv true ConfSetup.boot (.data (topsOf chCodes chBuilt)) = r at h2
  cases r with
  | ok s => exact ⟨s, rfl, h2⟩
  | fail s => cases h2
  | ub => cases h2

/-- An endpoint for TLS that is to be one for SSH. -/
def chSwitchCalls : List Call := [.addr t!"a" t!"x" .tls t!"::1" 4335, .persistent t!"a", .addr t!"a" t!"x" .ssh t!"::1" 4334]

/-- The data after two calls. -/
def chPers : List Node :=
  chFirst .tls t!"::1" t!"4335" ++ [⟨cl t!"a" ++ [ConfUse.seg t!"connection-type"], none⟩,
    ⟨cl t!"a" ++ [ConfUse.seg t!"connection-type", ConfUse.seg t!"persistent"], none⟩]

/-- The data after all calls. -/
def chSwitched : List Node := chPers ++ chTrans t!"a" t!"x" .ssh t!"::1" t!"4334"

theorem chSwitch_build : build anySchema chSwitchCalls none = (true, some chSwitched) := by
  have a1 : (Call.addr t!"a" t!"x" .tls t!"::1" 4335).run anySchema none = (true, some (chFirst .tls t!"::1" t!"4335")) := by decide +kernel
  have a2 : (Call.persistent t!"a").run anySchema (some (chFirst .tls t!"::1" t!"4335")) = (true, some chPers) := by decide +kernel
  have a3 : (Call.addr t!"a" t!"x" .ssh t!"::1" 4334).run anySchema (some chPers) = (true, some chSwitched) := by decide +kernel
  simp only [build, chSwitchCalls, a1, a2, a3]

/-- **C249, false in general.** All calls succeed; the data have both transports (C111), and the server set up with them connects with TLS, though the last call
asked for SSH. -/
theorem functions_call_home_false (disp : Bool) : ¬ FunctionsCallHome openEnv disp chCodes anySchema := by
  intro h
  have hb := chSwitch_build
  have h2 : ∀ disp, (match ConfSetup.call openEnv disp ConfSetup.boot (.data (topsOf chCodes chSwitched)) with
    | .ok s => s.ch.map (fun k => k.eps.map ConfCh.Ep.ti) | _ => []) = [[some .tls]] := by decide +kernel
  have hw : wanted chSwitchCalls t!"a" = some ⟨[(t!"x", .ssh, t!"::1", 4334)], some .persistent, none⟩ := rfl
  have hn : ∀ c, c ≠ t!"a" → wanted chSwitchCalls c = none := by
    intro c hc
    simp [wanted, chSwitchCalls, Call.client, Ne.symm hc]
  obtain ⟨s, h3, h4, -⟩ := h chSwitchCalls _ ConfSetup.boot ConfSetup.Conf.empty (by
    intro x hx
    simp only [chSwitchCalls, List.mem_cons, List.not_mem_nil, or_false] at hx
    rcases hx with rfl | rfl | rfl <;> simp [Call.good, Call.client]) (by
    intro c w hcw
    by_cases hc : c = t!"a"
    · rw [hc, hw] at hcw; cases hcw; rfl
    · rw [hn c hc] at hcw; cases hcw) hb ⟨[], trivial, rfl, rfl⟩ (.inr rfl)
  obtain ⟨k, hk, -, hl, he, -⟩ := h4 _ _ hw
  have h5 := h2 disp
  rw [h3] at h5
  dsimp only at h5
  have : k.eps.map ConfCh.Ep.ti ∈ s.ch.map (fun k => k.eps.map ConfCh.Ep.ti) := List.mem_map.mpr ⟨k, hk, rfl⟩
  rw [h5, List.mem_singleton] at this
  match hke : k.eps, hl with
  | [y], _ =>
    have h6 := (he 0 y _ (by rw [hke]; rfl) rfl).2.1
    rw [hke] at this
    simp only [List.map_cons, List.map_nil, List.cons.injEq, and_true] at this
    rw [h6] at this
    cases this

end Verif.Props
