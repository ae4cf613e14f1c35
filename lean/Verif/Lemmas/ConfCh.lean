import Verif.Spec.ConfCh
import Verif.Lemmas.ConfEndpt

/-! # Lemmas on Call Home clients -/

namespace Verif.ConfCh
open Verif.ConfTree (Op Meta current ownOp)
open Verif.ConfStore
open Verif.ConfUsers (parentN keyOr visits visitsL visitsL_append findIdx_set get_set set_self holds_set keyOr_cons)
open Verif.ConfEndpt (Ti Opts Ka KaConf KaEdit KaAs kaData mapRes Part part partL)

/-! ## Leaves -/

theorem leaf_follow {σ : Type} (cb : List Anc → Nat → Op → σ → Res σ) (path : List Anc) (s : σ) (l : Label) (d : LeafEdit) (o o' : Option Nat)
    (set : Option Nat → σ) (hs : set o = s) (h1 : ∀ v op, setting op = true → o' = some v →
      cb (⟨l, none⟩ :: path) v op s = .ok (set (some v)))
    (h2 : ∀ v, cb (⟨l, none⟩ :: path) v .delete s = .ok (set none)) (h : d.apply o = some o') :
    parseList cb .none path s (leafTree l d) = .ok (set o') := by
  cases d with
  | keep =>
    simp only [LeafEdit.apply, Option.some.injEq] at h
    subst h
    simp only [leafTree, parseList, hs]
  | create v =>
    cases o with
    | some w => simp [LeafEdit.apply] at h
    | none =>
      simp only [LeafEdit.apply, Option.some.injEq] at h
      subst h
      simp only [leafTree, leaf]
      rw [parseList_cons _ _ _ _ _ _ _ (parse_set cb _ .create _ s _ l v [] .create rfl (.inl rfl) (h1 v .create rfl rfl))]
      rfl
  | replace v =>
    cases o with
    | none => simp [LeafEdit.apply] at h
    | some w =>
      simp only [LeafEdit.apply, Option.some.injEq] at h
      subst h
      simp only [leafTree, leaf]
      rw [parseList_cons _ _ _ _ _ _ _ (parse_set cb _ .replace _ s _ l v [] .replace rfl (.inr rfl) (h1 v .replace rfl rfl))]
      rfl
  | delete v =>
    cases o with
    | none => simp [LeafEdit.apply] at h
    | some w =>
      simp only [LeafEdit.apply] at h
      split at h
      · simp only [Option.some.injEq] at h
        subst h
        simp only [leafTree, leaf]
        rw [parseList_cons _ _ _ _ _ _ _ ((parse_del cb _ _ s l v []).trans (h2 v))]
        rfl
      · cases h

/-- Whatever the edit, the state stays in a set of states. -/
theorem leaf_any {σ : Type} (cb : List Anc → Nat → Op → σ → Res σ) (path : List Anc) (s : σ) (l : Label) (d : LeafEdit) (P : σ → Prop) (h0 : P s)
    (h : ∀ v op, ∃ s', cb (⟨l, none⟩ :: path) v op s = .ok s' ∧ P s') : ∃ s', parseList cb .none path s (leafTree l d) = .ok s' ∧ P s' := by
  cases d with
  | keep => exact ⟨s, rfl, h0⟩
  | create v =>
    obtain ⟨s', e, p⟩ := h v .create
    refine ⟨s', ?_, p⟩
    simp only [leafTree, leaf]
    rw [parseList_cons _ _ _ _ _ _ _ (parse_set cb _ .create _ s _ l v [] .create rfl (.inl rfl) e)]
    rfl
  | replace v =>
    obtain ⟨s', e, p⟩ := h v .replace
    refine ⟨s', ?_, p⟩
    simp only [leafTree, leaf]
    rw [parseList_cons _ _ _ _ _ _ _ (parse_set cb _ .replace _ s _ l v [] .replace rfl (.inr rfl) e)]
    rfl
  | delete v =>
    obtain ⟨s', e, p⟩ := h v .delete
    refine ⟨s', ?_, p⟩
    simp only [leafTree, leaf]
    rw [parseList_cons _ _ _ _ _ _ _ ((parse_del cb _ _ s l v []).trans e)]
    rfl

/-! ## Settings of a client -/

/-- The callback as far as the settings are concerned. -/
def optC (path : List Anc) (v : Nat) (op : Op) (o : Opt) : Res Opt := if ofOpt path op then optCb path v op o else .ok o

/-- Settings other than the connection type. -/
def SameRs (o o' : Opt) : Prop := o'.startWith = o.startWith ∧ o'.maxWait = o.maxWait ∧ o'.maxAttempts = o.maxAttempts

/-- Settings other than the reconnect strategy. -/
def SameConn (o o' : Opt) : Prop := o'.conn = o.conn ∧ o'.period = o.period ∧ o'.anchor = o.anchor ∧ o'.idle = o.idle

theorem periodic_create (p : Op) (m : Meta) (hm : current m p = .create) (path : List Anc) (o : Opt) (x y z : Option Nat) :
    parse optC p path o (periodicData x y z m) =
      .ok { o with conn := .period, period := x.getD 60, anchor := y.getD 0, idle := z.getD 180 } := by
  simp only [periodicData]
  rw [parse_set optC p m path o { o with conn := .period, period := 60, anchor := 0, idle := 180 } .periodic 0 _ .create hm (.inl rfl) rfl]
  cases y <;> rfl

theorem conn_create (path : List Anc) (o : Opt) (c : Conn) :
    ∃ o', parse optC .create path o c.data = .ok o' ∧ ConnAs o' c ∧ SameRs o o' := by
  cases c with
  | persistent => exact ⟨{ o with conn := .persist }, rfl, rfl, rfl, rfl, rfl⟩
  | periodic p a i =>
    simp only [Conn.data]
    exact ⟨_, periodic_create .create .absent rfl path o p a i, ⟨rfl, rfl, rfl, rfl⟩, rfl, rfl, rfl⟩

theorem conn_del (l : Label) (hl : l = .persistent ∨ l = .periodic) (p : Op) (path : List Anc) (o : Opt) (r : List Tree) :
    parse optC p path o (.node l 0 .delete r) = .ok o := by
  rw [parse_del]
  rcases hl with rfl | rfl <;> rfl

theorem conn_edit (path : List Anc) (o : Opt) (c c' : Conn) (ho : ConnAs o c) (d : ConnEdit) (h : c.change d = some c') :
    ∃ o', parseList optC .none path o d.trees = .ok o' ∧ ConnAs o' c' ∧ SameRs o o' := by
  cases d with
  | keep =>
    cases c <;> (simp only [Conn.change, Option.some.injEq] at h; subst h; exact ⟨o, rfl, ho, rfl, rfl, rfl⟩)
  | toPersistent r first =>
    cases c with
    | persistent => cases h
    | periodic p a i =>
      simp only [Conn.change, Option.some.injEq] at h
      subst h
      refine ⟨{ o with conn := .persist }, ?_, rfl, rfl, rfl, rfl⟩
      cases first <;> simp only [ConnEdit.trees, Bool.false_eq_true, if_true, if_false]
      · rw [parseList_cons _ _ _ o { o with conn := .persist } _ _ rfl, parseList_cons _ _ _ _ _ _ _ (conn_del _ (.inr rfl) _ _ _ _)]
        rfl
      · rw [parseList_cons _ _ _ _ _ _ _ (conn_del _ (.inr rfl) _ _ _ _)]
        rfl
  | toPeriodic r p a i first =>
    cases c with
    | periodic p a i => cases h
    | persistent =>
      simp only [Conn.change, Option.some.injEq] at h
      subst h
      refine ⟨{ o with conn := .period, period := p.getD 60, anchor := a.getD 0, idle := i.getD 180 }, ?_, ⟨rfl, rfl, rfl, rfl⟩, rfl, rfl, rfl⟩
      cases first <;> simp only [ConnEdit.trees, Bool.false_eq_true, if_true, if_false]
      · rw [parseList_cons _ _ _ _ _ _ _ (periodic_create .none .create rfl path o p a i), parseList_cons _ _ _ _ _ _ _ (conn_del _ (.inl rfl) _ _ _ _)]
        rfl
      · rw [parseList_cons _ _ _ _ _ _ _ (conn_del _ (.inl rfl) _ _ _ _), parseList_cons _ _ _ _ _ _ _ (periodic_create .none .create rfl path o p a i)]
        rfl
  | leaves ep ea ei =>
    cases c with
    | persistent => cases h
    | periodic p a i =>
      simp only [Conn.change] at h
      cases hp : ep.apply p with
      | none => rw [hp] at h; cases h
      | some p' =>
      cases ha : ea.apply a with
      | none => rw [hp, ha] at h; cases h
      | some a' =>
      cases hi : ei.apply i with
      | none => rw [hp, ha, hi] at h; cases h
      | some i' =>
      rw [hp, ha, hi] at h
      simp only [Option.some.injEq] at h
      subst h
      obtain ⟨o1, o2, o3, o4⟩ := ho
      refine ⟨{ o with period := p'.getD 60, anchor := a'.getD 0, idle := i'.getD 180 }, ?_, ⟨o1, rfl, rfl, rfl⟩, rfl, rfl, rfl⟩
      have key : ∀ path, parseList optC .none path o (leafTree .period ep ++ (leafTree .anchorTime ea ++ leafTree .idleTimeout ei)) =
          .ok { o with period := p'.getD 60, anchor := a'.getD 0, idle := i'.getD 180 } := by
        intro path
        rw [parseList_append _ _ _ _ _ _ _ (leaf_follow optC path o .period ep p p' (fun x => { o with period := x.getD 60 }) (by rw [← o2])
          (fun v op hop _ => by simp [optC, ofOpt, optCb, hop]) (fun v => rfl) hp)]
        rw [parseList_append _ _ _ _ _ _ _ (leaf_follow optC path _ .anchorTime ea a a' (fun x => { o with period := p'.getD 60, anchor := x.getD 0 })
          (by rw [← o3]) (fun v op hop _ => by simp [optC, ofOpt, optCb, hop]) (fun v => rfl) ha)]
        rw [leaf_follow optC path _ .idleTimeout ei i i' (fun x => { o with period := p'.getD 60, anchor := a'.getD 0, idle := x.getD 180 })
          (by rw [← o4]) (fun v op hop _ => by simp [optC, ofOpt, optCb, hop]) (fun v => rfl) hi]
      simp only [ConnEdit.trees]
      rw [parseList_cons _ _ _ _ _ _ _ ((parse_none optC _ .none _ o .periodic 0 _ rfl).trans (key _))]
      rfl

theorem rs_create (p : Op) (m : Meta) (hm : current m p = .create) (path : List Anc) (o : Opt) (c : Rs) (hv : c.valid = true) :
    parse optC p path o (c.data m) =
      .ok { o with startWith := c.startWith.getD 0, maxWait := c.maxWait.getD 5, maxAttempts := c.maxAttempts.getD 3 } := by
  simp only [Rs.data]
  rw [parse_set optC p m path o { o with startWith := 0, maxWait := 5, maxAttempts := 3 } .reconnectStrategy 0 _ .create hm (.inl rfl) rfl]
  simp only [Rs.valid, decide_eq_true_eq] at hv
  simp only [leaf]
  rw [parseList_cons _ _ _ _ { o with startWith := c.startWith.getD 0, maxWait := 5, maxAttempts := 3 } _ _ (by
    rw [parse_set optC .create .absent _ _ { o with startWith := c.startWith.getD 0, maxWait := 5, maxAttempts := 3 } _ _ _ .create rfl (.inl rfl)
      (by simp [optC, ofOpt, optCb, hv])]
    rfl)]
  rfl

theorem rs_edit (path : List Anc) (o : Opt) (c c' : Rs) (ho : RsAs o c) (hv : c.valid = true) (d : RsEdit) (h : c.change d = some c') :
    ∃ o', parseList optC .none path o d.trees = .ok o' ∧ RsAs o' c' ∧ SameConn o o' ∧ c'.valid = true := by
  cases d with
  | keep => simp only [Rs.change, Option.some.injEq] at h; subst h; exact ⟨o, rfl, ho, ⟨rfl, rfl, rfl, rfl⟩, hv⟩
  | create x =>
    simp only [Rs.change] at h
    split at h
    · rename_i hx
      simp only [Option.some.injEq] at h
      subst h
      simp only [Bool.and_eq_true] at hx
      simp only [RsEdit.trees]
      rw [parseList_cons _ _ _ _ _ _ _ (rs_create .none .create rfl path o x hx.2)]
      exact ⟨_, rfl, ⟨rfl, rfl, rfl⟩, ⟨rfl, rfl, rfl, rfl⟩, hx.2⟩
    · cases h
  | delete r =>
    simp only [Rs.change] at h
    split at h
    · cases h
    · simp only [Option.some.injEq] at h
      subst h
      refine ⟨{ o with startWith := 0, maxWait := 5, maxAttempts := 3 }, ?_, ⟨rfl, rfl, rfl⟩, ⟨rfl, rfl, rfl, rfl⟩, rfl⟩
      simp only [RsEdit.trees]
      rw [parseList_cons _ _ _ _ { o with startWith := 0, maxWait := 5, maxAttempts := 3 } _ _ (by rw [parse_del]; rfl)]
      rfl
  | leaves a b g =>
    simp only [Rs.change] at h
    cases ha : a.apply c.startWith with
    | none => rw [ha] at h; cases h
    | some x =>
    cases hb : b.apply c.maxWait with
    | none => rw [ha, hb] at h; cases h
    | some y =>
    cases hg : g.apply c.maxAttempts with
    | none => rw [ha, hb, hg] at h; cases h
    | some z =>
    rw [ha, hb, hg] at h
    simp only at h
    split at h
    · rename_i hx
      simp only [Option.some.injEq] at h
      subst h
      simp only [Bool.and_eq_true] at hx
      obtain ⟨o1, o2, o3⟩ := ho
      refine ⟨{ o with startWith := x.getD 0, maxWait := y.getD 5, maxAttempts := z.getD 3 }, ?_, ⟨rfl, rfl, rfl⟩, ⟨rfl, rfl, rfl, rfl⟩, hx.2⟩
      have hx2 : x.getD 0 ≤ 2 := by simpa [Rs.valid] using hx.2
      have key : ∀ path, parseList optC .none path o (leafTree .startWith a ++ (leafTree .maxWait b ++ leafTree .maxAttempts g)) =
          .ok { o with startWith := x.getD 0, maxWait := y.getD 5, maxAttempts := z.getD 3 } := by
        intro path
        rw [parseList_append _ _ _ _ _ _ _ (leaf_follow optC path o .startWith a c.startWith x (fun x => { o with startWith := x.getD 0 }) (by rw [← o1])
          (fun v op hop hv => by
            have h1 : op ≠ .delete := by rintro rfl; cases hop
            have h2 : v ≤ 2 := by rw [hv] at hx2; exact hx2
            simp [optC, ofOpt, optCb, h1, h2]) (fun v => rfl) ha)]
        rw [parseList_append _ _ _ _ _ _ _ (leaf_follow optC path _ .maxWait b c.maxWait y (fun y => { o with startWith := x.getD 0, maxWait := y.getD 5 })
          (by rw [← o2]) (fun v op hop _ => by simp [optC, ofOpt, optCb, hop]) (fun v => rfl) hb)]
        rw [leaf_follow optC path _ .maxAttempts g c.maxAttempts z (fun z => { o with startWith := x.getD 0, maxWait := y.getD 5, maxAttempts := z.getD 3 })
          (by rw [← o3]) (fun v op hop _ => by simp [optC, ofOpt, optCb, hop]) (fun v => rfl) hg]
      simp only [RsEdit.trees]
      rw [parseList_cons _ _ _ _ _ _ _ ((parse_none optC _ .none _ o .reconnectStrategy 0 _ rfl).trans (key _))]
      rfl
    · cases h


/-! ## An endpoint of a client -/

/-- The callback as far as an endpoint is concerned. -/
def epC (path : List Anc) (v : Nat) (op : Op) (e : Ep) : Res Ep := if ofEp path then epCb path v op e else .ok e

theorem epKa_create (key : Option Nat) (rest : List Anc) (e : Ep) (p : Op) (mt : Meta) (ho : current mt p = .create) (c : KaConf) :
    parse epC p (⟨.tcpClientParameters, key⟩ :: rest) e (kaData c mt) =
      .ok { e with ka := ⟨true, c.idle.getD 7200, c.probes.getD 9, c.interval.getD 75⟩ } := by
  simp only [kaData, leaf]
  rw [parse_set epC p mt _ e { e with ka := { e.ka with enabled := true } } .keepalives 0 _ .create ho (.inl rfl) rfl]
  rfl

theorem epKa_edit (key : Option Nat) (rest : List Anc) (e : Ep) (c c' : KaConf) (d : KaEdit) (h : c.change d = some c') :
    ∃ k, parseList epC .none (⟨.tcpClientParameters, key⟩ :: rest) e d.trees = .ok { e with ka := k } ∧
      (KaAs e.ka c → removesKa d = false → KaAs k c') := by
  cases d with
  | keep =>
    simp only [KaConf.change, Option.some.injEq] at h
    subst h
    exact ⟨e.ka, rfl, fun hk _ => hk⟩
  | create x =>
    simp only [KaConf.change] at h
    split at h
    · simp only [Option.some.injEq] at h
      subst h
      simp only [KaEdit.trees]
      rw [parseList_cons _ _ _ _ _ _ _ (epKa_create key rest e .none .create rfl x)]
      exact ⟨_, rfl, fun _ _ => ⟨rfl, rfl, rfl, rfl⟩⟩
    · cases h
  | delete r =>
    refine ⟨{ e.ka with enabled := false }, ?_, fun _ hd => by simp [removesKa] at hd⟩
    simp only [KaEdit.trees]
    rw [parseList_cons _ _ _ _ { e with ka := { e.ka with enabled := false } } _ _ ?_]
    · rfl
    · rw [parse_del]; rfl
  | leaves a b g =>
    simp only [KaConf.change] at h
    cases ha : a.apply c.idle with
    | none => rw [ha] at h; cases h
    | some x =>
    cases hb : b.apply c.probes with
    | none => rw [ha, hb] at h; cases h
    | some y =>
    cases hg : g.apply c.interval with
    | none => rw [ha, hb, hg] at h; cases h
    | some z =>
    rw [ha, hb, hg] at h
    simp only at h
    split at h
    · simp only [Option.some.injEq] at h
      subst h
      simp only [KaEdit.trees]
      have hx : ∀ k2, ∃ k, parseList epC .none (⟨.keepalives, k2⟩ :: ⟨.tcpClientParameters, key⟩ :: rest) e
          (leafTree .idleTime a ++ (leafTree .maxProbes b ++ leafTree .probeInterval g)) = .ok { e with ka := k } ∧
          (KaAs e.ka c → KaAs k ⟨x, y, z⟩) := by
        intro k2
        by_cases hk : KaAs e.ka c
        · obtain ⟨k1, k2', k3, k4⟩ := hk
          rw [parseList_append _ _ _ _ _ _ _ (leaf_follow epC _ e .idleTime a c.idle x (fun x => { e with ka := { e.ka with idle := x.getD 7200 } })
            (by rw [← k2']) (fun v op hop _ => by simp [epC, ofEp, epCb, hop, parentN]) (fun v => rfl) ha)]
          rw [parseList_append _ _ _ _ _ _ _ (leaf_follow epC _ _ .maxProbes b c.probes y
            (fun y => { e with ka := { e.ka with idle := x.getD 7200, probes := y.getD 9 } })
            (by rw [← k3]) (fun v op hop _ => by simp [epC, ofEp, epCb, hop, parentN]) (fun v => rfl) hb)]
          rw [leaf_follow epC _ _ .probeInterval g c.interval z
            (fun z => { e with ka := { e.ka with idle := x.getD 7200, probes := y.getD 9, interval := z.getD 75 } })
            (by rw [← k4]) (fun v op hop _ => by simp [epC, ofEp, epCb, hop, parentN]) (fun v => rfl) hg]
          exact ⟨_, rfl, fun _ => ⟨k1, rfl, rfl, rfl⟩⟩
        · obtain ⟨m1, e1, k1, rfl⟩ := leaf_any epC (⟨.keepalives, k2⟩ :: ⟨.tcpClientParameters, key⟩ :: rest) e .idleTime a
            (fun s => ∃ k, s = { e with ka := k }) ⟨e.ka, rfl⟩ (fun v op => ⟨_, rfl, _, rfl⟩)
          obtain ⟨m2, e2, k3, rfl⟩ := leaf_any epC (⟨.keepalives, k2⟩ :: ⟨.tcpClientParameters, key⟩ :: rest) { e with ka := k1 } .maxProbes b
            (fun s => ∃ k, s = { e with ka := k }) ⟨k1, rfl⟩ (fun v op => ⟨_, rfl, _, rfl⟩)
          obtain ⟨m3, e3, k4, rfl⟩ := leaf_any epC (⟨.keepalives, k2⟩ :: ⟨.tcpClientParameters, key⟩ :: rest) { e with ka := k3 } .probeInterval g
            (fun s => ∃ k, s = { e with ka := k }) ⟨k3, rfl⟩ (fun v op => ⟨_, rfl, _, rfl⟩)
          rw [parseList_append _ _ _ _ _ _ _ e1, parseList_append _ _ _ _ _ _ _ e2, e3]
          exact ⟨k4, rfl, fun h => absurd h hk⟩
      obtain ⟨k, hk1, hk2⟩ := hx (((leafTree .idleTime a ++ (leafTree .maxProbes b ++ leafTree .probeInterval g)).head?).map Tree.val)
      refine ⟨k, ?_, fun h _ => hk2 h⟩
      rw [parseList_cons _ _ _ _ _ _ _ ((parse_none epC _ .none _ e .keepalives 0 _ rfl).trans hk1)]
      rfl
    · cases h

/-- The endpoint after its transport was created. -/
def epMade (e : Ep) (c : EpConf) : Ep :=
  { name := e.name, ti := some c.ti, opts := .live c.ti, srcAddr := c.srcAddr.or e.srcAddr, srcPort := c.srcPort.getD 0, dstAddr := some c.dstAddr,
    dstPort := c.dstPort.getD (chPort c.ti), ka := ⟨true, c.ka.idle.getD 7200, c.ka.probes.getD 9, c.ka.interval.getD 75⟩ }

theorem epTrans_create (rest : List Anc) (e : Ep) (p : Op) (mt : Meta) (ho : current mt p = .create) (c : EpConf) :
    parse epC p rest e (epTrans c mt) = .ok (epMade e c) := by
  simp only [epTrans]
  rw [parse_set epC p mt rest e { e with ti := some c.ti, opts := .live c.ti } c.ti.label 0 _ .create ho (.inl rfl) (by cases c.ti <;> rfl)]
  rw [parseList_cons _ _ _ _ (epMade e c) _ _ ?_]
  · rfl
  · rw [parse_set epC .create .absent _ _ { e with ti := some c.ti, opts := .live c.ti } .tcpClientParameters 0 _ .create rfl (.inl rfl) rfl]
    generalize (leaf .remoteAddress c.dstAddr :: leaf .remotePort (c.dstPort.getD (chPort c.ti)) ::
      (optLeaf .localAddress c.srcAddr ++ [leaf .localPort (c.srcPort.getD 0), kaData c.ka])).head?.map Tree.val = key
    generalize ([Tree.node .tcpClientParameters 0 .absent _] : List Tree).head?.map Tree.val = key2
    rw [parseList_cons _ _ _ _ { e with ti := some c.ti, opts := .live c.ti, dstAddr := some c.dstAddr } _ _ rfl]
    rw [parseList_cons _ _ _ _ { e with ti := some c.ti, opts := .live c.ti, dstAddr := some c.dstAddr, dstPort := c.dstPort.getD (chPort c.ti) } _ _ rfl]
    rw [parseList_append _ _ _ _ { e with ti := some c.ti, opts := .live c.ti, dstAddr := some c.dstAddr, dstPort := c.dstPort.getD (chPort c.ti), srcAddr := c.srcAddr.or e.srcAddr } _ _ (by
      cases c.srcAddr <;> rfl)]
    rw [parseList_cons _ _ _ _ { e with ti := some c.ti, opts := .live c.ti, dstAddr := some c.dstAddr, dstPort := c.dstPort.getD (chPort c.ti), srcAddr := c.srcAddr.or e.srcAddr, srcPort := c.srcPort.getD 0 } _ _ rfl]
    rw [parseList_cons _ _ _ _ _ _ _ (epKa_create key _ _ .create .absent rfl c.ka)]
    rfl

/-- What is said of an endpoint. -/
def EpRep (w : Scope) (e : Ep) (x : Nat × EpConf) : Prop := EpAs e x ∧ (w = .keepalives → KaAs e.ka x.2.ka)

theorem epMade_rep (w : Scope) (e : Ep) (k : Nat) (c : EpConf) (hn : e.name = some k) (hs : e.srcAddr = none ∨ c.srcAddr.isSome = true) :
    EpRep w (epMade e c) (k, c) := by
  refine ⟨⟨hn, rfl, rfl, rfl, rfl, ?_, rfl⟩, fun _ => ⟨rfl, rfl, rfl, rfl⟩⟩
  simp only [epMade]
  cases h : c.srcAddr with
  | none => rcases hs with hs | hs
            · simp [hs]
            · simp [h] at hs
  | some v => rfl

theorem ep_params (key : Option Nat) (rest : List Anc) (e : Ep) (k : Nat) (c : EpConf) (he : EpAs e (k, c)) (a : Option Nat) (p x y : LeafEdit) (q : KaEdit)
    (p' x' y' : Option Nat) (q' : KaConf) (hp : p.apply c.dstPort = some p') (hx : x.apply c.srcAddr = some x') (hy : y.apply c.srcPort = some y')
    (hq : c.ka.change q = some q') (hr : removes p = false) :
    ∃ e', parseList epC .none (⟨.tcpClientParameters, key⟩ :: rest) e
      (replaced .remoteAddress a ++ (leafTree .remotePort p ++ (leafTree .localAddress x ++ (leafTree .localPort y ++ q.trees)))) = .ok e' ∧
      EpAs e' (k, ⟨c.ti, a.getD c.dstAddr, p', x', y', q'⟩) ∧ (KaAs e.ka c.ka → removesKa q = false → KaAs e'.ka q') := by
  obtain ⟨h1, h2, h3, h4, h5, h6, h7⟩ := he
  simp only at h1 h2 h3 h4 h5 h6 h7
  rw [parseList_append _ _ _ _ { e with dstAddr := some (a.getD c.dstAddr) } _ _ (by
    cases a with
    | none => simp only [replaced, parseList, Option.getD_none, ← h4]
    | some v => rfl)]
  have hp1 : parseList epC .none (⟨.tcpClientParameters, key⟩ :: rest) { e with dstAddr := some (a.getD c.dstAddr) } (leafTree .remotePort p) =
      .ok { e with dstAddr := some (a.getD c.dstAddr), dstPort := p'.getD (chPort c.ti) } := by
    cases p with
    | keep => simp only [LeafEdit.apply, Option.some.injEq] at hp; subst hp; simp only [leafTree, parseList, ← h5]
    | create v =>
      cases hd : c.dstPort with
      | some _ => simp [hd, LeafEdit.apply] at hp
      | none => simp only [hd, LeafEdit.apply, Option.some.injEq] at hp; subst hp; rfl
    | replace v =>
      cases hd : c.dstPort with
      | none => simp [hd, LeafEdit.apply] at hp
      | some _ => simp only [hd, LeafEdit.apply, Option.some.injEq] at hp; subst hp; rfl
    | delete v => simp [removes] at hr
  rw [parseList_append _ _ _ _ _ _ _ hp1]
  rw [parseList_append _ _ _ _ _ _ _ (leaf_follow epC _ _ .localAddress x c.srcAddr x'
    (fun x => { e with dstAddr := some (a.getD c.dstAddr), dstPort := p'.getD (chPort c.ti), srcAddr := x })
    (by rw [← h6]) (fun v op hop _ => by simp [epC, ofEp, epCb, hop, parentN]) (fun v => rfl) hx)]
  rw [parseList_append _ _ _ _ _ _ _ (leaf_follow epC _ _ .localPort y c.srcPort y'
    (fun y => { e with dstAddr := some (a.getD c.dstAddr), dstPort := p'.getD (chPort c.ti), srcAddr := x', srcPort := y.getD 0 })
    (by rw [← h7]) (fun v op hop _ => by simp [epC, ofEp, epCb, hop, parentN]) (fun v => rfl) hy)]
  obtain ⟨m, e1, e2⟩ := epKa_edit key rest
    { e with dstAddr := some (a.getD c.dstAddr), dstPort := p'.getD (chPort c.ti), srcAddr := x', srcPort := y'.getD 0 } c.ka q' q hq
  rw [e1]
  exact ⟨_, rfl, ⟨h1, h2, h3, rfl, rfl, rfl, rfl⟩, e2⟩

theorem ep_change (w : Scope) (hw : w ≠ .all) (rest : List Anc) (e : Ep) (k : Nat) (c c' : EpConf) (he : EpRep w e (k, c)) (d : EpChange)
    (h : c.change d = some c') (hl : d.lost w c = false) : ∃ e', parseList epC .none rest e d.trees = .ok e' ∧ EpRep w e' (k, c') := by
  have hw' : (w != .all) = true := by simpa using hw
  cases d with
  | params t a p x y q =>
    simp only [EpConf.change] at h
    cases hp : p.apply c.dstPort with
    | none => rw [hp] at h; cases h
    | some p' =>
    cases hx : x.apply c.srcAddr with
    | none => rw [hp, hx] at h; cases h
    | some x' =>
    cases hy : y.apply c.srcPort with
    | none => rw [hp, hx, hy] at h; cases h
    | some y' =>
    cases hq : c.ka.change q with
    | none => rw [hp, hx, hy, hq] at h; cases h
    | some q' =>
    rw [hp, hx, hy, hq] at h
    simp only at h
    split at h
    · rename_i ht
      subst ht
      simp only [Option.some.injEq] at h
      subst h
      simp only [EpChange.lost, hw', Bool.true_and, Bool.or_eq_false_iff, Bool.and_eq_false_imp, beq_iff_eq] at hl
      simp only [EpChange.trees]
      obtain ⟨e', e1, e2, e3⟩ := ep_params (((replaced .remoteAddress a ++ (leafTree .remotePort p ++ (leafTree .localAddress x ++ (leafTree .localPort y ++ q.trees)))).head?).map Tree.val)
        (⟨c.ti.label, some 0⟩ :: rest) e k c he.1 a p x y q p' x' y' q' hp hx hy hq hl.1
      refine ⟨e', ?_, e2, fun hk => e3 (he.2 hk) (hl.2 hk)⟩
      rw [parseList_cons _ _ _ _ e' _ _ ?_]
      · rfl
      · rw [parse_none epC _ .none _ e _ 0 _ rfl]
        rw [parseList_cons _ _ _ _ e' _ _ ?_]
        · rfl
        · rw [parse_none epC _ .none _ e _ 0 _ rfl]
          exact e1
    · cases h
  | switch t r x first =>
    simp only [EpConf.change] at h
    split at h
    · rename_i ht
      simp only [Option.some.injEq] at h
      subst h
      simp only [Bool.and_eq_true, decide_eq_true_eq, bne_iff_ne] at ht
      obtain ⟨rfl, ht⟩ := ht
      simp only [EpChange.lost, hw', Bool.true_and, Bool.or_eq_false_iff, Bool.not_eq_false'] at hl
      obtain ⟨rfl, hl⟩ := hl
      obtain ⟨⟨h1, h2, h3, h4, h5, h6, h7⟩, -⟩ := he
      simp only at h1 h2 h3 h4 h5 h6 h7
      refine ⟨epMade { e with opts := .freed } x, ?_, epMade_rep w _ k x h1 ?_⟩
      · simp only [EpChange.trees, if_true]
        rw [parseList_cons _ _ _ _ { e with opts := .freed } _ _ (by
          rw [parse_del]
          cases hc : c.ti <;> rw [hc] at h3 <;> simp [Ti.label, epC, ofEp, epCb, transport, h3])]
        rw [parseList_cons _ _ _ _ _ _ _ (epTrans_create rest _ .none .create rfl x)]
        rfl
      · simp only [h6]
        cases hs : c.srcAddr with
        | none => exact .inl rfl
        | some v =>
          right
          cases hx : x.srcAddr with
          | none => simp [hs, hx] at hl
          | some _ => rfl
    · cases h


/-! ## Endpoints of a client -/

/-- Names of endpoints differ. -/
def Distinct (l : Eps) : Prop := (l.map Prod.fst).Nodup

theorem listRel_append {α β : Type} (R : α → β → Prop) (as : List α) (bs : List β) (a : α) (b : β) (h : ListRel R as bs) (hab : R a b) :
    ListRel R (as ++ [a]) (bs ++ [b]) := by
  induction as generalizing bs with
  | nil => cases bs with
    | nil => exact ⟨hab, trivial⟩
    | cons _ _ => exact h.elim
  | cons x t ih => cases bs with
    | nil => exact h.elim
    | cons y u => exact ⟨h.1, ih u h.2⟩

theorem listRel_length {α β : Type} (R : α → β → Prop) (as : List α) (bs : List β) (h : ListRel R as bs) : as.length = bs.length := by
  induction as generalizing bs with
  | nil => cases bs with
    | nil => rfl
    | cons _ _ => exact h.elim
  | cons x t ih => cases bs with
    | nil => exact h.elim
    | cons y u => simp [ih u h.2]

theorem listRel_mono {α β : Type} (R S : α → β → Prop) (hRS : ∀ a b, R a b → S a b) (as : List α) (bs : List β) (h : ListRel R as bs) :
    ListRel S as bs := by
  induction as generalizing bs with
  | nil => cases bs with
    | nil => trivial
    | cons _ _ => exact h.elim
  | cons x t ih => cases bs with
    | nil => exact h.elim
    | cons y u => exact ⟨hRS _ _ h.1, ih u h.2⟩

theorem listRel_left {α β : Type} (R : α → β → Prop) (as : List α) (bs : List β) (h : ListRel R as bs) (a : α) (ha : a ∈ as) : ∃ b ∈ bs, R a b := by
  induction as generalizing bs with
  | nil => cases ha
  | cons x t ih => cases bs with
    | nil => exact h.elim
    | cons y u =>
      rcases List.mem_cons.mp ha with rfl | ha
      · exact ⟨y, by simp, h.1⟩
      · obtain ⟨b, hb, hr⟩ := ih u h.2 ha
        exact ⟨b, by simp [hb], hr⟩

theorem epOf_cons (x : Nat × EpConf) (l : Eps) (k : Nat) : epOf (x :: l) k = if x.1 = k then some x.2 else epOf l k := by
  simp only [epOf, List.find?_cons]
  by_cases h : x.1 = k
  · simp [h]
  · have : (x.1 == k) = false := by simpa using h
    rw [this, if_neg h]

theorem epOf_none (l : Eps) (k : Nat) (h : epOf l k = none) : k ∉ l.map Prod.fst := by
  induction l with
  | nil => simp
  | cons x t ih =>
    rw [epOf_cons] at h
    split at h
    · cases h
    · rename_i hx
      simp only [List.map_cons, List.mem_cons, not_or]
      exact ⟨fun e => hx e.symm, ih h⟩

theorem map_same (l : Eps) (k : Nat) (c' : EpConf) (h : k ∉ l.map Prod.fst) : l.map (fun x => if x.1 == k then (k, c') else x) = l := by
  induction l with
  | nil => rfl
  | cons x t ih =>
    simp only [List.map_cons, List.mem_cons, not_or] at h
    have : (x.1 == k) = false := by simpa using fun e => h.1 e.symm
    simp only [List.map_cons, this, ih h.2]
    rfl

theorem others_same (l : Eps) (k : Nat) (h : k ∉ l.map Prod.fst) : others l k = l := by
  simp only [others, List.filter_eq_self]
  intro x hx
  simp only [List.mem_map, not_exists, not_and] at h
  simpa using h x hx

theorem search_rel (w : Scope) (es : List Ep) (l : Eps) (h : ListRel (EpRep w) es l) (k : Nat) (hk : k ∉ l.map Prod.fst) : search k es = some none := by
  induction es generalizing l with
  | nil => rfl
  | cons e t ih => cases l with
    | nil => exact h.elim
    | cons y u =>
      simp only [List.map_cons, List.mem_cons, not_or] at hk
      simp only [search, h.1.1.1, ih u h.2 hk.2]
      rw [if_neg (fun e => hk.1 e.symm)]
      rfl

theorem search_new (w : Scope) (es : List Ep) (l : Eps) (h : ListRel (EpRep w) es l) (k : Nat) (hk : k ∉ l.map Prod.fst) (e : Ep) (he : e.name = some k) :
    search k (es ++ [e]) = some (some es.length) := by
  induction es generalizing l with
  | nil => simp [search, he]
  | cons x t ih => cases l with
    | nil => exact h.elim
    | cons y u =>
      simp only [List.map_cons, List.mem_cons, not_or] at hk
      simp only [List.cons_append, search, h.1.1.1, ih u h.2 hk.2]
      rw [if_neg (fun e => hk.1 e.symm)]
      rfl

theorem search_set (k i : Nat) (es : List Ep) (h : search k es = some (some i)) (x : Ep) (hx : x.name = some k) :
    search k (es.set i x) = some (some i) ∧ (es.set i x)[i]? = some x := by
  induction es generalizing i with
  | nil => simp [search] at h
  | cons e t ih =>
    simp only [search] at h
    cases hn : e.name with
    | none => rw [hn] at h; cases h
    | some n =>
      rw [hn] at h
      simp only at h
      split at h
      · simp only [Option.some.injEq] at h
        subst h
        simp [search, hx]
      · rename_i hne
        cases hs : search k t with
        | none => rw [hs] at h; cases h
        | some o =>
          cases o with
          | none => rw [hs] at h; cases h
          | some j =>
            rw [hs] at h
            simp only [Option.map_some, Option.some.injEq] at h
            subst h
            obtain ⟨i1, i2⟩ := ih j hs
            simp [search, hn, hne, i1, i2]

theorem ep_find (w : Scope) (es : List Ep) (l : Eps) (h : ListRel (EpRep w) es l) (hd : Distinct l) (k : Nat) (c : EpConf) (hk : epOf l k = some c) :
    ∃ i e, search k es = some (some i) ∧ es[i]? = some e ∧ EpRep w e (k, c) ∧
      (∀ e' c', EpRep w e' (k, c') → ListRel (EpRep w) (es.set i e') (l.map (fun x => if x.1 == k then (k, c') else x))) ∧
      ((l.getLast?.map Prod.fst) = some k → i + 1 = es.length ∧ ∀ x, ListRel (EpRep w) (es.set i x).dropLast (others l k)) := by
  induction es generalizing l with
  | nil => cases l with
    | nil => simp [epOf] at hk
    | cons _ _ => exact h.elim
  | cons x t ih => cases l with
    | nil => exact h.elim
    | cons y u =>
      have hd' : y.1 ∉ u.map Prod.fst ∧ Distinct u := by simpa [Distinct] using hd
      rw [epOf_cons] at hk
      by_cases hy : y.1 = k
      · rw [if_pos hy] at hk
        simp only [Option.some.injEq] at hk
        subst hk
        obtain ⟨y1, y2⟩ := y
        simp only at hy
        subst hy
        refine ⟨0, x, by simp [search, h.1.1.1], rfl, h.1, fun e' c' he' => ?_, fun hlast => ?_⟩
        · simp only [List.set_cons_zero, List.map_cons, beq_self_eq_true, if_true, map_same u y1 c' hd'.1]
          exact ⟨he', h.2⟩
        · cases u with
          | nil => cases t with
            | nil => exact ⟨rfl, fun z => by simp [others, ListRel]⟩
            | cons _ _ => exact h.2.elim
          | cons z u =>
            exfalso
            simp only [List.getLast?_cons_cons] at hlast
            apply hd'.1
            cases hg : (z :: u).getLast? with
            | none => rw [hg] at hlast; cases hlast
            | some q =>
              rw [hg] at hlast
              simp only [Option.map_some, Option.some.injEq] at hlast
              exact List.mem_map.mpr ⟨q, List.mem_of_getLast? hg, hlast⟩
      · rw [if_neg hy] at hk
        obtain ⟨i, e, h1, h2, h3, h4, h5⟩ := ih u h.2 hd'.2 hk
        have hyb : (y.1 == k) = false := by simpa using hy
        refine ⟨i + 1, e, by simp [search, h.1.1.1, hy, h1], by simpa using h2, h3, fun e' c' he' => ?_, fun hlast => ?_⟩
        · simp only [List.set_cons_succ, List.map_cons, hyb]
          exact ⟨h.1, h4 e' c' he'⟩
        · cases u with
          | nil => simp [epOf] at hk
          | cons z u =>
            rw [List.getLast?_cons_cons] at hlast
            obtain ⟨j1, j2⟩ := h5 hlast
            refine ⟨by simp [j1], fun q => ?_⟩
            cases t with
            | nil => exact h.2.elim
            | cons t1 t2 =>
              have hne : (t1 :: t2).set i q ≠ [] := by intro e; have := congrArg List.length e; simp at this
              obtain ⟨z1, z2, hz⟩ := List.exists_cons_of_ne_nil hne
              have j3 := j2 q
              rw [hz] at j3
              rw [List.set_cons_succ, hz, List.dropLast_cons_cons]
              have : others (y :: z :: u) k = y :: others (z :: u) k := by simp only [others, List.filter_cons, hyb]; rfl
              rw [this]
              exact ⟨h.1, j3⟩

theorem epCb_name (path : List Anc) (v : Nat) (op : Op) (e e' : Ep) (h : epCb path v op e = .ok e') : e'.name = e.name := by
  have ht : ∀ t, transport t op e = .ok e' → e'.name = e.name := by
    intro t h
    simp only [transport] at h
    split at h
    · cases h; rfl
    · split at h
      · split at h
        · cases h; rfl
        · cases h
      · cases h; rfl
  simp only [epCb] at h
  split at h
  · exact ht _ h
  · exact ht _ h
  all_goals (first | (cases h; rfl) | (cases h; split; rfl; split <;> rfl))

theorem epC_name (path : List Anc) (v : Nat) (op : Op) (e e' : Ep) (h : epC path v op e = .ok e') : e'.name = e.name := by
  simp only [epC] at h
  split at h
  · exact epCb_name path v op e e' h
  · cases h; rfl

/-- Nodes that change settings. -/
def optLabel (l : Label) : Bool :=
  l == .persistent || l == .periodic || l == .period || l == .anchorTime || l == .idleTimeout || l == .reconnectStrategy || l == .startWith ||
  l == .maxWait || l == .maxAttempts

theorem ofOpt_label (l : Label) (key : Option Nat) (path : List Anc) (op : Op) (h : optLabel l = false) : ofOpt (⟨l, key⟩ :: path) op = false := by
  cases l <;> first | rfl | cases h

/-- Nodes in an endpoint. -/
def inEp (l : Label) (_ : Nat) : Bool := !(l == .endpoint || optLabel l)

/-- Following one endpoint. -/
def epPart (c : Client) (k i : Nat) (hi : search k c.eps = some (some i)) :
    Part clientCb epC (fun x => { c with eps := c.eps.set i x }) where
  Good path := keyOr path .endpoint = some k
  Inv x := x.name = some k
  ok := inEp
  good l v key path hl hg := by
    rw [keyOr_cons]
    · exact hg
    · rintro rfl; simp [inEp] at hl
  step l v key path op x hl hg hx := by
    have hl' : l ≠ .endpoint ∧ optLabel l = false := by
      simp only [inEp, Bool.not_eq_true', Bool.or_eq_false_iff, beq_eq_false_iff_ne] at hl
      exact hl
    have hk : keyOr (⟨l, key⟩ :: path) .endpoint = some k := by rw [keyOr_cons _ _ _ _ hl'.1]; exact hg
    refine ⟨?_, fun x' hx' => by rw [epC_name _ _ _ _ _ hx']; exact hx⟩
    have hne : ¬ ((⟨l, key⟩ :: path).head?.map Anc.label = some .endpoint) := by simpa using hl'.1
    simp only [clientCb, if_neg hne, ofOpt_label l key path op hl'.2, Bool.false_eq_true, if_false]
    obtain ⟨s1, s2⟩ := search_set k i c.eps hi x hx
    by_cases hof : ofEp (⟨l, key⟩ :: path) = true
    · simp only [hof, if_true, withEp, hk, s1, s2, epC]
      cases epCb (⟨l, key⟩ :: path) v op x <;> simp [mapRes]
    · simp only [hof, epC, mapRes]
      rfl

/-- Nodes that are about settings. -/
def inOpt (l : Label) (_ : Nat) : Bool := optLabel l || l == .connectionType

/-- Following the settings. -/
def optPart (c : Client) : Part clientCb optC (fun o => { c with opt := o }) where
  Good _ := True
  Inv _ := True
  ok := inOpt
  good _ _ _ _ _ _ := trivial
  step l v key path op x hl _ _ := by
    refine ⟨?_, fun _ _ => trivial⟩
    have hne : ¬ ((⟨l, key⟩ :: path).head?.map Anc.label = some .endpoint) := by
      simp only [List.head?_cons, Option.map_some, Option.some.injEq]
      rintro rfl
      cases hl
    have he : ofEp (⟨l, key⟩ :: path) = false := by cases l <;> first | rfl | cases hl
    simp only [clientCb, if_neg hne, he, optC, Bool.false_eq_true, if_false]
    by_cases ho : ofOpt (⟨l, key⟩ :: path) op = true
    · simp only [ho, if_true]
      cases optCb (⟨l, key⟩ :: path) v op x <;> rfl
    · simp only [ho]
      rfl


/-! ## A client -/

theorem visits_leafTree (ok : Label → Nat → Bool) (l : Label) (h : ∀ v, ok l v = true) (d : LeafEdit) : visitsL ok (leafTree l d) = true := by
  cases d <;> simp [leafTree, visitsL, leaf, visits, h]

theorem visits_ti (t : Ti) : inEp t.label 0 = true := by cases t <;> rfl

theorem visits_optLeaf (ok : Label → Nat → Bool) (l : Label) (h : ∀ v, ok l v = true) (o : Option Nat) : visitsL ok (optLeaf l o) = true := by
  cases o <;> simp [optLeaf, visitsL, leaf, visits, h]

theorem visits_kaData (c : KaConf) (m : Meta) : visits inEp (kaData c m) = true := by
  simp [kaData, visits, visitsL, leaf, inEp, optLabel]

theorem visits_epTrans (c : EpConf) (m : Meta) : visits inEp (epTrans c m) = true := by
  simp only [epTrans, visits, visits_ti, visitsL, Bool.true_and, Bool.and_true, Bool.or_eq_true, Bool.and_eq_true]
  refine .inr ⟨rfl, .inr ⟨rfl, rfl, ?_⟩⟩
  rw [visitsL_append, visits_optLeaf _ _ (fun _ => rfl)]
  simp only [visitsL, visits_kaData]
  rfl

theorem visits_ka (d : KaEdit) : visitsL inEp d.trees = true := by
  cases d with
  | keep => rfl
  | create c => simp only [KaEdit.trees, visitsL, visits_kaData]; rfl
  | leaves a b g =>
    simp only [KaEdit.trees, visitsL, visits, visitsL_append, visits_leafTree inEp .idleTime (fun _ => rfl),
      visits_leafTree inEp .maxProbes (fun _ => rfl), visits_leafTree inEp .probeInterval (fun _ => rfl)]
    rfl
  | delete r => rfl

theorem visits_epChange (d : EpChange) : visitsL inEp d.trees = true := by
  cases d with
  | params t a p x y q =>
    have h1 : visitsL inEp (replaced .remoteAddress a) = true := by cases a <;> rfl
    simp only [EpChange.trees, visitsL, visits, visits_ti, visitsL_append, h1, visits_ka, visits_leafTree inEp .remotePort (fun _ => rfl),
      visits_leafTree inEp .localAddress (fun _ => rfl), visits_leafTree inEp .localPort (fun _ => rfl)]
    rfl
  | switch t r c first =>
    cases first <;> simp only [EpChange.trees, Bool.false_eq_true, if_true, if_false, visitsL, visits_epTrans, visits, visits_ti] <;> rfl

/-- An endpoint is created. -/
theorem ep_created (w : Scope) (p : Op) (m : Meta) (hm : current m p = .create) (path : List Anc) (c : Client) (l : Eps)
    (h : ListRel (EpRep w) c.eps l) (k : Nat) (hk : k ∉ l.map Prod.fst) (x : EpConf) :
    parse clientCb p path c (epData k x m) = .ok { c with eps := c.eps ++ [epMade (newEp k) x] } := by
  simp only [epData]
  rw [parse_set clientCb p m path c { c with eps := c.eps ++ [newEp k] } .endpoint 0 _ .create hm (.inl rfl) rfl]
  rw [parseList_cons _ _ _ _ { c with eps := c.eps ++ [newEp k] } _ _ rfl]
  have hs := search_new w c.eps l h k hk (newEp k) rfl
  have hp := partL (epPart { c with eps := c.eps ++ [newEp k] } k c.eps.length hs) [epTrans x] .create (⟨.endpoint, some k⟩ :: path) (newEp k)
    (by simp [epPart, keyOr, keyOf_head]) rfl (by simp only [visitsL, epPart, visits_epTrans]; rfl)
  have e0 : ({ c with eps := (c.eps ++ [newEp k]).set c.eps.length (newEp k) } : Client) = { c with eps := c.eps ++ [newEp k] } := by simp
  have hp1 := hp.1
  simp only [e0] at hp1
  change parseList clientCb .create (⟨.endpoint, some k⟩ :: path) { c with eps := c.eps ++ [newEp k] } [epTrans x] = _
  rw [hp1, parseList_cons _ _ _ _ _ _ _ (epTrans_create _ _ .create .absent rfl x)]
  simp [parseList, mapRes]

theorem distinct_append (l : Eps) (h : Distinct l) (k : Nat) (x : EpConf) (hk : k ∉ l.map Prod.fst) : Distinct (l ++ [(k, x)]) := by
  simp only [Distinct, List.map_append, List.map_cons, List.map_nil]
  rw [List.nodup_append]
  refine ⟨h, by simp, ?_⟩
  intro a ha b hb
  simp only [List.mem_singleton] at hb
  subst hb
  rintro rfl
  exact hk ha

theorem newEp_rep (w : Scope) (k : Nat) (x : EpConf) : EpRep w (epMade (newEp k) x) (k, x) := epMade_rep w (newEp k) k x rfl (.inl rfl)

theorem eps_created (w : Scope) (path : List Anc) (xs : Eps) : ∀ (c : Client) (l : Eps), ListRel (EpRep w) c.eps l → Distinct (l ++ xs) →
    ∃ es, parseList clientCb .create path c (xs.map (fun x => epData x.1 x.2)) = .ok { c with eps := es } ∧ ListRel (EpRep w) es (l ++ xs) := by
  induction xs with
  | nil => intro c l h _; exact ⟨c.eps, rfl, by simpa using h⟩
  | cons x t ih =>
    intro c l h hd
    have hk : x.1 ∉ l.map Prod.fst := by
      simp only [Distinct, List.map_append, List.map_cons, List.nodup_append] at hd
      intro hm
      exact hd.2.2 _ hm _ (by simp) rfl
    simp only [List.map_cons]
    rw [parseList_cons _ _ _ _ _ _ _ (ep_created w .create .absent rfl path c l h x.1 hk x.2)]
    obtain ⟨es, e1, e2⟩ := ih { c with eps := c.eps ++ [epMade (newEp x.1) x.2] } (l ++ [x]) (listRel_append _ _ _ _ _ h (newEp_rep w x.1 x.2)) (by simpa using hd)
    exact ⟨es, e1, by simpa using e2⟩

/-- An edit of endpoints is followed. -/
theorem ep_edit (w : Scope) (hw : w ≠ .all) (path : List Anc) (c : Client) (l l' : Eps) (h : ListRel (EpRep w) c.eps l) (hd : Distinct l) (d : EpEdit)
    (hl : d.lost w l = false) (ha : d.apply l = some l') :
    ∃ es, parse clientCb .none path c d.tree = .ok { c with eps := es } ∧ ListRel (EpRep w) es l' ∧ Distinct l' := by
  have hw' : (w != .all) = true := by simpa using hw
  cases d with
  | move k i => simp [EpEdit.lost, hw'] at hl
  | create k i x =>
    simp only [EpEdit.apply] at ha
    cases hk : epOf l k with
    | some _ => rw [hk] at ha; cases ha
    | none =>
      rw [hk] at ha
      simp only [EpEdit.lost, hw', Bool.true_and, bne_eq_false_iff_eq] at hl
      subst hl
      simp only [Nat.le_refl, if_true, Option.some.injEq, insertAt, List.take_length, List.drop_length] at ha
      subst ha
      have hk' := epOf_none l k hk
      refine ⟨c.eps ++ [epMade (newEp k) x], ?_, listRel_append _ _ _ _ _ h (newEp_rep w k x), distinct_append l hd k x hk'⟩
      exact ep_created w .none .create rfl path c l h k hk' x
  | delete k r =>
    simp only [EpEdit.apply] at ha
    cases hk : epOf l k with
    | none => rw [hk] at ha; cases ha
    | some x =>
      rw [hk] at ha
      simp only [Option.some.injEq] at ha
      subst ha
      simp only [EpEdit.lost, hw', Bool.true_and, bne_eq_false_iff_eq] at hl
      obtain ⟨i, e, h1, h2, h3, h4, h5⟩ := ep_find w c.eps l h hd k x hk
      obtain ⟨-, h6⟩ := h5 hl
      refine ⟨_, ?_, h6 { e with name := none, opts := .freed }, ?_⟩
      · simp only [EpEdit.tree]
        rw [parse_del]
        have hkey : keyOr (⟨.endpoint, some k⟩ :: path) .endpoint = some k := by simp [keyOr, keyOf_head]
        change clientCb (⟨.endpoint, some k⟩ :: path) 0 .delete c = _
        simp only [clientCb, List.head?_cons, Option.map_some, if_true, endpoint, reduceCtorEq, if_false, hkey, h1, h2, delEp, h3.1.2.1, h3.1.2.2.1]
      · simp only [Distinct, others]
        exact hd.sublist (List.Sublist.map _ List.filter_sublist)
  | change k d =>
    simp only [EpEdit.apply] at ha
    cases hk : epOf l k with
    | none => rw [hk] at ha; cases ha
    | some x =>
      rw [hk] at ha
      simp only at ha
      cases hx : x.change d with
      | none => rw [hx] at ha; cases ha
      | some x' =>
        rw [hx] at ha
        simp only [Option.map_some, Option.some.injEq] at ha
        subst ha
        simp only [EpEdit.lost, hk] at hl
        obtain ⟨i, e, h1, h2, h3, h4, -⟩ := ep_find w c.eps l h hd k x hk
        obtain ⟨e', e1, e2⟩ := ep_change w hw (⟨.endpoint, some k⟩ :: path) e k x x' h3 d hx hl
        refine ⟨c.eps.set i e', ?_, h4 e' x' e2, ?_⟩
        · simp only [EpEdit.tree]
          rw [parse_none clientCb _ .none _ c _ 0 _ rfl]
          change parseList clientCb .none (⟨.endpoint, some k⟩ :: path) c (leaf .name k :: d.trees) = _
          rw [parseList_cons _ _ _ _ c _ _ rfl]
          have hp := (partL (epPart c k i h1) d.trees .none (⟨.endpoint, some k⟩ :: path) e
            (by simp [epPart, keyOr, keyOf_head]) h3.1.1 (visits_epChange d)).1
          have e0 : ({ c with eps := c.eps.set i e } : Client) = c := by rw [set_self _ _ _ h2]
          simp only [e0, e1] at hp
          exact hp
        · simp only [Distinct, List.map_map]
          have : (Prod.fst ∘ fun (y : Nat × EpConf) => if y.1 == k then (k, x') else y) = Prod.fst := by
            funext y
            simp only [Function.comp]
            split
            · rename_i hy; simpa using (beq_iff_eq.mp hy).symm
            · rfl
          rw [this]
          exact hd

theorem ep_edits (w : Scope) (hw : w ≠ .all) (path : List Anc) (ds : List EpEdit) : ∀ (c : Client) (l l' : Eps), ListRel (EpRep w) c.eps l → Distinct l →
    applyEps w l ds = some l' → ∃ es, parseList clientCb .none path c (ds.map EpEdit.tree) = .ok { c with eps := es } ∧ ListRel (EpRep w) es l' ∧ Distinct l' := by
  induction ds with
  | nil =>
    intro c l l' h hd ha
    simp only [applyEps, Option.some.injEq] at ha
    subst ha
    exact ⟨c.eps, rfl, h, hd⟩
  | cons d ds ih =>
    intro c l l' h hd ha
    simp only [applyEps] at ha
    split at ha
    · cases ha
    · rename_i hl
      cases h1 : d.apply l with
      | none => rw [h1] at ha; cases ha
      | some l1 =>
        rw [h1] at ha
        obtain ⟨es, e1, e2, e3⟩ := ep_edit w hw path c l l1 h hd d (by simpa using hl) h1
        obtain ⟨es', f1, f2, f3⟩ := ih { c with eps := es } l1 l' e2 e3 ha
        refine ⟨es', ?_, f2, f3⟩
        simp only [List.map_cons]
        rw [parseList_cons _ _ _ _ _ _ _ e1, f1]

theorem visits_conn (d : ConnEdit) : visitsL inOpt d.trees = true := by
  have hp : ∀ p a i m, visits inOpt (periodicData p a i m) = true := by
    intro p a i m
    simp only [periodicData, visits, visitsL, visitsL_append, visits_optLeaf inOpt .anchorTime (fun _ => rfl)]
    simp [leaf, visits, visitsL, inOpt, optLabel]
  cases d with
  | keep => rfl
  | toPersistent r first => cases first <;> rfl
  | toPeriodic r p a i first =>
    cases first <;> simp only [ConnEdit.trees, Bool.false_eq_true, if_true, if_false, visitsL, hp] <;> rfl
  | leaves p a i =>
    simp only [ConnEdit.trees, visitsL, visits, visitsL_append, visits_leafTree inOpt .period (fun _ => rfl),
      visits_leafTree inOpt .anchorTime (fun _ => rfl), visits_leafTree inOpt .idleTimeout (fun _ => rfl)]
    rfl

theorem visits_rs (d : RsEdit) : visitsL inOpt d.trees = true := by
  cases d with
  | keep => rfl
  | create c => rfl
  | leaves a b g =>
    simp only [RsEdit.trees, visitsL, visits, visitsL_append, visits_leafTree inOpt .startWith (fun _ => rfl),
      visits_leafTree inOpt .maxWait (fun _ => rfl), visits_leafTree inOpt .maxAttempts (fun _ => rfl)]
    rfl
  | delete r => rfl

/-- Changes of settings are followed. -/
theorem opt_edit (path : List Anc) (c : Client) (x : ClientConf) (ho : OptAs c x) (hv : x.rs.valid = true) (dc : ConnEdit) (dr : RsEdit) (k' : Conn)
    (r' : Rs) (hc : x.conn.change dc = some k') (hr : x.rs.change dr = some r') :
    ∃ o, parseList clientCb .none path c (.node .connectionType 0 .none dc.trees :: dr.trees) = .ok { c with opt := o } ∧
      ConnAs o k' ∧ RsAs o r' ∧ r'.valid = true := by
  obtain ⟨o1, e1, e2, e3⟩ := conn_edit (⟨.connectionType, (dc.trees.head?).map Tree.val⟩ :: path) c.opt x.conn k' ho.1 dc hc
  have hr1 : RsAs o1 x.rs := by
    obtain ⟨a, b, g⟩ := ho.2
    obtain ⟨a', b', g'⟩ := e3
    exact ⟨a'.trans a, b'.trans b, g'.trans g⟩
  obtain ⟨o2, f1, f2, f3, f4⟩ := rs_edit path o1 x.rs r' hr1 hv dr hr
  refine ⟨o2, ?_, ?_, f2, f4⟩
  · have hp1 := (partL (optPart c) dc.trees .none (⟨.connectionType, (dc.trees.head?).map Tree.val⟩ :: path) c.opt trivial trivial (visits_conn dc)).1
    have hp2 := (partL (optPart c) dr.trees .none path o1 trivial trivial (visits_rs dr)).1
    rw [e1] at hp1
    rw [f1] at hp2
    have e0 : ({ c with opt := c.opt } : Client) = c := rfl
    rw [parseList_cons _ _ _ _ _ _ _ ((parse_none clientCb _ .none path c .connectionType 0 _ rfl).trans hp1)]
    exact hp2
  · obtain ⟨a, b, g, z⟩ := f3
    cases k' with
    | persistent => exact a.trans e2
    | periodic => exact ⟨a.trans e2.1, b.trans e2.2.1, g.trans e2.2.2.1, z.trans e2.2.2.2⟩


/-! ## All clients -/

theorem withEp_frame (path : List Anc) (c c' : Client) (f : Ep → Res Ep) (h : withEp path c f = .ok c') :
    c'.name = c.name ∧ c'.thread = c.thread ∧ c'.opt = c.opt := by
  simp only [withEp] at h
  repeat' split at h
  all_goals first | cases h; exact ⟨rfl, rfl, rfl⟩ | cases h

theorem endpoint_frame (path : List Anc) (op : Op) (c c' : Client) (h : endpoint path op c = .ok c') :
    c'.name = c.name ∧ c'.thread = c.thread ∧ c'.opt = c.opt := by
  simp only [endpoint, delEp] at h
  repeat' split at h
  all_goals first | (cases h; exact ⟨rfl, rfl, rfl⟩) | cases h

theorem clientCb_name (path : List Anc) (v : Nat) (op : Op) (c c' : Client) (h : clientCb path v op c = .ok c') :
    c'.name = c.name ∧ c'.thread = c.thread ∧ (ofOpt path op = false → c'.opt = c.opt) := by
  simp only [clientCb] at h
  split at h
  · obtain ⟨a, b, d⟩ := endpoint_frame path op c c' h
    exact ⟨a, b, fun _ => d⟩
  · split at h
    · rename_i ho
      split at h
      · cases h; exact ⟨rfl, rfl, fun hc => by rw [ho] at hc; cases hc⟩
      · cases h
      · cases h
    · split at h
      · obtain ⟨a, b, d⟩ := withEp_frame path c c' _ h
        exact ⟨a, b, fun _ => d⟩
      · cases h; exact ⟨rfl, rfl, fun _ => rfl⟩

/-- Nodes in a client. -/
def inClient (l : Label) (_ : Nat) : Bool := !(l == .netconfClient)

/-- Following one client. -/
def clientPart (disp : Bool) (s : List Client) (k i : Nat) (c : Client) (hi : s.findIdx? (fun x => x.name == k) = some i) (hc : s[i]? = some c)
    (hck : c.name = k) : Part (srvCb disp) clientCb (fun x => s.set i x) where
  Good path := keyOr path .netconfClient = some k
  Inv x := x.name = k
  ok := inClient
  good l v key path hl hg := by
    rw [keyOr_cons]
    · exact hg
    · rintro rfl; simp [inClient] at hl
  step l v key path op x hl hg hx := by
    have hl' : l ≠ .netconfClient := by simpa [inClient] using hl
    have hk : keyOr (⟨l, key⟩ :: path) .netconfClient = some k := by rw [keyOr_cons _ _ _ _ hl']; exact hg
    refine ⟨?_, fun x' hx' => by rw [(clientCb_name _ _ _ _ _ hx').1]; exact hx⟩
    have hne : ¬ ((⟨l, key⟩ :: path).head?.map Anc.label = some .netconfClient) := by simpa using hl'
    simp only [srvCb, if_neg hne]
    have s1 := findIdx_set Client.name s k i c x hi hc (by rw [hx, hck])
    have s2 := get_set s i c x hc
    by_cases hof : ofClient (⟨l, key⟩ :: path) op = true
    · simp only [hof, if_true, withClient, hk, Option.bind_some, s1, s2]
      cases clientCb (⟨l, key⟩ :: path) v op x <;> simp [mapRes]
    · have h1 : clientCb (⟨l, key⟩ :: path) v op x = .ok x := by
        simp only [ofClient, Bool.or_eq_true, beq_iff_eq, not_or] at hof
        simp only [clientCb, if_neg hof.1.1, if_neg hof.1.2, if_neg hof.2]
      simp only [hof, h1, mapRes]
      rfl

/-- What is said of a client. -/
def Rep (disp : Bool) (w : Scope) (c : Client) (x : ClientConf) : Prop :=
  c.thread = disp ∧ OptAs c x ∧ x.rs.valid = true ∧ (w ≠ .all → ListRel (EpRep w) c.eps x.eps ∧ Distinct x.eps)

/-- What is said of all clients. -/
def Inv (disp : Bool) (w : Scope) (s : List Client) (m : Map ClientConf) : Prop := Holds Client.name (Rep disp w) s m

theorem visits_epData (k : Nat) (x : EpConf) (m : Meta) : visits inClient (epData k x m) = true := by
  have h : ∀ t : Ti, inClient t.label 0 = true := by intro t; cases t <;> rfl
  simp only [epData, epTrans, kaData, leaf, visits, visitsL, visitsL_append, visits_optLeaf inClient .localAddress (fun _ => rfl), h]
  simp [inClient]

theorem visits_client (c : ClientConf) : visitsL inClient [.node .other 0 .absent (c.eps.map (fun x => epData x.1 x.2)),
    .node .connectionType 0 .absent [c.conn.data], c.rs.data] = true := by
  have h1 := Verif.ConfUsers.visitsL_map inClient (fun x : Nat × EpConf => epData x.1 x.2) c.eps (fun x _ => visits_epData x.1 x.2 .absent)
  have h2 : visits inClient c.conn.data = true := by
    cases c.conn with
    | persistent => rfl
    | periodic p a i =>
      simp only [Conn.data, periodicData, visits, visitsL, visitsL_append, visits_optLeaf inClient .anchorTime (fun _ => rfl), leaf]
      rfl
  simp only [visitsL, visits, h1, h2]
  rfl

mutual
theorem visits_mono (ok ok' : Label → Nat → Bool) (h : ∀ l v, ok l v = true → ok' l v = true) : ∀ t, visits ok t = true → visits ok' t = true
  | .node l v m ch => by
    simp only [visits, Bool.and_eq_true, Bool.or_eq_true]
    rintro ⟨a, b⟩
    refine ⟨h _ _ a, ?_⟩
    rcases b with b | b
    · exact .inl b
    · exact .inr (visitsL_mono ok ok' h ch b)
theorem visitsL_mono (ok ok' : Label → Nat → Bool) (h : ∀ l v, ok l v = true → ok' l v = true) : ∀ ts, visitsL ok ts = true → visitsL ok' ts = true
  | [] => fun _ => rfl
  | t :: ts => by
    simp only [visitsL, Bool.and_eq_true]
    rintro ⟨a, b⟩
    exact ⟨visits_mono ok ok' h t a, visitsL_mono ok ok' h ts b⟩
end

/-- Nodes in the endpoints of a client. -/
def inEps (l : Label) (_ : Nat) : Bool := !(l == .netconfClient || optLabel l)

theorem visits_epEdit (d : EpEdit) : visits inEps d.tree = true := by
  have h1 : ∀ c : EpConf, visits inEps (epTrans c .absent) = true := by
    intro c
    have h : inEps c.ti.label 0 = true := by cases c.ti <;> rfl
    simp only [epTrans, kaData, leaf, visits, visitsL, visitsL_append, visits_optLeaf inEps .localAddress (fun _ => rfl), h]
    rfl
  have h2 : ∀ c : EpConf, visits inEps (epTrans c .create) = true := by
    intro c
    have h : inEps c.ti.label 0 = true := by cases c.ti <;> rfl
    simp only [epTrans, kaData, leaf, visits, visitsL, visitsL_append, visits_optLeaf inEps .localAddress (fun _ => rfl), h]
    rfl
  have h3 : ∀ t : Ti, inEps t.label 0 = true := by intro t; cases t <;> rfl
  cases d with
  | create k i c => simp only [EpEdit.tree, epData, leaf, visits, visitsL, h1]; rfl
  | delete k r => rfl
  | move k i => rfl
  | change k d =>
    have : visitsL inEps d.trees = true := by
      cases d with
      | params t a p x y q =>
        have g1 : visitsL inEps (replaced .remoteAddress a) = true := by cases a <;> rfl
        have g2 : visitsL inEps q.trees = true := by
          cases q with
          | keep => rfl
          | create c => rfl
          | leaves a b g =>
            simp only [KaEdit.trees, visitsL, visits, visitsL_append, visits_leafTree inEps .idleTime (fun _ => rfl),
              visits_leafTree inEps .maxProbes (fun _ => rfl), visits_leafTree inEps .probeInterval (fun _ => rfl)]
            rfl
          | delete r => rfl
        simp only [EpChange.trees, visitsL, visits, h3, visitsL_append, g1, g2, visits_leafTree inEps .remotePort (fun _ => rfl),
          visits_leafTree inEps .localAddress (fun _ => rfl), visits_leafTree inEps .localPort (fun _ => rfl)]
        rfl
      | switch t r c first =>
        cases first <;> simp only [EpChange.trees, Bool.false_eq_true, if_true, if_false, visitsL, h2, visits, h3] <;> rfl
    simp only [EpEdit.tree, visits, visitsL, this, leaf]
    rfl

theorem visits_change (d : ClientChange) :
    visitsL inClient (.node .other 0 .none (d.eps.map EpEdit.tree) :: .node .connectionType 0 .none d.conn.trees :: d.rs.trees) = true := by
  have h1 := Verif.ConfUsers.visitsL_map inClient EpEdit.tree d.eps (fun x _ => visits_mono inEps inClient (by
    intro l v hl
    simp only [inEps, inClient, Bool.not_eq_true', Bool.or_eq_false_iff] at hl ⊢
    exact hl.1) _ (visits_epEdit x))
  have hm : ∀ l v, inOpt l v = true → inClient l v = true := by intro l v hl; cases l <;> first | rfl | cases hl
  have h2 := visitsL_mono inOpt inClient hm _ (visits_conn d.conn)
  have h3 := visitsL_mono inOpt inClient hm _ (visits_rs d.rs)
  simp only [visitsL, visits, h1, h2, h3]
  rfl

/-- A client is created. -/
theorem client_created (disp : Bool) (w : Scope) (p : Op) (m : Meta) (hm : current m p = .create) (path : List Anc) (s : List Client) (mp : Map ClientConf)
    (h : Inv disp w s mp) (k : Nat) (hk : mp k = none) (x : ClientConf) (hx : Distinct x.eps) (hv : x.rs.valid = true) :
    ∃ s', parse (srvCb disp) p path s (clientData k x m) = .ok s' ∧ Inv disp w s' (upd mp k (some x)) := by
  -- the client alone
  have hc : ∃ c', parseList clientCb .create (⟨.netconfClient, some k⟩ :: path) ⟨k, disp, [], newOpt⟩
      [.node .other 0 .absent (x.eps.map (fun x => epData x.1 x.2)), .node .connectionType 0 .absent [x.conn.data], x.rs.data] = .ok c' ∧
      c'.name = k ∧ Rep disp w c' x := by
    have e1 : ∀ pt, ∃ es, parseList clientCb .create pt ⟨k, disp, [], newOpt⟩ (x.eps.map (fun x => epData x.1 x.2)) = .ok ⟨k, disp, es, newOpt⟩ ∧
        ListRel (EpRep w) es x.eps := by
      intro pt
      obtain ⟨es, a, b⟩ := eps_created w pt x.eps ⟨k, disp, [], newOpt⟩ [] trivial (by simpa using hx)
      exact ⟨es, a, by simpa using b⟩
    obtain ⟨es, e2, e3⟩ := e1 (⟨.other, ((x.eps.map (fun x => epData x.1 x.2)).head?).map Tree.val⟩ :: ⟨.netconfClient, some k⟩ :: path)
    obtain ⟨o1, f1, f2, f3⟩ := conn_create (⟨.connectionType, some x.conn.data.val⟩ :: ⟨.netconfClient, some k⟩ :: path) newOpt x.conn
    have hvis : visitsL inOpt [x.conn.data] = true := by
      cases x.conn with
      | persistent => rfl
      | periodic p a i =>
        simp only [Conn.data, periodicData, visits, visitsL, visitsL_append, visits_optLeaf inOpt .anchorTime (fun _ => rfl), leaf]
        rfl
    have hp1 := (partL (optPart ⟨k, disp, es, newOpt⟩) [x.conn.data] .create (⟨.connectionType, some x.conn.data.val⟩ :: ⟨.netconfClient, some k⟩ :: path)
      newOpt trivial trivial hvis).1
    rw [parseList_cons _ _ _ _ _ _ _ f1] at hp1
    replace hp1 : parseList clientCb .create (⟨.connectionType, some x.conn.data.val⟩ :: ⟨.netconfClient, some k⟩ :: path) ⟨k, disp, es, newOpt⟩ [x.conn.data] =
      .ok ⟨k, disp, es, o1⟩ := hp1
    have hp2 := (part (optPart ⟨k, disp, es, newOpt⟩) x.rs.data .create (⟨.netconfClient, some k⟩ :: path) o1 trivial trivial rfl).1
    rw [rs_create .create .absent rfl _ _ x.rs hv] at hp2
    refine ⟨⟨k, disp, es, { o1 with startWith := x.rs.startWith.getD 0, maxWait := x.rs.maxWait.getD 5, maxAttempts := x.rs.maxAttempts.getD 3 }⟩, ?_, rfl,
      rfl, ⟨?_, rfl, rfl, rfl⟩, hv, fun _ => ⟨e3, hx⟩⟩
    · rw [parseList_cons _ _ _ _ _ _ _ ((parse_set clientCb .create .absent _ _ _ .other 0 _ .create rfl (.inl rfl) rfl).trans e2)]
      rw [parseList_cons _ _ _ _ ⟨k, disp, es, o1⟩ _ _ (by
        rw [parse_set clientCb .create .absent _ ⟨k, disp, es, newOpt⟩ ⟨k, disp, es, newOpt⟩ .connectionType 0 _ .create rfl (.inl rfl) rfl]
        exact hp1)]
      rw [parseList_cons _ _ _ _ _ _ _ hp2]
      rfl
    · cases hcn : x.conn with
      | persistent => rw [hcn] at f2; exact f2
      | periodic => rw [hcn] at f2; exact f2
  obtain ⟨c', c1, c2, c3⟩ := hc
  have habs := holds_absent _ _ _ _ h k hk
  have hi := findIdx_new (fun c : Client => c.name == k) s ⟨k, disp, [], newOpt⟩ habs (by simp)
  have hg : (s ++ [(⟨k, disp, [], newOpt⟩ : Client)])[s.length]? = some ⟨k, disp, [], newOpt⟩ := by simp
  have hp := (partL (clientPart disp (s ++ [(⟨k, disp, [], newOpt⟩ : Client)]) k s.length ⟨k, disp, [], newOpt⟩ hi hg rfl)
    [.node .other 0 .absent (x.eps.map (fun (y : Nat × EpConf) => epData y.1 y.2)), .node .connectionType 0 .absent [x.conn.data], x.rs.data] .create
    (⟨.netconfClient, some k⟩ :: path) ⟨k, disp, [], newOpt⟩ (by simp [clientPart, keyOr, keyOf_head]) rfl (visits_client x)).1
  have e0 : (s ++ [(⟨k, disp, [], newOpt⟩ : Client)]).set s.length ⟨k, disp, [], newOpt⟩ = s ++ [⟨k, disp, [], newOpt⟩] := by simp
  simp only [e0, c1, mapRes] at hp
  refine ⟨s ++ [c'], ?_, ?_⟩
  · simp only [clientData]
    rw [parse_set (srvCb disp) p m path s (s ++ [⟨k, disp, [], newOpt⟩]) .netconfClient 0 _ .create hm (.inl rfl) rfl]
    change parseList (srvCb disp) .create (⟨.netconfClient, some k⟩ :: path) _ (leaf .name k :: _) = _
    rw [parseList_cons _ _ _ _ (s ++ [⟨k, disp, [], newOpt⟩]) _ _ rfl, hp]
    simp
  · have := holds_append Client.name (Rep disp w) s mp h c' x (by rw [c2]; exact hk) c3
    rw [c2] at this
    exact this

/-- What a change of a client amounts to. -/
theorem change_parse (disp : Bool) (path : List Anc) (s : List Client) (k i : Nat) (c : Client) (hi : s.findIdx? (fun x => x.name == k) = some i)
    (hc : s[i]? = some c) (hck : c.name = k) (d : ClientChange) :
    parse (srvCb disp) .none path s (clientTree (.change k d)) = mapRes (fun x => s.set i x) (parseList clientCb .none (⟨.netconfClient, some k⟩ :: path) c
      (.node .other 0 .none (d.eps.map EpEdit.tree) :: .node .connectionType 0 .none d.conn.trees :: d.rs.trees)) := by
  have hp := (partL (clientPart disp s k i c hi hc hck)
    (.node .other 0 .none (d.eps.map EpEdit.tree) :: .node .connectionType 0 .none d.conn.trees :: d.rs.trees) .none
    (⟨.netconfClient, some k⟩ :: path) c (by simp [clientPart, keyOr, keyOf_head]) hck (visits_change d)).1
  simp only [set_self s i c hc] at hp
  simp only [clientTree]
  rw [parse_none (srvCb disp) _ .none path s _ 0 _ rfl]
  change parseList (srvCb disp) .none (⟨.netconfClient, some k⟩ :: path) _ (leaf .name k :: _) = _
  rw [parseList_cons _ _ _ _ s _ _ rfl]
  exact hp

theorem change_cases (w : Scope) (x x' : ClientConf) (d : ClientChange) (h : x.change w d = some x') :
    applyEps w x.eps d.eps = some x'.eps ∧ x.conn.change d.conn = some x'.conn ∧ x.rs.change d.rs = some x'.rs := by
  simp only [ClientConf.change] at h
  split at h
  · rename_i h1 h2 h3
    simp only [Option.some.injEq] at h
    subst h
    exact ⟨h1, h2, h3⟩
  · cases h

/-- An edit of clients is followed. -/
theorem edit_ok (disp : Bool) (w : Scope) (hw : w ≠ .all) (path : List Anc) (s : List Client) (m m' : Map ClientConf) (h : Inv disp w s m) (e : ClientEdit)
    (hdel : disp = true ∨ ∀ k r, e ≠ .delete k r) (hp : patch mkClient (ClientConf.change w) m e = some m') :
    ∃ s', parse (srvCb disp) .none path s (clientTree e) = .ok s' ∧ Inv disp w s' m' := by
  cases e with
  | create k x =>
    obtain ⟨hk, y, hy, rfl⟩ := patch_create _ _ _ _ _ _ hp
    simp only [mkClient] at hy
    split at hy
    · rename_i hx
      simp only [Option.some.injEq] at hy
      subst hy
      exact client_created disp w .none .create rfl path s m h k hk x hx.1 hx.2
    · cases hy
  | delete k r =>
    obtain ⟨⟨y, hy⟩, rfl⟩ := patch_delete _ _ _ _ _ _ hp
    obtain ⟨i, c, h1, h2, -, h3, h4⟩ := holds_get _ _ _ _ h k y hy
    obtain ⟨r1, -, -, r2⟩ := h4
    obtain ⟨r2, -⟩ := r2 hw
    have hd : disp = true := by
      rcases hdel with hd | hd
      · exact hd
      · exact absurd rfl (hd k r)
    refine ⟨swapDel s i, ?_, holds_del _ _ _ _ h k i c h2 h3⟩
    simp only [clientTree]
    rw [parse_del]
    change srvCb disp (⟨.netconfClient, some k⟩ :: path) 0 .delete s = _
    have hkey : keyOr (⟨.netconfClient, some k⟩ :: path) .netconfClient = some k := by simp [keyOr, keyOf_head]
    have hds : destroyable c = true := by
      simp only [destroyable, r1, hd, Bool.true_and, List.all_eq_true, Bool.and_eq_true]
      intro e he
      obtain ⟨b, -, hb⟩ := listRel_left _ _ _ r2 e he
      refine ⟨by rw [hb.1.1]; rfl, ?_⟩
      rw [hb.1.2.1]
      simp [hb.1.2.2.1]
    simp only [srvCb, List.head?_cons, Option.map_some, if_true, netconfClient, reduceCtorEq, if_false, hkey, Option.bind_some, h1, h2, hds]
  | change k d =>
    obtain ⟨y, z, hy, hz, rfl⟩ := patch_change _ _ _ _ _ _ hp
    obtain ⟨i, c, h1, h2, -, h3, h4⟩ := holds_get _ _ _ _ h k y hy
    obtain ⟨r1, r2, r3, r4⟩ := h4
    obtain ⟨r4, r5⟩ := r4 hw
    obtain ⟨z1, z2, z3⟩ := change_cases w y z d hz
    obtain ⟨es, e1, e2, e3⟩ := ep_edits w hw (⟨.other, ((d.eps.map EpEdit.tree).head?).map Tree.val⟩ :: ⟨.netconfClient, some k⟩ :: path) d.eps c y.eps z.eps r4 r5 z1
    obtain ⟨o, f1, f2, f3, f4⟩ := opt_edit (⟨.netconfClient, some k⟩ :: path) { c with eps := es } y r2 r3 d.conn d.rs z.conn z.rs z2 z3
    refine ⟨s.set i { c with eps := es, opt := o }, ?_, ?_⟩
    · rw [change_parse disp path s k i c h1 h2 h3 d, parseList_cons _ _ _ _ _ _ _ ((parse_none clientCb _ .none _ c .other 0 _ rfl).trans e1), f1]
      rfl
    · exact holds_set Client.name (Rep disp w) s m h k i c { c with eps := es, opt := o } h1 h2 rfl z ⟨r1, ⟨f2, f3⟩, f4, fun _ => ⟨e2, e3⟩⟩


/-! ## Whole runs -/

theorem edits_all (disp : Bool) (w : Scope) (hw : w ≠ .all) (path : List Anc) (es : List ClientEdit) : ∀ (s : List Client) (m m' : Map ClientConf), Inv disp w s m →
    (disp = true ∨ ∀ k r, Edit.delete k r ∉ es) → patchAll mkClient (ClientConf.change w) m es = some m' →
    ∃ s', parseList (srvCb disp) .none path s (es.map clientTree) = .ok s' ∧ Inv disp w s' m' := by
  induction es with
  | nil =>
    intro s m m' h _ hp
    simp only [patchAll, Option.some.injEq] at hp
    subst hp
    exact ⟨s, rfl, h⟩
  | cons e es ih =>
    intro s m m' h hd hp
    simp only [patchAll] at hp
    cases h1 : patch mkClient (ClientConf.change w) m e with
    | none => rw [h1] at hp; cases hp
    | some m1 =>
      rw [h1] at hp
      obtain ⟨s1, e1, e2⟩ := edit_ok disp w hw path s m m1 h e (hd.imp id (fun hd k r he => hd k r (by simp [he]))) h1
      obtain ⟨s2, f1, f2⟩ := ih s1 m1 m' e2 (hd.imp id (fun hd k r he => hd k r (by simp [he]))) hp
      refine ⟨s2, ?_, f2⟩
      simp only [List.map_cons]
      rw [parseList_cons _ _ _ _ _ _ _ e1, f1]

theorem diffs_ok (disp : Bool) (w : Scope) (hw : w ≠ .all) (ds : List (List ClientEdit)) : ∀ (s : List Client) (m m' : Map ClientConf), Inv disp w s m →
    (disp = true ∨ ∀ d ∈ ds, ∀ k r, Edit.delete k r ∉ d) → patchCh w m ds = some m' →
    ∃ s', diffs disp (ds.map chTree) s = .ok s' ∧ Inv disp w s' m' := by
  induction ds with
  | nil =>
    intro s m m' h _ hp
    simp only [patchCh, Option.some.injEq] at hp
    subst hp
    exact ⟨s, rfl, h⟩
  | cons d ds ih =>
    intro s m m' h hd hp
    simp only [patchCh] at hp
    cases h1 : patchAll mkClient (ClientConf.change w) m d with
    | none => rw [h1] at hp; cases hp
    | some m1 =>
      rw [h1] at hp
      obtain ⟨s1, e1, e2⟩ := edits_all disp w hw [⟨.other, ((d.map clientTree).head?).map Tree.val⟩] d s m m1 h (hd.imp id (fun hd => hd d (by simp))) h1
      obtain ⟨s2, f1, f2⟩ := ih s1 m1 m' e2 (hd.imp id (fun hd x hx => hd x (by simp [hx]))) hp
      refine ⟨s2, ?_, f2⟩
      simp only [List.map_cons, diffs]
      have : parse (srvCb disp) .unknown [] s (chTree d) = .ok s1 := (parse_none (srvCb disp) .unknown .none [] s .other 0 _ rfl).trans e1
      rw [this]
      exact f1

theorem data_ok (disp : Bool) (w : Scope) (d : ChData) (m : Map ClientConf) (h : chConf d = some m) :
    ∃ s, parse (srvCb disp) .create [] [] (chData d) = .ok s ∧ Inv disp w s m := by
  simp only [chData]
  rw [parse_set (srvCb disp) .create .absent [] [] [] .other 0 _ .create rfl (.inl rfl) rfl]
  refine creates_ok (srvCb disp) _ mkClient (ClientConf.change .all) clientData (Inv disp w) ?_ d [] (fun _ => none) m (holds_nil _ _) h
  intro s m k x m' hi hp
  obtain ⟨hk, y, hy, rfl⟩ := patch_create _ _ _ _ _ _ hp
  simp only [mkClient] at hy
  split at hy
  · rename_i hx
    simp only [Option.some.injEq] at hy
    subst hy
    exact client_created disp w .create .absent rfl _ s m hi k hk x hx.1 hx.2
  · cases hy

theorem run_ok (disp : Bool) (w : Scope) (hw : w ≠ .all) (d : ChData) (ds : List (List ClientEdit)) (m0 m : Map ClientConf) (h0 : chConf d = some m0)
    (hd : disp = true ∨ ∀ d ∈ ds, ∀ k r, Edit.delete k r ∉ d) (h : patchCh w m0 ds = some m) :
    ∃ s, run disp (chData d) (ds.map chTree) = .ok s ∧ Inv disp w s m := by
  obtain ⟨s, e1, e2⟩ := data_ok disp w d m0 h0
  obtain ⟨s', f1, f2⟩ := diffs_ok disp w hw ds s m0 m e2 hd h
  refine ⟨s', ?_, f2⟩
  simp only [run, e1]
  exact f1

/-! ## Any diffs, as far as settings are concerned -/

mutual
theorem parse_frame {σ : Type} {cb : List Anc → Nat → Op → σ → Res σ} (ok : Label → Nat → Bool) (I : σ → Prop)
    (h : ∀ l v key path op s s', ok l v = true → I s → cb (⟨l, key⟩ :: path) v op s = .ok s' → I s') :
    ∀ (t : Tree) (p : Op) (path : List Anc) (s s' : σ), visits ok t = true → I s → parse cb p path s t = .ok s' → I s'
  | .node l v m ch, p, path, s, s', hv, hi, hp => by
    simp only [visits, Bool.and_eq_true, Bool.or_eq_true, beq_iff_eq] at hv
    simp only [parse] at hp
    split at hp
    · cases hp
    · split at hp
      · rename_i h2
        rcases hv.2 with hm | hch
        · subst hm; simp [current, ownOp] at h2
        · exact parseList_frame ok I h ch _ _ s s' hch hi hp
      · split at hp
        · rename_i s1 hs1
          have hi1 := h l v _ path _ s s1 hv.1 hi hs1
          split at hp
          · cases hp; exact hi1
          · rename_i h3
            rcases hv.2 with hm | hch
            · subst hm; simp [current, ownOp] at h3
            · exact parseList_frame ok I h ch _ _ s1 s' hch hi1 hp
        · rename_i hne
          exact absurd hp (hne s')
theorem parseList_frame {σ : Type} {cb : List Anc → Nat → Op → σ → Res σ} (ok : Label → Nat → Bool) (I : σ → Prop)
    (h : ∀ l v key path op s s', ok l v = true → I s → cb (⟨l, key⟩ :: path) v op s = .ok s' → I s') :
    ∀ (ts : List Tree) (p : Op) (path : List Anc) (s s' : σ), visitsL ok ts = true → I s → parseList cb p path s ts = .ok s' → I s'
  | [], _, _, s, s', _, hi, hp => by simp only [parseList, Res.ok.injEq] at hp; subst hp; exact hi
  | t :: ts, p, path, s, s', hv, hi, hp => by
    simp only [visitsL, Bool.and_eq_true] at hv
    simp only [parseList] at hp
    split at hp
    · rename_i s1 hs1
      exact parseList_frame ok I h ts p path s1 s' hv.2 (parse_frame ok I h t p path s s1 hv.1 hi hs1) hp
    · rename_i hne
      exact absurd hp (hne s')
end

/-- Edits of endpoints leave the settings alone. -/
theorem eps_frame (p : Op) (path : List Anc) (c c' : Client) (es : List EpEdit) (h : parseList clientCb p path c (es.map EpEdit.tree) = .ok c') :
    c'.name = c.name ∧ c'.thread = c.thread ∧ c'.opt = c.opt := by
  refine parseList_frame inEps (fun x => x.name = c.name ∧ x.thread = c.thread ∧ x.opt = c.opt) ?_ (es.map EpEdit.tree) p path c c'
    (Verif.ConfUsers.visitsL_map inEps EpEdit.tree es (fun x _ => visits_epEdit x)) ⟨rfl, rfl, rfl⟩ h
  intro l v key path op s s' hl hi hs
  obtain ⟨a, b, g⟩ := clientCb_name _ _ _ _ _ hs
  refine ⟨a.trans hi.1, b.trans hi.2.1, (g (ofOpt_label l key path op ?_)).trans hi.2.2⟩
  simp only [inEps, Bool.not_eq_true', Bool.or_eq_false_iff] at hl
  exact hl.2

theorem edit_any (disp : Bool) (path : List Anc) (s s' : List Client) (m m' : Map ClientConf) (h : Inv disp .all s m) (e : ClientEdit)
    (hp : patch mkClient (ClientConf.change .all) m e = some m') (hs : parse (srvCb disp) .none path s (clientTree e) = .ok s') : Inv disp .all s' m' := by
  cases e with
  | create k x =>
    obtain ⟨hk, y, hy, rfl⟩ := patch_create _ _ _ _ _ _ hp
    simp only [mkClient] at hy
    split at hy
    · rename_i hx
      simp only [Option.some.injEq] at hy
      subst hy
      obtain ⟨s1, e1, e2⟩ := client_created disp .all .none .create rfl path s m h k hk x hx.1 hx.2
      simp only [clientTree] at hs
      rw [e1] at hs
      cases hs
      exact e2
    · cases hy
  | delete k r =>
    obtain ⟨⟨y, hy⟩, rfl⟩ := patch_delete _ _ _ _ _ _ hp
    obtain ⟨i, c, h1, h2, -, h3, h4⟩ := holds_get _ _ _ _ h k y hy
    simp only [clientTree] at hs
    rw [parse_del] at hs
    change srvCb disp (⟨.netconfClient, some k⟩ :: path) 0 .delete s = _ at hs
    have hkey : keyOr (⟨.netconfClient, some k⟩ :: path) .netconfClient = some k := by simp [keyOr, keyOf_head]
    simp only [srvCb, List.head?_cons, Option.map_some, if_true, netconfClient, reduceCtorEq, if_false, hkey, Option.bind_some, h1, h2] at hs
    split at hs
    · cases hs
      exact holds_del _ _ _ _ h k i c h2 h3
    · cases hs
  | change k d =>
    obtain ⟨y, z, hy, hz, rfl⟩ := patch_change _ _ _ _ _ _ hp
    obtain ⟨i, c, h1, h2, -, h3, h4⟩ := holds_get _ _ _ _ h k y hy
    obtain ⟨r1, r2, r3, -⟩ := h4
    obtain ⟨-, z2, z3⟩ := change_cases .all y z d hz
    rw [change_parse disp path s k i c h1 h2 h3 d] at hs
    simp only [parseList] at hs
    rw [parse_none clientCb _ .none _ c .other 0 _ rfl] at hs
    cases hx : parseList clientCb .none (⟨.other, ((d.eps.map EpEdit.tree).head?).map Tree.val⟩ :: ⟨.netconfClient, some k⟩ :: path) c (d.eps.map EpEdit.tree) with
    | fail q => rw [hx] at hs; cases hs
    | ub => rw [hx] at hs; cases hs
    | ok c1 =>
      rw [hx] at hs
      obtain ⟨n1, n2, n3⟩ := eps_frame _ _ _ _ _ hx
      have ho : OptAs c1 y := by simp only [OptAs, n3]; exact r2
      obtain ⟨o, f1, f2, f3, f4⟩ := opt_edit (⟨.netconfClient, some k⟩ :: path) c1 y ho r3 d.conn d.rs z.conn z.rs z2 z3
      have hs' : mapRes (fun x => s.set i x) (parseList clientCb .none (⟨.netconfClient, some k⟩ :: path) c1
          (.node .connectionType 0 .none d.conn.trees :: d.rs.trees)) = .ok s' := hs
      rw [f1] at hs'
      cases hs'
      exact holds_set Client.name (Rep disp .all) s m h k i c { c1 with opt := o } h1 h2 n1 z ⟨n2.trans r1, ⟨f2, f3⟩, f4, fun hc => absurd rfl hc⟩

theorem edits_any (disp : Bool) (path : List Anc) (es : List ClientEdit) : ∀ (s s' : List Client) (m m' : Map ClientConf), Inv disp .all s m →
    patchAll mkClient (ClientConf.change .all) m es = some m' → parseList (srvCb disp) .none path s (es.map clientTree) = .ok s' → Inv disp .all s' m' := by
  induction es with
  | nil =>
    intro s s' m m' h hp hs
    simp only [patchAll, Option.some.injEq] at hp
    subst hp
    cases hs
    exact h
  | cons e es ih =>
    intro s s' m m' h hp hs
    simp only [patchAll] at hp
    cases h1 : patch mkClient (ClientConf.change .all) m e with
    | none => rw [h1] at hp; cases hp
    | some m1 =>
      rw [h1] at hp
      simp only [List.map_cons, parseList] at hs
      cases hx : parse (srvCb disp) .none path s (clientTree e) with
      | fail q => rw [hx] at hs; cases hs
      | ub => rw [hx] at hs; cases hs
      | ok s1 =>
        rw [hx] at hs
        exact ih s1 s' m1 m' (edit_any disp path s s1 m m1 h e h1 hx) hp hs

theorem diffs_any (disp : Bool) (ds : List (List ClientEdit)) : ∀ (s s' : List Client) (m m' : Map ClientConf), Inv disp .all s m →
    patchCh .all m ds = some m' → diffs disp (ds.map chTree) s = .ok s' → Inv disp .all s' m' := by
  induction ds with
  | nil =>
    intro s s' m m' h hp hs
    simp only [patchCh, Option.some.injEq] at hp
    subst hp
    cases hs
    exact h
  | cons d ds ih =>
    intro s s' m m' h hp hs
    simp only [patchCh] at hp
    cases h1 : patchAll mkClient (ClientConf.change .all) m d with
    | none => rw [h1] at hp; cases hp
    | some m1 =>
      rw [h1] at hp
      simp only [List.map_cons, diffs] at hs
      cases hx : parse (srvCb disp) .unknown [] s (chTree d) with
      | fail q => rw [hx] at hs; cases hs
      | ub => rw [hx] at hs; cases hs
      | ok s1 =>
        rw [hx] at hs
        simp only [chTree] at hx
        rw [parse_none (srvCb disp) .unknown .none [] s .other 0 _ rfl] at hx
        exact ih s1 s' m1 m' (edits_any disp _ d s s1 m m1 h h1 hx) hp hs

theorem run_any (disp : Bool) (d : ChData) (ds : List (List ClientEdit)) (m0 m : Map ClientConf) (h0 : chConf d = some m0)
    (h : patchCh .all m0 ds = some m) (s : List Client) (hr : run disp (chData d) (ds.map chTree) = .ok s) : Inv disp .all s m := by
  obtain ⟨s0, e1, e2⟩ := data_ok disp .all d m0 h0
  simp only [run, e1] at hr
  exact diffs_any disp ds s0 s m0 m e2 h hr

/-! ## Considered edits are edits -/

theorem lost_all (d : EpEdit) (l : Eps) : d.lost .all l = false := by
  cases d with
  | create => rfl
  | delete => rfl
  | move => rfl
  | change k d =>
    simp only [EpEdit.lost]
    cases epOf l k with
    | none => rfl
    | some c => cases d <;> rfl

theorem applyEps_all (w : Scope) (ds : List EpEdit) : ∀ l l', applyEps w l ds = some l' → applyEps .all l ds = some l' := by
  induction ds with
  | nil => intro l l' h; exact h
  | cons d ds ih =>
    intro l l' h
    simp only [applyEps] at h
    split at h
    · cases h
    · simp only [applyEps, lost_all, Bool.false_eq_true, if_false]
      cases h1 : d.apply l with
      | none => rw [h1] at h; cases h
      | some l1 => rw [h1] at h; exact ih l1 l' h

theorem change_all (w : Scope) (x x' : ClientConf) (d : ClientChange) (h : x.change w d = some x') : x.change .all d = some x' := by
  obtain ⟨a, b, c⟩ := change_cases w x x' d h
  simp only [ClientConf.change, applyEps_all w _ _ _ a, b, c]

theorem patchAll_all (w : Scope) (es : List ClientEdit) : ∀ m m', patchAll mkClient (ClientConf.change w) m es = some m' →
    patchAll mkClient (ClientConf.change .all) m es = some m' := by
  induction es with
  | nil => intro m m' h; exact h
  | cons e es ih =>
    intro m m' h
    simp only [patchAll] at h ⊢
    cases h1 : patch mkClient (ClientConf.change w) m e with
    | none => rw [h1] at h; cases h
    | some m1 =>
      rw [h1] at h
      have : patch mkClient (ClientConf.change .all) m e = some m1 := by
        cases e with
        | create => exact h1
        | delete => exact h1
        | change k d =>
          obtain ⟨y, z, hy, hz, rfl⟩ := patch_change _ _ _ _ _ _ h1
          simp [patch, hy, change_all w y z d hz]
      rw [this]
      exact ih m1 m' h

theorem patchCh_all (w : Scope) (ds : List (List ClientEdit)) : ∀ m m', patchCh w m ds = some m' → patchCh .all m ds = some m' := by
  induction ds with
  | nil => intro m m' h; exact h
  | cons d ds ih =>
    intro m m' h
    simp only [patchCh] at h ⊢
    cases h1 : patchAll mkClient (ClientConf.change w) m d with
    | none => rw [h1] at h; cases h
    | some m1 =>
      rw [h1] at h
      rw [patchAll_all w d m m1 h1]
      exact ih m1 m' h

/-! ## One more edit -/

/-- The diff that changes one endpoint of one client. -/
def oneEdit (k : Nat) (e : EpEdit) : List ClientEdit := [.change k ⟨[e], .keep, .keep⟩]

/-- Where its node is. -/
def onePath (k : Nat) : List Anc := [⟨.other, some 0⟩, ⟨.netconfClient, some k⟩, ⟨.other, some 0⟩]

theorem one_val (e : EpEdit) : e.tree.val = 0 := by cases e <;> rfl

theorem diffs_one (disp : Bool) (s : List Client) (k i : Nat) (c : Client) (hi : s.findIdx? (fun x => x.name == k) = some i)
    (hc : s[i]? = some c) (hck : c.name = k) (e : EpEdit) :
    diffs disp [chTree (oneEdit k e)] s = mapRes (fun x => s.set i x) (parse clientCb .none (onePath k) c e.tree) := by
  have h1 : parse (srvCb disp) .unknown [] s (chTree (oneEdit k e)) =
      mapRes (fun x => s.set i x) (parse clientCb .none (onePath k) c e.tree) := by
    simp only [chTree]
    rw [parse_none (srvCb disp) .unknown .none [] s .other 0 _ rfl]
    change parseList (srvCb disp) .none [⟨.other, some 0⟩] s [clientTree (.change k ⟨[e], .keep, .keep⟩)] = _
    simp only [parseList]
    rw [change_parse disp _ s k i c hi hc hck ⟨[e], .keep, .keep⟩]
    simp only [List.map_cons, List.map_nil, parseList]
    rw [parse_none clientCb _ .none _ c .other 0 _ rfl]
    simp only [List.head?_cons, Option.map_some, one_val, parseList]
    simp only [onePath]
    cases parse clientCb .none [⟨.other, some 0⟩, ⟨.netconfClient, some k⟩, ⟨.other, some 0⟩] c e.tree <;> rfl
  simp only [diffs, h1]
  cases mapRes (fun x => s.set i x) (parse clientCb .none (onePath k) c e.tree) <;> rfl

theorem diffs_append (disp : Bool) (ts us : List Tree) : ∀ s s', diffs disp ts s = .ok s' → diffs disp (ts ++ us) s = diffs disp us s' := by
  induction ts with
  | nil => intro s s' h; cases h; rfl
  | cons t ts ih =>
    intro s s' h
    simp only [diffs, List.cons_append] at h ⊢
    cases hx : parse (srvCb disp) .unknown [] s t with
    | ok s1 => rw [hx] at h; exact ih s1 s' h
    | fail q => rw [hx] at h; cases h
    | ub => rw [hx] at h; cases h

theorem run_append (disp : Bool) (t : Tree) (ts us : List Tree) (s : List Client) (h : run disp t ts = .ok s) : run disp t (ts ++ us) = diffs disp us s := by
  simp only [run] at h ⊢
  cases hx : parse (srvCb disp) .create [] [] t with
  | ok s1 => rw [hx] at h; exact diffs_append disp ts us s1 s h
  | fail q => rw [hx] at h; cases h
  | ub => rw [hx] at h; cases h


/-! ## Edits that are not followed -/

theorem rel_names (w : Scope) (es : List Ep) (l : Eps) (h : ListRel (EpRep w) es l) : es.map Ep.name = l.map (fun y => some y.1) := by
  induction es generalizing l with
  | nil => cases l with
    | nil => rfl
    | cons _ _ => exact h.elim
  | cons e t ih => cases l with
    | nil => exact h.elim
    | cons y u => simp only [List.map_cons, h.1.1.1, ih u h.2]

theorem listRel_get {α β : Type} (R : α → β → Prop) (as : List α) (bs : List β) (h : ListRel R as bs) (i : Nat) (a : α) (hi : as[i]? = some a) :
    ∃ b, bs[i]? = some b ∧ R a b := by
  induction as generalizing bs i with
  | nil => simp at hi
  | cons x t ih => cases bs with
    | nil => exact h.elim
    | cons y u =>
      cases i with
      | zero => simp at hi; subst hi; exact ⟨y, rfl, h.1⟩
      | succ i => simp at hi; simpa using ih u h.2 i hi

/-- The client after a history of edits that are followed. -/
theorem client_of (disp : Bool) (w : Scope) (hw : w ≠ .all) (s : List Client) (m : Map ClientConf) (h : Inv disp w s m) (k : Nat) (x : ClientConf) (hk : m k = some x) :
    ∃ i c, s.findIdx? (fun x => x.name == k) = some i ∧ s[i]? = some c ∧ c.name = k ∧ c.thread = disp ∧ ListRel (EpRep w) c.eps x.eps ∧ Distinct x.eps := by
  obtain ⟨i, c, h1, h2, -, h3, h4⟩ := holds_get _ _ _ _ h k x hk
  obtain ⟨r1, -, -, r4⟩ := h4
  exact ⟨i, c, h1, h2, h3, r1, r4 hw⟩

/-- A change of an endpoint, in the client. -/
theorem change_ep_parse (c : Client) (k i : Nat) (e : Ep) (h1 : search k c.eps = some (some i)) (h2 : c.eps[i]? = some e) (hn : e.name = some k)
    (path : List Anc) (d : EpChange) : parse clientCb .none path c (EpEdit.change k d).tree =
      mapRes (fun x => { c with eps := c.eps.set i x }) (parseList epC .none (⟨.endpoint, some k⟩ :: path) e d.trees) := by
  simp only [EpEdit.tree]
  rw [parse_none clientCb _ .none _ c _ 0 _ rfl]
  change parseList clientCb .none (⟨.endpoint, some k⟩ :: path) c (leaf .name k :: d.trees) = _
  rw [parseList_cons _ _ _ _ c _ _ rfl]
  have hp := (partL (epPart c k i h1) d.trees .none (⟨.endpoint, some k⟩ :: path) e (by simp [epPart, keyOr, keyOf_head]) hn (visits_epChange d)).1
  have e0 : ({ c with eps := c.eps.set i e } : Client) = c := by rw [set_self _ _ _ h2]
  simp only [e0] at hp
  exact hp

theorem mem_set_self {α : Type} (l : List α) (i : Nat) (a x : α) (h : l[i]? = some a) : x ∈ l.set i x :=
  List.mem_of_getElem? (get_set l i a x h)

/-- The endpoint is removed, though it is not the last one. -/
theorem delete_parse (w : Scope) (c : Client) (l : Eps) (h : ListRel (EpRep w) c.eps l) (hd : Distinct l) (path : List Anc) (k : Nat) (y : EpConf)
    (hk : epOf l k = some y) (hl : (l.getLast?.map Prod.fst) ≠ some k) (r : List Tree) :
    ∃ i es, parse clientCb .none path c (EpEdit.delete k r).tree = .ok { c with eps := es } ∧ i + 1 < l.length ∧ (l[i]?).map Prod.fst = some k ∧
      es.map Ep.name = ((l.map (fun y => some y.1)).set i none).dropLast := by
  obtain ⟨i, e, h1, h2, h3, h4, -⟩ := ep_find w c.eps l h hd k y hk
  obtain ⟨b, b1, b2⟩ := listRel_get _ _ _ h i e h2
  have hbk : b.1 = k := by
    have := b2.1.1
    rw [h3.1.1] at this
    exact (Option.some.inj this).symm
  have hlt : i < l.length := by
    rcases Nat.lt_or_ge i l.length with hc | hc
    · exact hc
    · rw [List.getElem?_eq_none hc] at b1; cases b1
  refine ⟨i, (c.eps.set i { e with name := none, opts := .freed }).dropLast, ?_, ?_, by rw [b1]; simp [hbk], ?_⟩
  · simp only [EpEdit.tree]
    rw [parse_del]
    have hkey : keyOr (⟨.endpoint, some k⟩ :: path) .endpoint = some k := by simp [keyOr, keyOf_head]
    change clientCb (⟨.endpoint, some k⟩ :: path) 0 .delete c = _
    simp only [clientCb, List.head?_cons, Option.map_some, if_true, endpoint, reduceCtorEq, if_false, hkey, h1, h2, delEp, h3.1.2.1, h3.1.2.2.1]
  · rcases Nat.lt_or_ge (i + 1) l.length with hc | hc
    · exact hc
    · exfalso
      apply hl
      have : l.length - 1 = i := by omega
      rw [List.getLast?_eq_getElem?, this, b1]
      simp [hbk]
  · rw [List.map_dropLast, List.map_set, rel_names w _ _ h]

/-- A client that cannot be freed is removed. -/
theorem removal_ub (disp : Bool) (s : List Client) (k i : Nat) (c : Client) (h1 : s.findIdx? (fun x => x.name == k) = some i) (h2 : s[i]? = some c)
    (hd : destroyable c = false) (r : List Tree) : diffs disp [chTree [.delete k r]] s = .ub := by
  have hkey : keyOr [⟨.netconfClient, some k⟩, ⟨.other, some 0⟩] .netconfClient = some k := by simp [keyOr, keyOf_head]
  have h3 : parse (srvCb disp) .none [⟨.other, some 0⟩] s (clientTree (.delete k r)) = .ub := by
    simp only [clientTree]
    rw [parse_del]
    change srvCb disp [⟨.netconfClient, some k⟩, ⟨.other, some 0⟩] 0 .delete s = _
    simp only [srvCb, List.head?_cons, Option.map_some, if_true, netconfClient, reduceCtorEq, if_false, hkey, Option.bind_some, h1, h2, hd,
      Bool.false_eq_true]
  have h4 : parse (srvCb disp) .unknown [] s (chTree [.delete k r]) = .ub := by
    simp only [chTree]
    rw [parse_none (srvCb disp) .unknown .none [] _ .other 0 _ rfl]
    change parseList (srvCb disp) .none [⟨.other, some 0⟩] _ [clientTree (.delete k r)] = _
    simp only [parseList, h3]
  simp only [diffs, h4]

end Verif.ConfCh
