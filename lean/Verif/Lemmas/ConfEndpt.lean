import Verif.Spec.ConfEndpt
import Verif.Lemmas.ConfUsers

/-! # Lemmas on endpoints the server listens on -/

namespace Verif.ConfEndpt
open Verif.ConfTree (Op Meta current ownOp)
open Verif.ConfStore
open Verif.ConfUsers (parentN keyOr Focus focus focusL visits visitsL visitsL_append findIdx_set get_set set_self holds_set)

/-! ## Sockets -/

/-- Sockets have different numbers, all of them used already. -/
def NetOk (n : Net) : Prop := (∀ x ∈ n.socks, x.fd < n.next) ∧ (∀ x ∈ n.socks, ∀ y ∈ n.socks, x.fd = y.fd → x = y)

/-- The socket `f` (if any) is replaced by `f'` at `a` and `p`, which may be the same one. -/
def StepTo (n : Net) (f : Option Nat) (n' : Net) (f' a p : Nat) : Prop :=
  f' < n'.next ∧ n.next ≤ n'.next ∧ (some f' = f ∨ n.next ≤ f') ∧
  ∀ x, x ∈ n'.socks ↔ (x ∈ n.socks ∧ some x.fd ≠ f) ∨ x = ⟨f', a, p⟩

theorem stepTo_refl (n : Net) (f a p : Nat) (hn : NetOk n) (h : ⟨f, a, p⟩ ∈ n.socks) : StepTo n (some f) n f a p := by
  refine ⟨hn.1 _ h, Nat.le_refl _, .inl rfl, fun x => ⟨fun hx => ?_, fun hx => ?_⟩⟩
  · by_cases hf : x.fd = f
    · exact .inr (hn.2 x hx _ h hf)
    · exact .inl ⟨hx, by simpa using hf⟩
  · rcases hx with hx | rfl
    · exact hx.1
    · exact h

theorem stepTo_ok (n n' : Net) (f : Option Nat) (f' a p : Nat) (hn : NetOk n) (h : StepTo n f n' f' a p) : NetOk n' := by
  obtain ⟨h1, h2, h3, h4⟩ := h
  have key : ∀ x, x ∈ n.socks → some x.fd ≠ f → x.fd ≠ f' := by
    intro x hx hf e
    rcases h3 with h3 | h3
    · exact hf (by rw [e]; exact h3)
    · have := hn.1 x hx; omega
  refine ⟨fun x hx => ?_, fun x hx y hy hxy => ?_⟩
  · rcases (h4 x).mp hx with hx | rfl
    · exact Nat.lt_of_lt_of_le (hn.1 x hx.1) h2
    · exact h1
  · rcases (h4 x).mp hx with hx | rfl <;> rcases (h4 y).mp hy with hy | rfl
    · exact hn.2 x hx.1 y hy.1 hxy
    · exact absurd hxy (key x hx.1 hx.2)
    · exact absurd hxy.symm (key y hy.1 hy.2)
    · rfl

theorem stepTo_trans (n n1 n2 : Net) (f : Option Nat) (f1 f2 a1 p1 a2 p2 : Nat) (hn : NetOk n) (h : StepTo n f n1 f1 a1 p1)
    (h' : StepTo n1 (some f1) n2 f2 a2 p2) : StepTo n f n2 f2 a2 p2 := by
  obtain ⟨_, b2, b3, b4⟩ := h
  obtain ⟨c1, c2, c3, c4⟩ := h'
  refine ⟨c1, Nat.le_trans b2 c2, ?_, fun x => ?_⟩
  · rcases c3 with c3 | c3
    · cases c3; exact b3
    · exact .inr (Nat.le_trans b2 c3)
  · rw [c4, b4]
    constructor
    · rintro (⟨hx | rfl, hf⟩ | hx)
      · exact .inl hx
      · exact absurd rfl hf
      · exact .inr hx
    · rintro (hx | hx)
      · refine .inl ⟨.inl hx, ?_⟩
        intro e
        simp only [Option.some.injEq] at e
        rcases b3 with b3 | b3
        · exact hx.2 (by rw [e]; exact b3)
        · have := hn.1 x hx.1; omega
      · exact .inr hx

theorem close_some (n : Net) (f : Nat) (h : ∃ x ∈ n.socks, x.fd = f) :
    closeSock n (some f) = some { n with socks := n.socks.filter (fun x => !(x.fd == f)) } := by
  obtain ⟨x, hx, hf⟩ := h
  have : n.socks.any (fun x => x.fd == f) = true := List.any_eq_true.mpr ⟨x, hx, by simp [hf]⟩
  simp [closeSock, this]

theorem close_step (n : Net) (f : Option Nat) (h : ∀ g, f = some g → ∃ x ∈ n.socks, x.fd = g) (a p : Nat) :
    ∃ n', closeSock n f = some n' ∧ n'.next = n.next ∧ StepTo n f ⟨n'.socks ++ [⟨n.next, a, p⟩], n.next + 1⟩ n.next a p := by
  cases f with
  | none =>
    refine ⟨n, rfl, rfl, by simp, by simp, .inr (Nat.le_refl _), fun x => ?_⟩
    simp
  | some g =>
    refine ⟨_, close_some n g (h g rfl), rfl, by simp, by simp, .inr (Nat.le_refl _), fun x => ?_⟩
    simp [List.mem_filter]

/-! ## One endpoint -/

/-- The endpoint listens as configured on the socket `f`. -/
def Up (e : Endpt) (n : Net) (c : EndptConf) (f : Nat) : Prop :=
  e.ti = some c.ti ∧ e.opts = .live c.ti ∧ e.addr = .str c.addr ∧ e.port = c.effPort ∧ e.sock = some f ∧ ⟨f, c.addr, c.effPort⟩ ∈ n.socks

theorem sap_addr (env : Env) (hg : grants env) (e : Endpt) (n : Net) (hs : ∀ g, e.sock = some g → ∃ x ∈ n.socks, x.fd = g)
    (ht : e.ti.isSome = true) (a : Nat) (hp : e.port ≠ 0) :
    ∃ n' f', setAddressPort env (some a) 0 (e, n) = .ok ({ e with sock := some f' }, n') ∧ StepTo n e.sock n' f' a e.port := by
  obtain ⟨n1, h1, h2, h3⟩ := close_step n e.sock hs a e.port
  have ht' : e.ti.isNone = false := by cases h : e.ti <;> simp [h] at ht ⊢
  refine ⟨_, n.next, ?_, h3⟩
  simp only [setAddressPort, Option.isSome_some, Option.isNone_some, Bool.true_and, beq_self_eq_true, Bool.true_or, Bool.not_true, Bool.and_false,
    Bool.false_eq_true, if_false, if_true, hp, hg n.socks a e.port, h1, ht', h2]

theorem sap_port (env : Env) (hg : grants env) (e : Endpt) (n : Net) (hs : ∀ g, e.sock = some g → ∃ x ∈ n.socks, x.fd = g)
    (ht : e.ti.isSome = true) (a p : Nat) (ha : e.addr = .str a) (hp : p ≠ 0) :
    ∃ n' f', setAddressPort env none p (e, n) = .ok ({ e with sock := some f' }, n') ∧ StepTo n e.sock n' f' a p := by
  obtain ⟨n1, h1, h2, h3⟩ := close_step n e.sock hs a p
  have ht' : e.ti.isNone = false := by cases h : e.ti <;> simp [h] at ht ⊢
  have hp' : (p != 0) = true := by simp [hp]
  refine ⟨_, n.next, ?_, h3⟩
  simp only [setAddressPort, Option.isSome_none, Option.isNone_none, Bool.false_and, Bool.true_and, hp', Bool.false_or, Bool.not_true, Bool.and_false,
    Bool.false_eq_true, if_false, if_true, ha, hp, hg n.socks a p, h1, ht', h2]

/-- The path of the TCP parameters. -/
def tcpPath (key : Option Nat) (rest : List Anc) : List Anc := ⟨.tcpServerParameters, key⟩ :: rest

theorem addr_edit (env : Env) (hg : grants env) (key : Option Nat) (rest : List Anc) (e : Endpt) (n : Net) (hn : NetOk n) (c : EndptConf) (f : Nat)
    (hu : Up e n c f) (hp : c.effPort ≠ 0) (a : Option Nat) :
    ∃ e' n' f', parseList (endptCb env) .none (tcpPath key rest) (e, n) (replaced .localAddress a) = .ok (e', n') ∧
      Up e' n' { c with addr := a.getD c.addr } f' ∧ StepTo n (some f) n' f' (a.getD c.addr) c.effPort ∧ e'.name = e.name ∧ e'.ka = e.ka := by
  obtain ⟨u1, u2, u3, u4, u5, u6⟩ := hu
  cases a with
  | none => exact ⟨e, n, f, rfl, ⟨u1, u2, u3, u4, u5, u6⟩, stepTo_refl n f _ _ hn u6, rfl, rfl⟩
  | some a =>
    obtain ⟨n', f', h1, h2⟩ := sap_addr env hg { e with addr := .str a } n
      (by intro g hgq; simp only [u5, Option.some.injEq] at hgq; exact ⟨_, u6, hgq⟩) (by simp [u1]) a (by simp only [u4]; exact hp)
    simp only [u4] at h2
    rw [show ({ e with addr := Addr.str a, port := c.effPort } : Endpt).sock = e.sock from rfl, u5] at h2
    refine ⟨{ e with addr := .str a, sock := some f' }, n', f', ?_, ⟨u1, u2, rfl, u4, rfl, ?_⟩, h2, rfl, rfl⟩
    · simp only [replaced, leaf]
      rw [parseList_cons _ _ _ _ _ _ _ (parse_set (endptCb env) _ .replace _ (e, n) _ .localAddress a [] .replace rfl (.inr rfl) ?_)]
      · rfl
      · simp only [endptCb, List.head?_cons, Option.map_some, parentN, tcpPath, List.getElem?_cons_succ, List.getElem?_cons_zero, beq_self_eq_true,
          if_true, localAddress, u3, reduceCtorEq, if_false]
        exact h1
    · exact (h2.2.2.2 _).mpr (.inr rfl)

theorem effPort_addr (c : EndptConf) (a : Nat) : ({ c with addr := a } : EndptConf).effPort = c.effPort := rfl

theorem port_set (env : Env) (hg : grants env) (key : Option Nat) (rest : List Anc) (e : Endpt) (n : Net) (c : EndptConf) (f : Nat)
    (hu : Up e n c f) (p : Op) (mt : Meta) (op : Op) (ho : current mt p = op) (hs : op = .create ∨ op = .replace) (v : Nat) (hv : v ≠ 0) :
    ∃ e' n' f', parseList (endptCb env) p (tcpPath key rest) (e, n) [leaf .localPort v mt] = .ok (e', n') ∧
      Up e' n' { c with port := some v } f' ∧ StepTo n (some f) n' f' c.addr v ∧ e'.name = e.name ∧ e'.ka = e.ka := by
  obtain ⟨u1, u2, u3, u4, u5, u6⟩ := hu
  obtain ⟨n', f', h1, h2⟩ := sap_port env hg { e with port := v } n
    (by intro g hgq; simp only [u5, Option.some.injEq] at hgq; exact ⟨_, u6, hgq⟩) (by simp [u1]) c.addr v u3 hv
  rw [show ({ e with port := v } : Endpt).sock = e.sock from rfl, u5] at h2
  refine ⟨{ e with port := v, sock := some f' }, n', f', ?_, ⟨u1, u2, u3, rfl, rfl, ?_⟩, h2, rfl, rfl⟩
  · simp only [leaf]
    rw [parseList_cons _ _ _ _ _ _ _ (parse_set (endptCb env) _ mt _ (e, n) _ .localPort v [] op ho hs ?_)]
    · rfl
    · have hset : setting op = true := by rcases hs with rfl | rfl <;> rfl
      simp only [endptCb, List.head?_cons, Option.map_some, parentN, tcpPath, List.getElem?_cons_succ, List.getElem?_cons_zero, beq_self_eq_true,
        if_true, localPort, hset]
      exact h1
  · exact (h2.2.2.2 _).mpr (.inr rfl)

theorem port_edit (env : Env) (hg : grants env) (key : Option Nat) (rest : List Anc) (e : Endpt) (n : Net) (hn : NetOk n) (c : EndptConf) (f : Nat)
    (hu : Up e n c f) (d : LeafEdit) (p' : Option Nat) (hd : d.apply c.port = some p') (hl : ∀ v, d ≠ .delete v)
    (hp : ({ c with port := p' } : EndptConf).effPort ≠ 0) :
    ∃ e' n' f', parseList (endptCb env) .none (tcpPath key rest) (e, n) (leafTree .localPort d) = .ok (e', n') ∧
      Up e' n' { c with port := p' } f' ∧ StepTo n (some f) n' f' c.addr ({ c with port := p' } : EndptConf).effPort ∧ e'.name = e.name ∧ e'.ka = e.ka := by
  cases d with
  | keep =>
    simp only [LeafEdit.apply, Option.some.injEq] at hd
    subst hd
    exact ⟨e, n, f, rfl, hu, stepTo_refl n f _ _ hn hu.2.2.2.2.2, rfl, rfl⟩
  | delete v => exact absurd rfl (hl v)
  | create v =>
    cases hc : c.port with
    | some w => rw [hc] at hd; simp [LeafEdit.apply] at hd
    | none =>
      rw [hc] at hd
      simp only [LeafEdit.apply, Option.some.injEq] at hd
      subst hd
      exact port_set env hg key rest e n c f hu .none .create .create rfl (.inl rfl) v hp
  | replace v =>
    cases hc : c.port with
    | none => rw [hc] at hd; simp [LeafEdit.apply] at hd
    | some w =>
      rw [hc] at hd
      simp only [LeafEdit.apply, Option.some.injEq] at hd
      subst hd
      exact port_set env hg key rest e n c f hu .none .replace .replace rfl (.inr rfl) v hp

/-! ## Keepalives -/

/-- The container is in the diff. -/
theorem ka_create (env : Env) (key : Option Nat) (rest : List Anc) (e : Endpt) (n : Net) (p : Op) (mt : Meta) (ho : current mt p = .create) (c : KaConf) :
    parse (endptCb env) p (tcpPath key rest) (e, n) (kaData c mt) =
      .ok ({ e with ka := ⟨true, c.idle.getD 7200, c.probes.getD 9, c.interval.getD 75⟩ }, n) := by
  simp only [kaData, leaf]
  rw [parse_set (endptCb env) p mt _ (e, n) ({ e with ka := { e.ka with enabled := true } }, n) .keepalives 0 _ .create ho (.inl rfl) rfl]
  rfl

theorem ka_leaf (env : Env) (key : Option Nat) (k2 : Option Nat) (rest : List Anc) (e : Endpt) (n : Net) (l : Label) (d : LeafEdit)
    (o o' : Option Nat) (dflt : Nat) (set : Ka → Nat → Ka) (get : Ka → Nat)
    (hself : ∀ k, set k (get k) = k) (hget : get e.ka = o.getD dflt)
    (hcb : ∀ (v : Nat) (op : Op), endptCb env (⟨l, none⟩ :: ⟨.keepalives, k2⟩ :: tcpPath key rest) v op (e, n) =
      .ok ({ e with ka := set e.ka (if setting op then v else dflt) }, n)) (h : d.apply o = some o') :
    parseList (endptCb env) .none (⟨.keepalives, k2⟩ :: tcpPath key rest) (e, n) (leafTree l d) =
      .ok ({ e with ka := set e.ka (o'.getD dflt) }, n) := by
  cases d with
  | keep =>
    simp only [LeafEdit.apply, Option.some.injEq] at h
    subst h
    simp only [leafTree, parseList]
    rw [← hget, hself]
  | create v =>
    cases o with
    | some w => simp [LeafEdit.apply] at h
    | none =>
      simp only [LeafEdit.apply, Option.some.injEq] at h
      subst h
      simp only [leafTree, leaf]
      rw [parseList_cons _ _ _ _ _ _ _ (parse_set (endptCb env) _ .create _ (e, n) _ l v [] .create rfl (.inl rfl) (hcb v .create))]
      rfl
  | replace v =>
    cases o with
    | none => simp [LeafEdit.apply] at h
    | some w =>
      simp only [LeafEdit.apply, Option.some.injEq] at h
      subst h
      simp only [leafTree, leaf]
      rw [parseList_cons _ _ _ _ _ _ _ (parse_set (endptCb env) _ .replace _ (e, n) _ l v [] .replace rfl (.inr rfl) (hcb v .replace))]
      rfl
  | delete v =>
    cases o with
    | none => simp [LeafEdit.apply] at h
    | some w =>
      simp only [LeafEdit.apply] at h
      split at h
      · simp only [Option.some.injEq] at h
        subst h
        simp only [leafTree, leaf]
        rw [parseList_cons _ _ _ _ _ _ _ ((parse_del (endptCb env) _ _ (e, n) l v []).trans (hcb v .delete))]
        rfl
      · cases h

/-- A deleted leaf is only seen as set to its default. -/
theorem ka_leaf_any (env : Env) (key : Option Nat) (k2 : Option Nat) (rest : List Anc) (e : Endpt) (n : Net) (l : Label) (d : LeafEdit)
    (dflt : Nat) (set : Ka → Nat → Ka) (hcb : ∀ (v : Nat) (op : Op), endptCb env (⟨l, none⟩ :: ⟨.keepalives, k2⟩ :: tcpPath key rest) v op (e, n) =
      .ok ({ e with ka := set e.ka (if setting op then v else dflt) }, n)) :
    ∃ k, parseList (endptCb env) .none (⟨.keepalives, k2⟩ :: tcpPath key rest) (e, n) (leafTree l d) = .ok ({ e with ka := k }, n) := by
  cases d with
  | keep => exact ⟨e.ka, rfl⟩
  | create v =>
    simp only [leafTree, leaf]
    rw [parseList_cons _ _ _ _ _ _ _ (parse_set (endptCb env) _ .create _ (e, n) _ l v [] .create rfl (.inl rfl) (hcb v .create))]
    exact ⟨_, rfl⟩
  | replace v =>
    simp only [leafTree, leaf]
    rw [parseList_cons _ _ _ _ _ _ _ (parse_set (endptCb env) _ .replace _ (e, n) _ l v [] .replace rfl (.inr rfl) (hcb v .replace))]
    exact ⟨_, rfl⟩
  | delete v =>
    simp only [leafTree, leaf]
    rw [parseList_cons _ _ _ _ _ _ _ ((parse_del (endptCb env) _ _ (e, n) l v []).trans (hcb v .delete))]
    exact ⟨_, rfl⟩

theorem ka_edit (env : Env) (key : Option Nat) (rest : List Anc) (e : Endpt) (n : Net) (c c' : KaConf) (d : KaEdit) (h : c.change d = some c') :
    ∃ k, parseList (endptCb env) .none (tcpPath key rest) (e, n) d.trees = .ok ({ e with ka := k }, n) ∧
      (KaAs e.ka c → (∀ r, d ≠ .delete r) → KaAs k c') := by
  cases d with
  | keep =>
    simp only [KaConf.change, Option.some.injEq] at h
    subst h
    exact ⟨e.ka, rfl, fun hk _ => hk⟩
  | create x =>
    simp only [KaConf.change] at h
    split at h
    · simp only [Option.some.injEq] at h
      subst h
      simp only [KaEdit.trees]
      rw [parseList_cons _ _ _ _ _ _ _ (ka_create env key rest e n .none .create rfl x)]
      exact ⟨_, rfl, fun _ _ => ⟨rfl, rfl, rfl, rfl⟩⟩
    · cases h
  | delete r =>
    refine ⟨{ e.ka with enabled := false }, ?_, fun _ hd => absurd rfl (hd r)⟩
    simp only [KaEdit.trees]
    rw [parseList_cons _ _ _ _ (({ e with ka := { e.ka with enabled := false } }, n) : St) _ _ ?_]
    · rfl
    · rw [parse_del]; rfl
  | leaves a b g =>
    simp only [KaConf.change] at h
    cases ha : a.apply c.idle with
    | none => rw [ha] at h; cases h
    | some x =>
    cases hb : b.apply c.probes with
    | none => rw [ha, hb] at h; cases h
    | some y =>
    cases hg : g.apply c.interval with
    | none => rw [ha, hb, hg] at h; cases h
    | some z =>
    rw [ha, hb, hg] at h
    simp only at h
    split at h
    · simp only [Option.some.injEq] at h
      subst h
      simp only [KaEdit.trees]
      have hx : ∀ k2, ∃ k, parseList (endptCb env) .none (⟨.keepalives, k2⟩ :: tcpPath key rest) (e, n)
          (leafTree .idleTime a ++ (leafTree .maxProbes b ++ leafTree .probeInterval g)) = .ok ({ e with ka := k }, n) ∧
          (KaAs e.ka c → KaAs k ⟨x, y, z⟩) := by
        intro k2
        by_cases hk : KaAs e.ka c
        · obtain ⟨k1, k2', k3, k4⟩ := hk
          rw [parseList_append _ _ _ _ _ _ _ (ka_leaf env key k2 rest e n .idleTime a c.idle x 7200 (fun k v => { k with idle := v }) Ka.idle
            (fun _ => rfl) k2' (fun _ _ => rfl) ha)]
          rw [parseList_append _ _ _ _ _ _ _ (ka_leaf env key k2 rest { e with ka := { e.ka with idle := x.getD 7200 } } n .maxProbes b c.probes y 9 (fun k v => { k with probes := v }) Ka.probes
            (fun _ => rfl) k3 (fun _ _ => rfl) hb)]
          rw [ka_leaf env key k2 rest { e with ka := { e.ka with idle := x.getD 7200, probes := y.getD 9 } } n .probeInterval g c.interval z 75 (fun k v => { k with interval := v }) Ka.interval
            (fun _ => rfl) k4 (fun _ _ => rfl) hg]
          exact ⟨_, rfl, fun _ => ⟨k1, rfl, rfl, rfl⟩⟩
        · obtain ⟨m1, e1⟩ := ka_leaf_any env key k2 rest e n .idleTime a 7200 (fun k v => { k with idle := v }) (fun _ _ => rfl)
          obtain ⟨m2, e2⟩ := ka_leaf_any env key k2 rest { e with ka := m1 } n .maxProbes b 9 (fun k v => { k with probes := v }) (fun _ _ => rfl)
          obtain ⟨m3, e3⟩ := ka_leaf_any env key k2 rest { e with ka := m2 } n .probeInterval g 75 (fun k v => { k with interval := v }) (fun _ _ => rfl)
          rw [parseList_append _ _ _ _ _ _ _ e1, parseList_append _ _ _ _ _ _ _ e2, e3]
          exact ⟨m3, rfl, fun h => absurd h hk⟩
      obtain ⟨k, hk1, hk2⟩ := hx (((leafTree .idleTime a ++ (leafTree .maxProbes b ++ leafTree .probeInterval g)).head?).map Tree.val)
      refine ⟨k, ?_, fun h _ => hk2 h⟩
      rw [parseList_cons _ _ _ _ _ _ _ ((parse_none (endptCb env) _ .none _ (e, n) .keepalives 0 _ rfl).trans hk1)]
      rfl
    · cases h

/-! ## The transport of an endpoint -/

theorem params_ok (env : Env) (hg : grants env) (rest : List Anc) (e : Endpt) (n : Net) (hn : NetOk n) (c c' : EndptConf) (f : Nat) (hu : Up e n c f)
    (hv : c.effPort ≠ 0) (d : EndptChange) (h : c.change d = some c') (hl : d.lost = false) :
    ∃ e' n' f', parseList (endptCb env) .none rest (e, n) d.trees = .ok (e', n') ∧ Up e' n' c' f' ∧
      StepTo n (some f) n' f' c'.addr c'.effPort ∧ e'.name = e.name ∧ c'.effPort ≠ 0 ∧
      (KaAs e.ka c.ka → (∀ t a p r, d ≠ .params t a p (.delete r)) → KaAs e'.ka c'.ka) := by
  cases d with
  | switch t r x b => simp [EndptChange.lost] at hl
  | params t a p k =>
    simp only [EndptConf.change] at h
    cases hp : p.apply c.port with
    | none => rw [hp] at h; cases h
    | some p' =>
    cases hk : c.ka.change k with
    | none => rw [hp, hk] at h; cases h
    | some k' =>
    rw [hp, hk] at h
    simp only at h
    split at h
    · rename_i hc
      simp only [Bool.and_eq_true, decide_eq_true_eq] at hc
      obtain ⟨rfl, hval⟩ := hc
      simp only [Option.some.injEq] at h
      subst h
      have hpl : ∀ v, p ≠ .delete v := by
        rintro v rfl; simp [EndptChange.lost] at hl
      have hval' : ({ c with addr := a.getD c.addr, port := p' } : EndptConf).effPort ≠ 0 := by
        have := hval
        simp only [EndptConf.valid, bne_iff_ne, ne_eq] at this
        exact this
      obtain ⟨e1, n1, f1, q1, q2, q3, q4, q5⟩ := addr_edit env hg
        ((List.head? (replaced .localAddress a ++ (leafTree .localPort p ++ k.trees))).map Tree.val) (⟨c.ti.label, some 0⟩ :: rest) e n hn c f hu hv a
      have hn1 := stepTo_ok n n1 _ f1 _ _ hn q3
      obtain ⟨e2, n2, f2, r1, r2, r3, r4, r5⟩ := port_edit env hg
        ((List.head? (replaced .localAddress a ++ (leafTree .localPort p ++ k.trees))).map Tree.val) (⟨c.ti.label, some 0⟩ :: rest) e1 n1 hn1
        { c with addr := a.getD c.addr } f1 q2 p p' hp hpl hval'
      obtain ⟨k2, s1, s2⟩ := ka_edit env
        ((List.head? (replaced .localAddress a ++ (leafTree .localPort p ++ k.trees))).map Tree.val) (⟨c.ti.label, some 0⟩ :: rest) e2 n2 c.ka k' k hk
      refine ⟨{ e2 with ka := k2 }, n2, f2, ?_, r2, stepTo_trans n n1 n2 _ f1 f2 _ _ _ _ hn q3 r3, ?_, hval', ?_⟩
      · simp only [EndptChange.trees]
        have hlab : c.ti.label = .ssh ∨ c.ti.label = .tls := by cases c.ti <;> simp [Ti.label]
        rw [parseList_cons _ _ _ _ (({ e2 with ka := k2 }, n2) : St) _ _ ?_]
        · rfl
        · rw [parse_none _ _ _ _ _ _ _ _ rfl]
          change parseList (endptCb env) .none (⟨c.ti.label, some 0⟩ :: rest) (e, n) _ = _
          rw [parseList_cons _ _ _ _ (({ e2 with ka := k2 }, n2) : St) _ _ ?_]
          · rfl
          · rw [parse_none _ _ _ _ _ _ _ _ rfl]
            change parseList (endptCb env) .none (tcpPath _ (⟨c.ti.label, some 0⟩ :: rest)) (e, n) _ = _
            rw [parseList_append _ _ _ _ _ _ _ q1, parseList_append _ _ _ _ _ _ _ r1, s1]
      · show e2.name = e.name
        rw [r4, q4]
      · intro hka hd
        exact s2 (by rw [r5, q5]; exact hka) (fun r hr => hd c.ti a p r (by rw [hr]))
    · cases h

theorem trans_create (env : Env) (hg : grants env) (rest : List Anc) (k : Nat) (n : Net) (c : EndptConf) (hv : c.effPort ≠ 0) :
    ∃ e' n' f', parse (endptCb env) .create rest (newEndpt k, n) (transData c) = .ok (e', n') ∧ Up e' n' c f' ∧
      StepTo n none n' f' c.addr c.effPort ∧ e'.name = k ∧ KaAs e'.ka c.ka := by
  obtain ⟨n', f', h1, h2⟩ := sap_port env hg ⟨k, some c.ti, .live c.ti, .str c.addr, c.effPort, none, ⟨false, 0, 0, 0⟩⟩ n
    (by intro g hgq; simp at hgq) rfl c.addr c.effPort rfl hv
  refine ⟨⟨k, some c.ti, .live c.ti, .str c.addr, c.effPort, some f',
    ⟨true, c.ka.idle.getD 7200, c.ka.probes.getD 9, c.ka.interval.getD 75⟩⟩, n', f', ?_,
    ⟨rfl, rfl, rfl, rfl, rfl, (h2.2.2.2 _).mpr (.inr rfl)⟩, h2, rfl, ⟨rfl, rfl, rfl, rfl⟩⟩
  have hA : ∀ path, endptCb env (⟨.localAddress, none⟩ :: tcpPath (some c.addr) path) c.addr .create
      (⟨k, some c.ti, .live c.ti, .null, 0, none, ⟨false, 0, 0, 0⟩⟩, n) =
      .ok (⟨k, some c.ti, .live c.ti, .str c.addr, 0, none, ⟨false, 0, 0, 0⟩⟩, n) := by
    intro path
    simp [endptCb, parentN, tcpPath, localAddress, setAddressPort]
  have hB : ∀ path, endptCb env (⟨.localPort, none⟩ :: tcpPath (some c.addr) path) c.effPort .create
      (⟨k, some c.ti, .live c.ti, .str c.addr, 0, none, ⟨false, 0, 0, 0⟩⟩, n) =
      .ok (⟨k, some c.ti, .live c.ti, .str c.addr, c.effPort, some f', ⟨false, 0, 0, 0⟩⟩, n') := by
    intro path
    rw [← h1]
    simp [endptCb, parentN, tcpPath, localPort, setting]
  simp only [transData, leaf]
  rw [parse_set (endptCb env) .create .absent _ (newEndpt k, n) (⟨k, some c.ti, .live c.ti, .null, 0, none, ⟨false, 0, 0, 0⟩⟩, n) c.ti.label 0 _
    .create rfl (.inl rfl) (by cases c.ti <;> rfl)]
  change parseList (endptCb env) .create (⟨c.ti.label, some 0⟩ :: rest) _ _ = _
  rw [parseList_cons _ _ _ _ (_, n') _ _ ?_]
  · rfl
  · rw [parse_set (endptCb env) .create .absent _ _ (⟨k, some c.ti, .live c.ti, .null, 0, none, ⟨false, 0, 0, 0⟩⟩, n) .tcpServerParameters 0 _ .create rfl
      (.inl rfl) rfl]
    change parseList (endptCb env) .create (tcpPath (some c.addr) (⟨c.ti.label, some 0⟩ :: rest)) _ _ = _
    rw [parseList_cons _ _ _ _ _ _ _ ((parse_set (endptCb env) .create .absent _ _ _ .localAddress c.addr [] .create rfl (.inl rfl) (hA _)).trans rfl)]
    rw [parseList_cons _ _ _ _ _ _ _ ((parse_set (endptCb env) .create .absent _ _ _ .localPort c.effPort [] .create rfl (.inl rfl) (hB _)).trans rfl)]
    rw [parseList_cons _ _ _ _ _ _ _ (ka_create env _ _ _ _ .create .absent rfl c.ka)]
    rfl

/-! ## Parts of the state, with all results -/

/-- The result with the whole state. -/
def mapRes {σ τ : Type} (put : τ → σ) : Res τ → Res σ
  | .ok x => .ok (put x)
  | .fail x => .fail (put x)
  | .ub => .ub

/-- The callbacks change only a part of the state. -/
structure Part {σ τ : Type} (cb : List Anc → Nat → Op → σ → Res σ) (cb1 : List Anc → Nat → Op → τ → Res τ) (put : τ → σ) where
  Good : List Anc → Prop
  Inv : τ → Prop
  ok : Label → Nat → Bool
  good : ∀ l v key path, ok l v = true → Good path → Good (⟨l, key⟩ :: path)
  step : ∀ l v key path op x, ok l v = true → Good path → Inv x →
    cb (⟨l, key⟩ :: path) v op (put x) = mapRes put (cb1 (⟨l, key⟩ :: path) v op x) ∧ ∀ x', cb1 (⟨l, key⟩ :: path) v op x = .ok x' → Inv x'

mutual
theorem part {σ τ : Type} {cb : List Anc → Nat → Op → σ → Res σ} {cb1 : List Anc → Nat → Op → τ → Res τ} {put : τ → σ}
    (F : Part cb cb1 put) : ∀ (t : Tree) (p : Op) (path : List Anc) (x : τ), F.Good path → F.Inv x → visits F.ok t = true →
    parse cb p path (put x) t = mapRes put (parse cb1 p path x t) ∧ ∀ x', parse cb1 p path x t = .ok x' → F.Inv x'
  | .node l v m ch, p, path, x, hg, hi, hv => by
    simp only [visits, Bool.and_eq_true, Bool.or_eq_true, beq_iff_eq] at hv
    have hg' := F.good l v ((ch.head?).map Tree.val) path hv.1 hg
    by_cases h1 : current m p = .unknown
    · simp [parse, h1, mapRes]
    by_cases h2 : current m p = .none
    · simp only [parse, h2, reduceCtorEq, if_false, if_true]
      rcases hv.2 with hm | hch
      · subst hm; simp [current, ownOp] at h2
      · exact partL F ch _ _ _ hg' hi hch
    · simp only [parse, h1, h2, if_false]
      obtain ⟨e1, e2⟩ := F.step l v ((ch.head?).map Tree.val) path (current m p) x hv.1 hg hi
      rw [e1]
      cases hc : cb1 (⟨l, (ch.head?).map Tree.val⟩ :: path) v (current m p) x with
      | fail y => simp [mapRes]
      | ub => simp [mapRes]
      | ok y =>
        simp only [mapRes]
        by_cases h3 : current m p = .delete
        · simp only [h3, if_true]
          refine ⟨trivial, fun x' hx' => ?_⟩
          cases hx'
          exact e2 _ hc
        · simp only [h3, if_false]
          rcases hv.2 with hm | hch
          · subst hm; simp [current, ownOp] at h3
          · exact partL F ch _ _ _ hg' (e2 _ hc) hch
theorem partL {σ τ : Type} {cb : List Anc → Nat → Op → σ → Res σ} {cb1 : List Anc → Nat → Op → τ → Res τ} {put : τ → σ}
    (F : Part cb cb1 put) : ∀ (ts : List Tree) (p : Op) (path : List Anc) (x : τ), F.Good path → F.Inv x → visitsL F.ok ts = true →
    parseList cb p path (put x) ts = mapRes put (parseList cb1 p path x ts) ∧ ∀ x', parseList cb1 p path x ts = .ok x' → F.Inv x'
  | [], _, _, x, _, hi, _ => by
    simp only [parseList, mapRes]
    exact ⟨trivial, fun x' hx' => by cases hx'; exact hi⟩
  | t :: ts, p, path, x, hg, hi, hv => by
    simp only [visitsL, Bool.and_eq_true] at hv
    obtain ⟨e1, e2⟩ := part F t p path x hg hi hv.1
    simp only [parseList, e1]
    cases hc : parse cb1 p path x t with
    | fail y => simp [mapRes]
    | ub => simp [mapRes]
    | ok y =>
      simp only [mapRes]
      exact partL F ts p path y hg (e2 _ hc) hv.2
end

/-! ## More successes with more rights -/

mutual
theorem parse_mono {σ : Type} {cb cb' : List Anc → Nat → Op → σ → Res σ}
    (h : ∀ path v op s s', cb path v op s = .ok s' → cb' path v op s = .ok s') :
    ∀ (t : Tree) (p : Op) (path : List Anc) (s s' : σ), parse cb p path s t = .ok s' → parse cb' p path s t = .ok s'
  | .node l v m ch, p, path, s, s', hr => by
    by_cases h1 : current m p = .unknown
    · simp [parse, h1] at hr
    by_cases h2 : current m p = .none
    · simp only [parse, h2, reduceCtorEq, if_false, if_true] at hr ⊢
      exact parseList_mono h ch _ _ _ _ hr
    · simp only [parse, h1, h2, if_false] at hr ⊢
      cases hc : cb (⟨l, (ch.head?).map Tree.val⟩ :: path) v (current m p) s with
      | fail y => rw [hc] at hr; cases hr
      | ub => rw [hc] at hr; cases hr
      | ok y =>
        rw [hc] at hr
        rw [h _ _ _ _ _ hc]
        dsimp only at hr ⊢
        by_cases h3 : current m p = .delete
        · simp only [h3, if_true] at hr ⊢; exact hr
        · simp only [h3, if_false] at hr ⊢
          exact parseList_mono h ch _ _ _ _ hr
theorem parseList_mono {σ : Type} {cb cb' : List Anc → Nat → Op → σ → Res σ}
    (h : ∀ path v op s s', cb path v op s = .ok s' → cb' path v op s = .ok s') :
    ∀ (ts : List Tree) (p : Op) (path : List Anc) (s s' : σ), parseList cb p path s ts = .ok s' → parseList cb' p path s ts = .ok s'
  | [], _, _, _, _, hr => hr
  | t :: ts, p, path, s, s', hr => by
    simp only [parseList] at hr ⊢
    cases hc : parse cb p path s t with
    | fail y => rw [hc] at hr; cases hr
    | ub => rw [hc] at hr; cases hr
    | ok y =>
      rw [hc] at hr
      rw [parse_mono h t p path s y hc]
      exact parseList_mono h ts p path y s' hr
end

/-- The same surroundings with an operating system that always lets the server listen. -/
def granting (env : Env) : Env := { env with os := fun _ _ _ => true }

theorem granting_grants (env : Env) : grants (granting env) := fun _ _ _ => rfl

theorem sap_mono (env : Env) (address : Option Nat) (port : Nat) (s s' : St) (h : setAddressPort env address port s = .ok s') :
    setAddressPort (granting env) address port s = .ok s' := by
  simp only [setAddressPort] at h ⊢
  generalize (if address.isSome then s.1.port else port) = q at h ⊢
  rw [show (granting env).debug = env.debug from rfl]
  split at h
  · cases h
  · rename_i h1
    rw [if_neg h1]
    split at h
    · cases h
    · exact h
    · rename_i a ha
      split at h
      · rename_i hp; rw [if_pos hp]; exact h
      · rename_i hp
        rw [if_neg hp]
        split at h
        · rw [if_pos (by rfl)]
          exact h
        · cases h

theorem endptCb_mono (env : Env) (path : List Anc) (v : Nat) (op : Op) (s s' : St) (h : endptCb env path v op s = .ok s') :
    endptCb (granting env) path v op s = .ok s' := by
  revert h
  simp only [endptCb]
  split
  · exact id
  · exact id
  · split
    · simp only [localAddress]
      split
      · exact id
      · exact sap_mono env _ _ _ _
    · exact id
  · split
    · exact sap_mono env _ _ _ _
    · exact id
  all_goals exact id

theorem srvCb_mono (env : Env) (path : List Anc) (v : Nat) (op : Op) (s s' : Srv) (h : srvCb env path v op s = .ok s') :
    srvCb (granting env) path v op s = .ok s' := by
  revert h
  simp only [srvCb]
  split
  · exact id
  · exact id
  · split
    · simp only [withEndpt]
      split
      · exact id
      · split
        · exact id
        · rename_i e _
          cases hc : endptCb env path v op (e, s.net) with
          | ok x => rw [endptCb_mono env path v op _ x hc]; exact id
          | fail x => intro hh; cases hh
          | ub => intro hh; cases hh
    · exact id
  · exact id

theorem diffs_mono (env : Env) (ts : List Tree) : ∀ s s', diffs env ts s = .ok s' → diffs (granting env) ts s = .ok s' := by
  induction ts with
  | nil => intro s s' h; exact h
  | cons t ts ih =>
    intro s s' h
    simp only [diffs] at h ⊢
    cases hc : parse (srvCb env) .unknown [] s t with
    | ok s1 =>
      rw [hc] at h
      rw [parse_mono (srvCb_mono env) t _ _ _ _ hc]
      exact ih s1 s' h
    | fail s1 => rw [hc] at h; cases h
    | ub => rw [hc] at h; cases h

theorem run_mono (env : Env) (t : Tree) (ts : List Tree) (s : Srv) (h : run env t ts = .ok s) : run (granting env) t ts = .ok s := by
  simp only [run] at h ⊢
  cases hc : parse (srvCb env) .create [] start t with
  | ok s1 =>
    rw [hc] at h
    rw [parse_mono (srvCb_mono env) t _ _ _ _ hc]
    exact diffs_mono env ts s1 s h
  | fail s1 => rw [hc] at h; cases h
  | ub => rw [hc] at h; cases h

/-! ## All endpoints -/

/-- The endpoints `P` have sockets of their own, and there are no others. -/
def NetInv (P : Endpt → Prop) (n : Net) : Prop :=
  NetOk n ∧ (∀ e, P e → ∃ f a, e.sock = some f ∧ e.addr = .str a ∧ ⟨f, a, e.port⟩ ∈ n.socks) ∧
  (∀ x ∈ n.socks, ∃ e, P e ∧ e.sock = some x.fd) ∧ (∀ a b, P a → P b → a.sock = b.sock → a = b)

theorem net_add (O : Endpt → Prop) (n n' : Net) (f : Option Nat) (f' a p : Nat) (h0 : NetOk n)
    (h1 : ∀ e, O e → ∃ g b, e.sock = some g ∧ e.addr = .str b ∧ ⟨g, b, e.port⟩ ∈ n.socks ∧ some g ≠ f)
    (h2 : ∀ x ∈ n.socks, some x.fd = f ∨ ∃ e, O e ∧ e.sock = some x.fd) (h3 : ∀ a b, O a → O b → a.sock = b.sock → a = b)
    (hs : StepTo n f n' f' a p) (e' : Endpt) (he1 : e'.sock = some f') (he2 : e'.addr = .str a) (he3 : e'.port = p) :
    NetInv (fun y => y = e' ∨ O y) n' := by
  have hn' := stepTo_ok n n' f f' a p h0 hs
  obtain ⟨_, _, s3, s4⟩ := hs
  have hne : ∀ e, O e → e.sock ≠ some f' := by
    intro e he hc
    obtain ⟨g, b, g1, _, g3, g4⟩ := h1 e he
    rw [g1] at hc
    cases hc
    rcases s3 with s3 | s3
    · exact g4 s3
    · have := h0.1 _ g3
      simp only at this
      omega
  refine ⟨hn', ?_, ?_, ?_⟩
  · rintro e (rfl | he)
    · exact ⟨f', a, he1, he2, by rw [he3]; exact (s4 _).mpr (.inr rfl)⟩
    · obtain ⟨g, b, g1, g2, g3, g4⟩ := h1 e he
      exact ⟨g, b, g1, g2, (s4 _).mpr (.inl ⟨g3, g4⟩)⟩
  · intro x hx
    rcases (s4 x).mp hx with hx | rfl
    · rcases h2 x hx.1 with h | ⟨e, h, h'⟩
      · exact absurd h hx.2
      · exact ⟨e, .inr h, h'⟩
    · exact ⟨e', .inl rfl, he1⟩
  · rintro y z (rfl | hy) (rfl | hz) hyz
    · rfl
    · exact absurd (hyz.symm.trans he1) (hne z hz)
    · exact absurd (hyz.trans he1) (hne y hy)
    · exact h3 y z hy hz hyz

theorem net_del (P O : Endpt → Prop) (n : Net) (h : NetInv P n) (a : Endpt) (ha : P a) (hO : ∀ y, O y → P y ∧ y ≠ a)
    (hO' : ∀ y, P y → y = a ∨ O y) : ∃ n', closeSock n a.sock = some n' ∧ NetInv O n' := by
  obtain ⟨h0, h1, h2, h3⟩ := h
  obtain ⟨f, b, f1, _, f3⟩ := h1 a ha
  rw [f1]
  refine ⟨_, close_some n f ⟨_, f3, rfl⟩, ⟨fun x hx => ?_, fun x hx y hy => ?_⟩, fun e he => ?_, fun x hx => ?_, fun x y hx hy => ?_⟩
  · exact h0.1 x (List.mem_filter.mp hx).1
  · exact h0.2 x (List.mem_filter.mp hx).1 y (List.mem_filter.mp hy).1
  · obtain ⟨g, c, g1, g2, g3⟩ := h1 e (hO e he).1
    refine ⟨g, c, g1, g2, List.mem_filter.mpr ⟨g3, ?_⟩⟩
    simp only [Bool.not_eq_true', beq_eq_false_iff_ne]
    rintro rfl
    exact (hO e he).2 (h3 e a (hO e he).1 ha (g1.trans f1.symm))
  · obtain ⟨hx1, hx2⟩ := List.mem_filter.mp hx
    simp only [Bool.not_eq_true', beq_eq_false_iff_ne] at hx2
    obtain ⟨e, e1, e2⟩ := h2 x hx1
    rcases hO' e e1 with rfl | he
    · rw [f1] at e2; cases e2; exact absurd rfl hx2
    · exact ⟨e, he, e2⟩
  · exact h3 x y (hO x hx).1 (hO y hy).1

/-! ## Arrays -/

theorem mem_swapDel (l : List Endpt) (hn : (l.map Endpt.name).Nodup) (i : Nat) (a : Endpt) (hi : l[i]? = some a) (y : Endpt) :
    y ∈ swapDel l i ↔ y ∈ l ∧ y ≠ a := by
  have hlt : i < l.length := by
    rcases Nat.lt_or_ge i l.length with hc | hc
    · exact hc
    · rw [List.getElem?_eq_none hc] at hi; cases hi
  have hget : l[i] = a := by rw [List.getElem?_eq_getElem hlt] at hi; exact Option.some.inj hi
  have hp := swapDel_perm l i hlt
  rw [hget] at hp
  have hnd : ((a :: swapDel l i).map Endpt.name).Nodup := (hp.map _).nodup_iff.mpr hn
  simp only [List.map_cons, List.nodup_cons] at hnd
  constructor
  · intro hy
    refine ⟨hp.mem_iff.mp (List.mem_cons_of_mem _ hy), ?_⟩
    rintro rfl
    exact hnd.1 (List.mem_map.mpr ⟨y, hy, rfl⟩)
  · rintro ⟨hy, hne⟩
    rcases List.mem_cons.mp (hp.mem_iff.mpr hy) with h | h
    · exact absurd h hne
    · exact h

theorem set_mem (l : List Endpt) (i : Nat) (a x : Endpt) (hi : l[i]? = some a) (y : Endpt) : y ∈ l.set i x ↔ y = x ∨ y ∈ swapDel l i := by
  have hlt : i < l.length := by
    rcases Nat.lt_or_ge i l.length with hc | hc
    · exact hc
    · rw [List.getElem?_eq_none hc] at hi; cases hi
  have h1 := set_perm l i x hlt
  have h2 : (x :: l).Perm (l[i] :: x :: swapDel l i) := ((swapDel_perm l i hlt).symm.cons x).trans (List.Perm.swap _ _ _)
  have h3 : (l.set i x).Perm (x :: swapDel l i) := (h1.trans h2).cons_inv
  rw [h3.mem_iff, List.mem_cons]

/-- Endpoint as configured. -/
def Rep (b : Bool) (e : Endpt) (c : EndptConf) : Prop :=
  e.ti = some c.ti ∧ e.opts = .live c.ti ∧ e.addr = .str c.addr ∧ e.port = c.effPort ∧ c.effPort ≠ 0 ∧ (b = true → KaAs e.ka c.ka)

/-- Endpoints as configured (with keepalives, if `b`). -/
def Inv (b : Bool) (s : Srv) (m : Map EndptConf) : Prop :=
  Holds Endpt.name (Rep b) s.endpts m ∧ NetInv (fun e => e ∈ s.endpts) s.net

theorem inv_up (b : Bool) (s : Srv) (m : Map EndptConf) (h : Inv b s m) (k : Nat) (c : EndptConf) (hm : m k = some c) :
    ∃ i e f, s.endpts.findIdx? (fun x => x.name == k) = some i ∧ s.endpts[i]? = some e ∧ e.name = k ∧ e ∈ s.endpts ∧ Rep b e c ∧
      Up e s.net c f := by
  obtain ⟨i, e, h1, h2, _, h4, h5⟩ := holds_get Endpt.name (Rep b) s.endpts m h.1 k c hm
  have he : e ∈ s.endpts := List.mem_of_getElem? h2
  obtain ⟨f, a, g1, g2, g3⟩ := h.2.2.1 e he
  refine ⟨i, e, f, h1, h2, h4, he, h5, h5.1, h5.2.1, h5.2.2.1, h5.2.2.2.1, g1, ?_⟩
  rw [h5.2.2.1] at g2
  cases g2
  rw [h5.2.2.2.1] at g3
  exact g3

theorem inv_set (b : Bool) (s : Srv) (m : Map EndptConf) (h : Inv b s m) (k i : Nat) (e e' : Endpt) (f f' : Nat) (n' : Net) (c' : EndptConf)
    (h1 : s.endpts.findIdx? (fun x => x.name == k) = some i) (h2 : s.endpts[i]? = some e) (hk : e'.name = e.name)
    (hf : e.sock = some f) (hu : Up e' n' c' f') (hs : StepTo s.net (some f) n' f' c'.addr c'.effPort) (hp : c'.effPort ≠ 0)
    (hka : b = true → KaAs e'.ka c'.ka) : Inv b (put s i (e', n')) (upd m k (some c')) := by
  obtain ⟨u1, u2, u3, u4, u5, u6⟩ := hu
  obtain ⟨i1, i0, i2, i3, i4⟩ := h
  have he : e ∈ s.endpts := List.mem_of_getElem? h2
  refine ⟨holds_set Endpt.name (Rep b) s.endpts m i1 k i e e' h1 h2 hk c' ⟨u1, u2, u3, u4, hp, hka⟩, ?_⟩
  have hadd := net_add (fun y => y ∈ swapDel s.endpts i) s.net n' (some f) f' c'.addr c'.effPort i0
    (by
      intro y hy
      obtain ⟨y1, y2⟩ := (mem_swapDel _ i1.1 i e h2 y).mp hy
      obtain ⟨g, a, g1, g2, g3⟩ := i2 y y1
      exact ⟨g, a, g1, g2, g3, fun hc => y2 (i4 y e y1 he (by rw [g1, hf, hc]))⟩)
    (by
      intro x hx
      obtain ⟨y, y1, y2⟩ := i3 x hx
      by_cases hye : y = e
      · subst hye; rw [hf] at y2; exact .inl y2.symm
      · exact .inr ⟨y, (mem_swapDel _ i1.1 i e h2 y).mpr ⟨y1, hye⟩, y2⟩)
    (by
      intro x y hx hy
      exact i4 x y ((mem_swapDel _ i1.1 i e h2 x).mp hx).1 ((mem_swapDel _ i1.1 i e h2 y).mp hy).1)
    hs e' u5 u3 u4
  have : (fun y => y ∈ (put s i (e', n')).endpts) = (fun y => y = e' ∨ y ∈ swapDel s.endpts i) := by
    funext y; exact propext (set_mem s.endpts i e e' h2 y)
  rw [this]
  exact hadd

theorem inv_append (b : Bool) (s : Srv) (m : Map EndptConf) (h : Inv b s m) (k : Nat) (e' : Endpt) (f' : Nat) (n' : Net) (c' : EndptConf)
    (hm : m k = none) (hk : e'.name = k) (hu : Up e' n' c' f') (hs : StepTo s.net none n' f' c'.addr c'.effPort) (hp : c'.effPort ≠ 0)
    (hka : b = true → KaAs e'.ka c'.ka) : Inv b ⟨s.endpts ++ [e'], n', s.idle⟩ (upd m k (some c')) := by
  obtain ⟨u1, u2, u3, u4, u5, u6⟩ := hu
  obtain ⟨i1, i0, i2, i3, i4⟩ := h
  subst hk
  refine ⟨holds_append Endpt.name (Rep b) s.endpts m i1 e' c' hm ⟨u1, u2, u3, u4, hp, hka⟩, ?_⟩
  have hadd := net_add (fun y => y ∈ s.endpts) s.net n' none f' c'.addr c'.effPort i0
    (by
      intro y hy
      obtain ⟨g, a, g1, g2, g3⟩ := i2 y hy
      exact ⟨g, a, g1, g2, g3, by simp⟩)
    (fun x hx => .inr (i3 x hx)) i4 hs e' u5 u3 u4
  have : (fun y => y ∈ (Srv.mk (s.endpts ++ [e']) n' s.idle).endpts) = (fun y => y = e' ∨ y ∈ s.endpts) := by
    funext y; simp [or_comm]
  rw [this]
  exact hadd

/-- Nodes that are handled for the endpoint alone. -/
def inEndpt (l : Label) (_ : Nat) : Bool := !(l == .endpoint || l == .idleTimeout)

theorem sap_name (env : Env) (address : Option Nat) (port : Nat) (s s' : St) (h : setAddressPort env address port s = .ok s') : s'.1.name = s.1.name := by
  simp only [setAddressPort] at h
  generalize (if address.isSome then s.1.port else port) = q at h
  split at h
  · cases h
  · split at h
    · cases h
    · cases h; rfl
    · split at h
      · cases h; rfl
      · split at h
        · split at h
          · cases h
          · split at h
            · cases h
            · cases h; rfl
        · cases h

theorem endptCb_name (env : Env) (path : List Anc) (v : Nat) (op : Op) (s s' : St) (h : endptCb env path v op s = .ok s') : s'.1.name = s.1.name := by
  have ht : ∀ t, transport t op s = .ok s' → s'.1.name = s.1.name := by
    intro t h
    simp only [transport] at h
    split at h
    · cases h; rfl
    · split at h
      · simp only [delOpts] at h
        split at h
        · cases h
        · split at h
          · cases h
          · split at h
            · cases h; rfl
            · cases h
      · cases h; rfl
  simp only [endptCb] at h
  split at h
  · exact ht _ h
  · exact ht _ h
  · split at h
    · simp only [localAddress] at h
      split at h
      · cases h
      · exact (sap_name env _ _ _ _ h).trans rfl
    · cases h; rfl
  · split at h
    · exact (sap_name env _ _ ({ s.1 with port := if setting op then v else 0 }, s.2) _ h).trans rfl
    · cases h; rfl
  all_goals first
    | (split at h <;> (cases h; rfl))
    | (cases h; rfl)

/-- The nodes in an endpoint change only that. -/
def endptPart (env : Env) (s : Srv) (k i : Nat) (e : Endpt) (hi : s.endpts.findIdx? (fun x => x.name == k) = some i) (he : s.endpts[i]? = some e) :
    Part (srvCb env) (endptCb env) (put s i) where
  Good := fun path => keyOr path .endpoint = some k
  Inv := fun x => x.1.name = k
  ok := inEndpt
  good := by
    intro l v key path hl hg
    rw [Verif.ConfUsers.keyOr_cons]
    · exact hg
    · rintro rfl; simp [inEndpt] at hl
  step := by
    intro l v key path op x hl hg hx
    have hne : l ≠ .endpoint := by rintro rfl; simp [inEndpt] at hl
    have hni : l ≠ .idleTimeout := by rintro rfl; simp [inEndpt] at hl
    refine ⟨?_, fun x' h => (endptCb_name env _ v op x x' h).trans hx⟩
    have hk : keyOr (⟨l, key⟩ :: path) .endpoint = some k := by rw [Verif.ConfUsers.keyOr_cons _ _ _ _ hne]; exact hg
    have hf : (put s i x).endpts.findIdx? (fun y => y.name == k) = some i := by
      exact findIdx_set Endpt.name s.endpts k i e x.1 hi he (by
        have hee := List.findIdx?_eq_some_iff_getElem.mp hi
        obtain ⟨hlt, h1, _⟩ := hee
        rw [List.getElem?_eq_getElem hlt] at he
        cases he
        rw [hx]
        simp only [beq_iff_eq] at h1
        exact h1.symm)
    have hg' : (put s i x).endpts[i]? = some x.1 := get_set s.endpts i e x.1 he
    have hw : withEndpt (⟨l, key⟩ :: path) (put s i x) (endptCb env (⟨l, key⟩ :: path) v op) =
        mapRes (put s i) (endptCb env (⟨l, key⟩ :: path) v op x) := by
      simp only [withEndpt, hk, Option.bind_some, hf, hg']
      rw [show (x.1, (put s i x).net) = x from rfl]
      cases endptCb env (⟨l, key⟩ :: path) v op x <;> simp [mapRes, put]
    by_cases hl' : ofEndpt l = true
    · have : srvCb env (⟨l, key⟩ :: path) v op (put s i x) = withEndpt (⟨l, key⟩ :: path) (put s i x) (endptCb env (⟨l, key⟩ :: path) v op) := by
        cases l <;> simp_all [srvCb, ofEndpt]
      rw [this, hw]
    · have h1 : srvCb env (⟨l, key⟩ :: path) v op (put s i x) = .ok (put s i x) := by
        cases l <;> simp_all [srvCb, ofEndpt]
      have h2 : endptCb env (⟨l, key⟩ :: path) v op x = .ok x := by
        cases l <;> simp_all [endptCb, ofEndpt]
      rw [h1, h2]; rfl

/-! ## Edits of endpoints -/

/-- Edits that are followed (with keepalives, if `b`). -/
def okEdit (b : Bool) (e : EndptEdit) : Prop :=
  (∀ k d, e = .change k d → d.lost = false) ∧ (b = true → ∀ k t a p r, e ≠ .change k (.params t a p (.delete r)))

theorem visits_leafTree (l : Label) (h : inEndpt l 0 = true) (d : LeafEdit) : visitsL inEndpt (leafTree l d) = true := by
  cases d <;> simp [leafTree, leaf, visits, visitsL] <;> exact h

theorem visits_transData (c : EndptConf) (m : Meta) : visits inEndpt (transData c m) = true := by
  cases hc : c.ti <;> simp [transData, kaData, leaf, visits, visitsL, inEndpt, Ti.label, hc]

theorem visits_label (t : Ti) : inEndpt t.label 0 = true := by cases t <;> rfl

theorem visits_change (d : EndptChange) : visitsL inEndpt d.trees = true := by
  cases d with
  | params t a p k =>
    simp only [EndptChange.trees, visitsL, visits, visits_label t, Bool.true_and, Bool.and_true, Bool.or_eq_true]
    refine .inr ?_
    simp only [inEndpt, Bool.and_eq_true, Bool.or_eq_true]
    refine ⟨rfl, .inr ?_⟩
    rw [visitsL_append, visitsL_append]
    simp only [Bool.and_eq_true]
    refine ⟨by cases a <;> simp [replaced, leaf, visits, visitsL, inEndpt], visits_leafTree _ rfl p, ?_⟩
    cases k with
    | keep => rfl
    | create c => simp [KaEdit.trees, kaData, leaf, visits, visitsL, inEndpt]
    | delete r => simp [KaEdit.trees, visits, visitsL, inEndpt]
    | leaves x y z =>
      simp only [KaEdit.trees, visitsL, visits, Bool.and_eq_true, Bool.or_eq_true]
      refine ⟨⟨rfl, .inr ?_⟩, trivial⟩
      rw [visitsL_append, visitsL_append, visits_leafTree _ rfl, visits_leafTree _ rfl, visits_leafTree _ rfl]
      rfl
  | switch t r c b =>
    simp only [EndptChange.trees]
    cases b
    · simp [visitsL, visits_transData, visits, visits_label]
    · simp [visitsL, visits_transData, visits, visits_label]

/-- The change of an endpoint, followed on that. -/
theorem change_part (env : Env) (p : Op) (path : List Anc) (s : Srv) (k i : Nat) (e : Endpt) (d : EndptChange)
    (h1 : s.endpts.findIdx? (fun x => x.name == k) = some i) (h2 : s.endpts[i]? = some e) (hk : e.name = k) :
    parse (srvCb env) p path s (endptTree (.change k d)) =
      mapRes (put s i) (parseList (endptCb env) .none (⟨.endpoint, some k⟩ :: path) (e, s.net) d.trees) := by
  simp only [endptTree]
  rw [parse_none _ _ _ _ _ _ _ _ rfl]
  have hs : put s i (e, s.net) = s := by simp [put, set_self _ _ _ h2]
  change parseList (srvCb env) .none (⟨.endpoint, some k⟩ :: path) s _ = _
  rw [parseList_cons _ _ _ _ s _ _ rfl]
  have := (partL (endptPart env s k i e h1 h2) d.trees .none (⟨.endpoint, some k⟩ :: path) (e, s.net) rfl hk (visits_change d)).1
  rw [hs] at this
  exact this

theorem create_ok (env : Env) (hg : grants env) (b : Bool) (p : Op) (mt : Meta) (ho : current mt p = .create) (path : List Anc) (s : Srv) (m : Map EndptConf)
    (h : Inv b s m) (k : Nat) (c : EndptConf) (hm : m k = none) (hv : c.valid = true) :
    ∃ s', parse (srvCb env) p path s (endptData k c mt) = .ok s' ∧ Inv b s' (upd m k (some c)) ∧ s'.idle = s.idle := by
  have hp : c.effPort ≠ 0 := by simpa [EndptConf.valid] using hv
  obtain ⟨e', n', f', t1, t2, t3, t4, t5⟩ := trans_create env hg (⟨.endpoint, some k⟩ :: path) k s.net c hp
  refine ⟨⟨s.endpts ++ [e'], n', s.idle⟩, ?_, inv_append b s m h k e' f' n' c hm t4 t2 t3 hp (fun _ => t5), rfl⟩
  simp only [endptData]
  rw [parse_set (srvCb env) p mt path s { s with endpts := s.endpts ++ [newEndpt k] } .endpoint 0 _ .create ho (.inl rfl) rfl]
  change parseList (srvCb env) .create (⟨.endpoint, some k⟩ :: path) _ _ = _
  have habs := holds_absent Endpt.name (Rep b) s.endpts m h.1 k hm
  have h1 : (s.endpts ++ [newEndpt k]).findIdx? (fun x => x.name == k) = some s.endpts.length :=
    findIdx_new _ s.endpts (newEndpt k) habs (by simp [newEndpt])
  have h2 : (s.endpts ++ [newEndpt k])[s.endpts.length]? = some (newEndpt k) := by simp
  rw [parseList_cons _ _ _ _ { s with endpts := s.endpts ++ [newEndpt k] } _ _ rfl]
  have := (partL (endptPart env { s with endpts := s.endpts ++ [newEndpt k] } k s.endpts.length (newEndpt k) h1 h2) [transData c] .create
    (⟨.endpoint, some k⟩ :: path) (newEndpt k, s.net) rfl rfl
    (by show visitsL inEndpt [transData c] = true; simp [visitsL, visits_transData])).1
  rw [show put { s with endpts := s.endpts ++ [newEndpt k] } s.endpts.length (newEndpt k, s.net) =
    { s with endpts := s.endpts ++ [newEndpt k] } by simp [put, set_self _ _ _ h2]] at this
  rw [this, parseList_cons _ _ _ _ _ _ _ t1]
  simp [parseList, mapRes, put]

theorem edit_ok (env : Env) (hg : grants env) (b : Bool) (path : List Anc) (s : Srv) (m m' : Map EndptConf) (h : Inv b s m) (e : EndptEdit)
    (hok : okEdit b e) (hp : patch mkEndpt EndptConf.change m e = some m') :
    ∃ s', parse (srvCb env) .none path s (endptTree e) = .ok s' ∧ Inv b s' m' ∧ s'.idle = s.idle := by
  cases e with
  | create k c =>
    obtain ⟨hm, y, hy, rfl⟩ := patch_create _ _ _ _ _ _ hp
    simp only [mkEndpt] at hy
    split at hy
    · rename_i hv
      cases hy
      exact create_ok env hg b .none .create rfl path s m h k c hm hv
    · cases hy
  | delete k r =>
    obtain ⟨⟨y, hy⟩, rfl⟩ := patch_delete _ _ _ _ _ _ hp
    obtain ⟨i, e, f, h1, h2, h3, h4, h5, h6⟩ := inv_up b s m h k y hy
    obtain ⟨n', c1, c2⟩ := net_del (fun e => e ∈ s.endpts) (fun e => e ∈ swapDel s.endpts i) s.net h.2 e h4
      (fun y hy => (mem_swapDel _ h.1.1 i e h2 y).mp hy)
      (fun y hy => by
        by_cases hye : y = e
        · exact .inl hye
        · exact .inr ((mem_swapDel _ h.1.1 i e h2 y).mpr ⟨hy, hye⟩))
    refine ⟨⟨swapDel s.endpts i, n', s.idle⟩, ?_, ⟨holds_del Endpt.name (Rep b) s.endpts m h.1 k i e h2 h3, c2⟩, rfl⟩
    simp only [endptTree]
    rw [parse_del]
    obtain ⟨u1, u2, u3, u4, u5, u6⟩ := h6
    have hk : keyOr (⟨.endpoint, some k⟩ :: path) .endpoint = some k := rfl
    show endpoint (⟨.endpoint, some k⟩ :: path) .delete s = _
    simp only [endpoint, reduceCtorEq, if_false, if_true, hk, Option.bind_some, h1, h2, delEndpt, u1, delOpts, u3, c1, u2]
  | change k d =>
    obtain ⟨y, z, hy, hz, rfl⟩ := patch_change _ _ _ _ _ _ hp
    obtain ⟨i, e, f, h1, h2, h3, h4, h5, h6⟩ := inv_up b s m h k y hy
    rw [change_part env .none path s k i e d h1 h2 h3]
    obtain ⟨e', n', f', q1, q2, q3, q4, q5, q6⟩ := params_ok env hg (⟨.endpoint, some k⟩ :: path) e s.net h.2.1 y z f h6 h5.2.2.2.2.1 d hz (hok.1 k d rfl)
    rw [q1]
    refine ⟨put s i (e', n'), rfl, inv_set b s m h k i e e' f f' n' z h1 h2 q4 h6.2.2.2.2.1 q2 q3 q5 ?_, rfl⟩
    intro hb
    refine q6 (h5.2.2.2.2.2 hb) (fun t a p r hd => hok.2 hb k t a p r (by rw [hd]))

theorem edits_all (env : Env) (hg : grants env) (b : Bool) (path : List Anc) (es : List EndptEdit) : ∀ (s : Srv) (m m' : Map EndptConf), Inv b s m →
    (∀ e ∈ es, okEdit b e) → patchAll mkEndpt EndptConf.change m es = some m' →
    ∃ s', parseList (srvCb env) .none path s (es.map endptTree) = .ok s' ∧ Inv b s' m' ∧ s'.idle = s.idle := by
  induction es with
  | nil => intro s m m' h _ hp; simp only [patchAll, Option.some.injEq] at hp; subst hp; exact ⟨s, rfl, h, rfl⟩
  | cons e es ih =>
    intro s m m' h hok hp
    simp only [patchAll] at hp
    cases he : patch mkEndpt EndptConf.change m e with
    | none => rw [he] at hp; cases hp
    | some m1 =>
      rw [he] at hp
      obtain ⟨s1, p1, p2, p3⟩ := edit_ok env hg b path s m m1 h e (hok e (by simp)) he
      obtain ⟨s2, r1, r2, r3⟩ := ih s1 m1 m' p2 (fun x hx => hok x (by simp [hx])) hp
      refine ⟨s2, ?_, r2, r3.trans p3⟩
      rw [List.map_cons, parseList_cons _ _ _ _ _ _ _ p1]
      exact r1

theorem creates_all (env : Env) (hg : grants env) (b : Bool) (path : List Anc) (l : List (Nat × EndptConf)) : ∀ (s : Srv) (m m' : Map EndptConf),
    Inv b s m → patchAll mkEndpt EndptConf.change m (l.map (fun q => Edit.create q.1 q.2)) = some m' →
    ∃ s', parseList (srvCb env) .create path s (l.map (fun q => endptData q.1 q.2)) = .ok s' ∧ Inv b s' m' ∧ s'.idle = s.idle := by
  induction l with
  | nil => intro s m m' h hp; simp only [List.map_nil, patchAll, Option.some.injEq] at hp; subst hp; exact ⟨s, rfl, h, rfl⟩
  | cons q l ih =>
    intro s m m' h hp
    simp only [List.map_cons, patchAll] at hp
    cases he : patch mkEndpt EndptConf.change m (.create q.1 q.2) with
    | none => rw [he] at hp; cases hp
    | some m1 =>
      rw [he] at hp
      obtain ⟨hm, y, hy, rfl⟩ := patch_create _ _ _ _ _ _ he
      simp only [mkEndpt] at hy
      split at hy
      · rename_i hv
        cases hy
        obtain ⟨s1, p1, p2, p3⟩ := create_ok env hg b .create .absent rfl path s m h q.1 q.2 hm hv
        obtain ⟨s2, r1, r2, r3⟩ := ih s1 _ m' p2 hp
        refine ⟨s2, ?_, r2, r3.trans p3⟩
        rw [List.map_cons, parseList_cons _ _ _ _ _ _ _ p1]
        exact r1
      · cases hy

/-! ## Whole data and diffs -/

/-- The server works as configured. -/
def InvAll (b : Bool) (s : Srv) (c : ListenConf) : Prop := Inv b s c.endpts ∧ s.idle = c.idle.getD 180

theorem inv_idle (b : Bool) (s : Srv) (m : Map EndptConf) (h : Inv b s m) (v : Nat) : Inv b { s with idle := v } m := h

/-- Diffs that are followed (with keepalives, if `b`). -/
def okDiff (b : Bool) (d : ListenDiff) : Prop := ∀ e ∈ d.endpts, okEdit b e

theorem idle_edit (env : Env) (path : List Anc) (s : Srv) (o o' : Option Nat) (hs : s.idle = o.getD 180) (d : LeafEdit) (h : d.apply o = some o') :
    parseList (srvCb env) .none path s (leafTree .idleTimeout d) = .ok { s with idle := o'.getD 180 } := by
  cases d with
  | keep => simp only [LeafEdit.apply, Option.some.injEq] at h; subst h; simp only [leafTree, parseList, ← hs]
  | create v =>
    cases o with
    | some w => simp [LeafEdit.apply] at h
    | none => simp only [LeafEdit.apply, Option.some.injEq] at h; subst h; rfl
  | replace v =>
    cases o with
    | none => simp [LeafEdit.apply] at h
    | some w => simp only [LeafEdit.apply, Option.some.injEq] at h; subst h; rfl
  | delete v =>
    cases o with
    | none => simp [LeafEdit.apply] at h
    | some w =>
      simp only [LeafEdit.apply] at h
      split at h
      · simp only [Option.some.injEq] at h; subst h; rfl
      · cases h

theorem diff_parse (env : Env) (s : Srv) (c : ListenConf) (hi : s.idle = c.idle.getD 180) (d : ListenDiff) (i' : Option Nat)
    (h : d.idle.apply c.idle = some i') : ∃ path, parse (srvCb env) .unknown [] s (listenTree d) =
      parseList (srvCb env) .none path { s with idle := i'.getD 180 } (d.endpts.map endptTree) := by
  simp only [listenTree]
  rw [parse_none _ _ _ _ _ _ _ _ rfl, parseList_append _ _ _ _ _ _ _ (idle_edit env _ s c.idle i' hi d.idle h)]
  refine ⟨⟨.other, Option.map Tree.val (d.endpts.map endptTree).head?⟩ ::
    ⟨.other, Option.map Tree.val (leafTree .idleTimeout d.idle ++ [Tree.node .other 0 .none (d.endpts.map endptTree)]).head?⟩ :: [], ?_⟩
  simp only [parseList]
  rw [parse_none _ _ _ _ _ _ _ _ rfl]
  generalize parseList (srvCb env) Op.none _ _ (List.map endptTree d.endpts) = r
  cases r <;> rfl

theorem diff_ok (env : Env) (hg : grants env) (b : Bool) (s : Srv) (c c' : ListenConf) (h : InvAll b s c) (d : ListenDiff) (hok : okDiff b d)
    (hp : patchListen c d = some c') : ∃ s', parse (srvCb env) .unknown [] s (listenTree d) = .ok s' ∧ InvAll b s' c' := by
  simp only [patchListen] at hp
  cases h1 : d.idle.apply c.idle with
  | none => rw [h1] at hp; cases hp
  | some i' =>
  cases h2 : patchAll mkEndpt EndptConf.change c.endpts d.endpts with
  | none => rw [h1, h2] at hp; cases hp
  | some m' =>
  rw [h1, h2] at hp
  simp only [Option.some.injEq] at hp
  subst hp
  obtain ⟨path, hpath⟩ := diff_parse env s c h.2 d i' h1
  obtain ⟨s', q1, q2, q3⟩ := edits_all env hg b path d.endpts { s with idle := i'.getD 180 } c.endpts m' (inv_idle b s _ h.1 _) hok h2
  exact ⟨s', by rw [hpath, q1], q2, q3⟩

theorem diffs_ok (env : Env) (hg : grants env) (b : Bool) (ds : List ListenDiff) : ∀ (s : Srv) (c c' : ListenConf), InvAll b s c →
    (∀ d ∈ ds, okDiff b d) → patchListenAll c ds = some c' → ∃ s', diffs env (ds.map listenTree) s = .ok s' ∧ InvAll b s' c' := by
  induction ds with
  | nil => intro s c c' h _ hp; simp only [patchListenAll, Option.some.injEq] at hp; subst hp; exact ⟨s, rfl, h⟩
  | cons d ds ih =>
    intro s c c' h hok hp
    simp only [patchListenAll] at hp
    cases h1 : patchListen c d with
    | none => rw [h1] at hp; cases hp
    | some c1 =>
      rw [h1] at hp
      obtain ⟨s1, p1, p2⟩ := diff_ok env hg b s c c1 h d (hok d (by simp)) h1
      obtain ⟨s2, r1, r2⟩ := ih s1 c1 c' p2 (fun x hx => hok x (by simp [hx])) hp
      exact ⟨s2, by simp only [List.map_cons, diffs, p1]; exact r1, r2⟩

theorem inv_start (b : Bool) : Inv b start (fun _ => none) := by
  refine ⟨holds_nil _ _, ⟨?_, ?_⟩, ?_, ?_, ?_⟩ <;> simp [start]

theorem data_ok (env : Env) (hg : grants env) (b : Bool) (d : ListenData) (c : ListenConf) (h : d.conf = some c) :
    ∃ s, parse (srvCb env) .create [] start d.tree = .ok s ∧ InvAll b s c := by
  simp only [ListenData.conf, Option.map_eq_some_iff] at h
  obtain ⟨m, hm, rfl⟩ := h
  simp only [ListenData.tree]
  rw [parse_set (srvCb env) .create .absent [] start start .other 0 _ .create rfl (.inl rfl) rfl]
  rw [parseList_cons _ _ _ _ { start with idle := d.idle.getD 180 } _ _ rfl]
  obtain ⟨s', q1, q2, q3⟩ := creates_all env hg b
    (⟨.other, Option.map Tree.val (d.endpts.map (fun q => endptData q.1 q.2)).head?⟩ :: ⟨.other, some (d.idle.getD 180)⟩ :: []) d.endpts
    { start with idle := d.idle.getD 180 } (fun _ => none) m (inv_idle b start _ (inv_start b) _) hm
  refine ⟨s', ?_, q2, q3⟩
  rw [parseList_cons _ _ _ _ s' _ _ ?_]
  · rfl
  · rw [parse_set (srvCb env) .create .absent _ _ _ .other 0 _ .create rfl (.inl rfl) rfl]
    exact q1

theorem run_ok (env : Env) (hg : grants env) (b : Bool) (d : ListenData) (ds : List ListenDiff) (c0 c : ListenConf) (h0 : d.conf = some c0)
    (hok : ∀ d ∈ ds, okDiff b d) (h : patchListenAll c0 ds = some c) : ∃ s, run env d.tree (ds.map listenTree) = .ok s ∧ InvAll b s c := by
  obtain ⟨s0, p1, p2⟩ := data_ok env hg b d c0 h0
  obtain ⟨s, q1, q2⟩ := diffs_ok env hg b ds s0 c0 c p2 hok h
  exact ⟨s, by simp only [run, p1]; exact q1, q2⟩

theorem run_inv (env : Env) (b : Bool) (d : ListenData) (ds : List ListenDiff) (c0 c : ListenConf) (h0 : d.conf = some c0)
    (hok : ∀ d ∈ ds, okDiff b d) (h : patchListenAll c0 ds = some c) (s : Srv) (hr : run env d.tree (ds.map listenTree) = .ok s) : InvAll b s c := by
  obtain ⟨s', q1, q2⟩ := run_ok (granting env) (granting_grants env) b d ds c0 c h0 hok h
  rw [run_mono env _ _ s hr] at q1
  cases q1
  exact q2

theorem listenAs_of_inv (b : Bool) (s : Srv) (m : Map EndptConf) (h : Inv b s m) : ListenAs s m := by
  refine ⟨h.1.1, fun k => ?_, h.2.2.2.1, fun x hx y hy => h.2.2.2.2 x y hx hy⟩
  cases hm : m k with
  | none =>
    rw [holds_absent Endpt.name (Rep b) s.endpts m h.1 k hm]
    trivial
  | some c =>
    have hx := h.1.2 k
    rw [hm] at hx
    cases hf : s.endpts.find? (fun e => e.name == k) with
    | none => rw [hf] at hx; exact hx.elim
    | some e =>
      rw [hf] at hx
      obtain ⟨r1, r2, r3, r4, _, _⟩ := hx
      obtain ⟨f, a, g1, g2, g3⟩ := h.2.2.1 e (List.mem_of_find?_eq_some hf)
      rw [r3] at g2
      cases g2
      rw [r4] at g3
      exact ⟨r1, r2, f, g1, g3, fun x hx hxf => h.2.1.2 x hx _ g3 hxf⟩

theorem okDiff_false (d : ListenDiff) (h : noLost d) : okDiff false d := by
  intro e he
  refine ⟨fun k x hx => h k x (hx ▸ he), fun hb => by cases hb⟩

theorem okDiff_true (d : ListenDiff) (h : noLost d) (h' : keepsKa d) : okDiff true d := by
  intro e he
  refine ⟨fun k x hx => h k x (hx ▸ he), fun _ k t a p r hx => h' k t a p r (hx ▸ he)⟩

/-! ## One more diff -/

theorem diffs_append (env : Env) (ts us : List Tree) : ∀ s s', diffs env ts s = .ok s' → diffs env (ts ++ us) s = diffs env us s' := by
  induction ts with
  | nil => intro s s' h; simp only [diffs, Res.ok.injEq] at h; subst h; rfl
  | cons t ts ih =>
    intro s s' h
    simp only [diffs, List.cons_append] at h ⊢
    cases hc : parse (srvCb env) .unknown [] s t with
    | ok s1 => rw [hc] at h; exact ih s1 s' h
    | fail s1 => rw [hc] at h; cases h
    | ub => rw [hc] at h; cases h

theorem run_append (env : Env) (t : Tree) (ts us : List Tree) (s : Srv) (h : run env t ts = .ok s) : run env t (ts ++ us) = diffs env us s := by
  simp only [run] at h ⊢
  cases hc : parse (srvCb env) .create [] start t with
  | ok s1 => rw [hc] at h; exact diffs_append env ts us s1 s h
  | fail s1 => rw [hc] at h; cases h
  | ub => rw [hc] at h; cases h

theorem run_then (env : Env) (d : ListenData) (ds : List ListenDiff) (s : Srv) (hr : run env d.tree (ds.map listenTree) = .ok s) (c : ListenConf)
    (hi : s.idle = c.idle.getD 180) (es : List EndptEdit) :
    ∃ path, run env d.tree ((ds ++ [endptsDiff es]).map listenTree) =
      (match parseList (srvCb env) .none path s (es.map endptTree) with | .ok s' => .ok s' | r => r) := by
  rw [List.map_append, run_append env _ _ _ s hr]
  obtain ⟨path, hp⟩ := diff_parse env s c hi (endptsDiff es) c.idle rfl
  rw [show ({ s with idle := c.idle.getD 180 } : Srv) = s by rw [← hi]] at hp
  refine ⟨path, ?_⟩
  simp only [List.map_cons, List.map_nil, diffs, hp, show (endptsDiff es).endpts = es from rfl]
  cases parseList (srvCb env) .none path s (es.map endptTree) <;> rfl

/-! ## Another transport -/

theorem delOpts_ub (t : Ti) (s : St) (h : s.1.opts ≠ .live t) : delOpts t s = .ub := by
  simp only [delOpts, h, if_false]
  split
  · rfl
  · split <;> rfl

/-- A transport created in an endpoint that has been listening. -/
theorem trans_over (env : Env) (hg : grants env) (rest : List Anc) (e : Endpt) (n : Net) (c0 c : EndptConf) (f : Nat) (hu : Up e n c0 f)
    (h0 : c0.effPort ≠ 0) (hv : c.effPort ≠ 0) (p : Op) (mt : Meta) (ho : current mt p = .create) :
    ∃ e' n', parse (endptCb env) p rest (e, n) (transData c mt) = .ok (e', n') ∧ e'.opts = .live c.ti := by
  obtain ⟨u1, u2, u3, u4, u5, u6⟩ := hu
  obtain ⟨n1, f1, a1, a2⟩ := sap_addr env hg { e with ti := some c.ti, opts := .live c.ti, addr := .str c.addr } n
    (by intro g hgq; simp only [u5, Option.some.injEq] at hgq; exact ⟨_, u6, hgq⟩) rfl c.addr (by simp only [u4]; exact h0)
  obtain ⟨n2, f2, b1, b2⟩ := sap_port env hg { e with ti := some c.ti, opts := .live c.ti, addr := .str c.addr, port := c.effPort, sock := some f1 } n1
    (by intro g hgq; simp only [Option.some.injEq] at hgq; subst hgq; exact ⟨_, (a2.2.2.2 _).mpr (.inr rfl), rfl⟩) rfl c.addr c.effPort rfl hv
  have hA : ∀ path, endptCb env (⟨.localAddress, none⟩ :: tcpPath (some c.addr) path) c.addr .create
      ({ e with ti := some c.ti, opts := .live c.ti }, n) =
      .ok ({ e with ti := some c.ti, opts := .live c.ti, addr := .str c.addr, sock := some f1 }, n1) := by
    intro path
    rw [← a1]
    simp [endptCb, parentN, tcpPath, localAddress, u3]
  have hB : ∀ path, endptCb env (⟨.localPort, none⟩ :: tcpPath (some c.addr) path) c.effPort .create
      ({ e with ti := some c.ti, opts := .live c.ti, addr := .str c.addr, sock := some f1 }, n1) =
      .ok ({ e with ti := some c.ti, opts := .live c.ti, addr := .str c.addr, port := c.effPort, sock := some f2 }, n2) := by
    intro path
    rw [← b1]
    simp [endptCb, parentN, tcpPath, localPort, setting]
  refine ⟨⟨e.name, some c.ti, .live c.ti, .str c.addr, c.effPort, some f2,
    ⟨true, c.ka.idle.getD 7200, c.ka.probes.getD 9, c.ka.interval.getD 75⟩⟩, n2, ?_, rfl⟩
  simp only [transData, leaf]
  rw [parse_set (endptCb env) p mt _ (e, n) ({ e with ti := some c.ti, opts := .live c.ti }, n) c.ti.label 0 _
    .create ho (.inl rfl) (by cases c.ti <;> rfl)]
  change parseList (endptCb env) .create (⟨c.ti.label, some 0⟩ :: rest) _ _ = _
  rw [parseList_cons _ _ _ _ (_, n2) _ _ ?_]
  · rfl
  · rw [parse_set (endptCb env) .create .absent _ _ ({ e with ti := some c.ti, opts := .live c.ti }, n) .tcpServerParameters 0 _ .create rfl
      (.inl rfl) rfl]
    change parseList (endptCb env) .create (tcpPath (some c.addr) (⟨c.ti.label, some 0⟩ :: rest)) _ _ = _
    rw [parseList_cons _ _ _ _ _ _ _ ((parse_set (endptCb env) .create .absent _ _ _ .localAddress c.addr [] .create rfl (.inl rfl) (hA _)).trans rfl)]
    rw [parseList_cons _ _ _ _ _ _ _ ((parse_set (endptCb env) .create .absent _ _ _ .localPort c.effPort [] .create rfl (.inl rfl) (hB _)).trans rfl)]
    rw [parseList_cons _ _ _ _ _ _ _ (ka_create env _ _ _ _ .create .absent rfl c.ka)]
    rfl

theorem label_del (env : Env) (t : Ti) (p : Op) (rest : List Anc) (s : St) (r : List Tree) :
    parse (endptCb env) p rest s (.node t.label 0 .delete r) = delOpts t s := by
  rw [parse_del]
  cases t <;> rfl

theorem switch_ub (env : Env) (hg : grants env) (rest : List Anc) (e : Endpt) (n : Net) (c c' : EndptConf) (f : Nat) (hu : Up e n c f)
    (h0 : c.effPort ≠ 0) (t : Ti) (r : List Tree) (x : EndptConf) (first : Bool) (h : c.change (.switch t r x first) = some c') :
    parseList (endptCb env) .none rest (e, n) (EndptChange.switch t r x first).trees = .ub := by
  simp only [EndptConf.change] at h
  split at h
  · rename_i hc
    simp only [Bool.and_eq_true, decide_eq_true_eq, bne_iff_ne, ne_eq] at hc
    obtain ⟨⟨rfl, hne⟩, hv⟩ := hc
    simp only [Option.some.injEq] at h
    clear h
    have hv' : x.effPort ≠ 0 := by simpa [EndptConf.valid] using hv
    simp only [EndptChange.trees]
    cases first with
    | false =>
      obtain ⟨e', n', q1, q2⟩ := trans_over env hg rest e n c x f hu h0 hv' .none .create rfl
      simp only [Bool.false_eq_true, if_false]
      rw [parseList_cons _ _ _ _ _ _ _ q1]
      simp only [parseList, label_del]
      rw [delOpts_ub]
      rw [q2]
      intro hc
      simp only [Opts.live.injEq] at hc
      exact hne hc
    | true =>
      obtain ⟨u1, u2, u3, u4, u5, u6⟩ := hu
      simp only [if_true]
      have hd : delOpts c.ti (e, n) = .ok ({ e with addr := .freed, opts := .freed },
          { n with socks := n.socks.filter (fun x => !(x.fd == f)) }) := by
        simp only [delOpts, u3, reduceCtorEq, if_false, u5, close_some n f ⟨_, u6, rfl⟩, u2, if_true]
      rw [parseList_cons _ _ _ _ _ _ _ ((label_del env c.ti .none rest (e, n) r).trans hd)]
      simp only [parseList, transData, leaf]
      rw [parse_set (endptCb env) .none .create _ _ ({ e with addr := .freed, opts := .live x.ti, ti := some x.ti },
        { n with socks := n.socks.filter (fun x => !(x.fd == f)) }) x.ti.label 0 _ .create rfl (.inl rfl) (by cases x.ti <;> rfl)]
      simp [parseList, parse, current, ownOp, endptCb, parentN, localAddress, Tree.val]
  · cases h

/-! ## No port any more -/

theorem port_del (env : Env) (key : Option Nat) (rest : List Anc) (e : Endpt) (n : Net) (a v : Nat) (ha : e.addr = .str a) :
    parseList (endptCb env) .none (tcpPath key rest) (e, n) [leaf .localPort v .delete] =
      if env.debug = true then .ub else .ok ({ e with port := 0 }, n) := by
  simp only [parseList, leaf]
  rw [parse_del]
  have : endptCb env (⟨.localPort, none⟩ :: tcpPath key rest) v .delete (e, n) = if env.debug = true then .ub else .ok ({ e with port := 0 }, n) := by
    simp only [endptCb, List.head?_cons, Option.map_some, parentN, tcpPath, List.getElem?_cons_succ, List.getElem?_cons_zero, beq_self_eq_true, if_true,
      localPort, setting, setAddressPort, ha]
    cases env.debug <;> simp
  simp only [List.head?_nil, Option.map_none, this]
  cases env.debug <;> rfl

/-! ## Refused by the operating system -/

theorem sap_refused (env : Env) (e : Endpt) (n : Net) (a p : Nat) (hp : p ≠ 0) (h : env.os n.socks a p = false) :
    (e.port = p → setAddressPort env (some a) 0 (e, n) = .fail (e, n)) ∧ (e.addr = .str a → setAddressPort env none p (e, n) = .fail (e, n)) := by
  refine ⟨fun hq => ?_, fun hq => ?_⟩
  · subst hq; simp [setAddressPort, hp, h]
  · simp [setAddressPort, hp, h, hq]

theorem addr_refused (env : Env) (rest : List Anc) (e : Endpt) (n : Net) (c : EndptConf) (f : Nat) (hu : Up e n c f) (h0 : c.effPort ≠ 0) (a : Nat)
    (h : env.os n.socks a c.effPort = false) (p : LeafEdit) (k : KaEdit) :
    ∃ x, parseList (endptCb env) .none rest (e, n) (EndptChange.params c.ti (some a) p k).trees = .fail x := by
  obtain ⟨u1, u2, u3, u4, u5, u6⟩ := hu
  refine ⟨({ e with addr := .str a }, n), ?_⟩
  have hr := (sap_refused env { e with addr := .str a } n a c.effPort h0 h).1 u4
  have hcb : endptCb env (⟨.localAddress, none⟩ :: tcpPath (some a) (⟨c.ti.label, some 0⟩ :: rest)) a .replace (e, n) = .fail ({ e with addr := .str a }, n) := by
    rw [← hr]
    simp [endptCb, parentN, tcpPath, localAddress, u3]
  have hl : ∀ y, parseList (endptCb env) .none (tcpPath (some a) (⟨c.ti.label, some 0⟩ :: rest)) (e, n) (leaf .localAddress a .replace :: y) =
      .fail ({ e with addr := .str a }, n) := by
    intro y
    have : parse (endptCb env) .none (tcpPath (some a) (⟨c.ti.label, some 0⟩ :: rest)) (e, n) (leaf .localAddress a .replace) =
        .fail ({ e with addr := .str a }, n) := by
      simp only [leaf, parse, show current .replace .none = .replace from rfl, reduceCtorEq, if_false]
      simp only [List.head?_nil, Option.map_none, hcb]
    simp only [parseList, this]
  simp only [EndptChange.trees, replaced, List.cons_append, List.nil_append, parseList]
  rw [parse_none _ _ _ _ _ _ _ _ rfl]
  simp only [parseList]
  rw [parse_none _ _ _ _ _ _ _ _ rfl]
  have := hl (leafTree Label.localPort p ++ k.trees)
  simp only [tcpPath, leaf] at this
  simp only [leaf, List.head?_cons, Option.map_some, Tree.val, this]

theorem port_refused (env : Env) (rest : List Anc) (e : Endpt) (n : Net) (c : EndptConf) (f : Nat) (hu : Up e n c f) (v : Nat) (h0 : v ≠ 0)
    (h : env.os n.socks c.addr v = false) (d : LeafEdit) (hd : d = .create v ∨ d = .replace v) (k : KaEdit) :
    ∃ x, parseList (endptCb env) .none rest (e, n) (EndptChange.params c.ti none d k).trees = .fail x := by
  obtain ⟨u1, u2, u3, u4, u5, u6⟩ := hu
  refine ⟨({ e with port := v }, n), ?_⟩
  have hr := (sap_refused env { e with port := v } n c.addr v h0 h).2 u3
  have hcb : ∀ op, (op = .create ∨ op = .replace) →
      endptCb env (⟨.localPort, none⟩ :: tcpPath (some v) (⟨c.ti.label, some 0⟩ :: rest)) v op (e, n) = .fail ({ e with port := v }, n) := by
    intro op ho
    rw [← hr]
    rcases ho with rfl | rfl <;> simp [endptCb, parentN, tcpPath, localPort, setting]
  have hl : ∀ y, parseList (endptCb env) .none (tcpPath (some v) (⟨c.ti.label, some 0⟩ :: rest)) (e, n) (leafTree .localPort d ++ y) =
      .fail ({ e with port := v }, n) := by
    intro y
    rcases hd with rfl | rfl
    · simp only [leafTree, leaf, List.cons_append, List.nil_append, parseList, parse, show current .create .none = .create from rfl, reduceCtorEq, if_false]
      have := hcb .create (.inl rfl)
      rw [show Option.map Tree.val ([] : List Tree).head? = none from rfl, this]
    · simp only [leafTree, leaf, List.cons_append, List.nil_append, parseList, parse, show current .replace .none = .replace from rfl, reduceCtorEq, if_false]
      have := hcb .replace (.inr rfl)
      rw [show Option.map Tree.val ([] : List Tree).head? = none from rfl, this]
  have hk : Option.map Tree.val (leafTree .localPort d ++ k.trees).head? = some v := by rcases hd with rfl | rfl <;> rfl
  simp only [EndptChange.trees, replaced, List.nil_append, parseList]
  rw [parse_none _ _ _ _ _ _ _ _ rfl]
  simp only [parseList]
  rw [parse_none _ _ _ _ _ _ _ _ rfl, hk]
  have := hl k.trees
  simp only [tcpPath] at this
  simp only [List.head?_cons, Option.map_some, Tree.val, this]

/-! ## Sockets belong to endpoints, whatever the data are -/

/-- What holds after success and after failure. -/
def Always {σ : Type} (I : σ → Prop) : Res σ → Prop
  | .ok s => I s
  | .fail s => I s
  | .ub => True

mutual
theorem parse_always {σ : Type} {cb : List Anc → Nat → Op → σ → Res σ} (I : σ → Prop) (h : ∀ path v op s, I s → Always I (cb path v op s)) :
    ∀ (t : Tree) (p : Op) (path : List Anc) (s : σ), I s → Always I (parse cb p path s t)
  | .node l v m ch, p, path, s, hi => by
    by_cases h1 : current m p = .unknown
    · simp only [parse, h1, if_true]; exact hi
    by_cases h2 : current m p = .none
    · simp only [parse, h2, reduceCtorEq, if_false, if_true]
      exact parseList_always I h ch _ _ _ hi
    · simp only [parse, h1, h2, if_false]
      have hx := h (⟨l, (ch.head?).map Tree.val⟩ :: path) v (current m p) s hi
      cases hc : cb (⟨l, (ch.head?).map Tree.val⟩ :: path) v (current m p) s with
      | fail y => rw [hc] at hx; exact hx
      | ub => trivial
      | ok y =>
        rw [hc] at hx
        dsimp only
        by_cases h3 : current m p = .delete
        · simp only [h3, if_true]; exact hx
        · simp only [h3, if_false]
          exact parseList_always I h ch _ _ _ hx
theorem parseList_always {σ : Type} {cb : List Anc → Nat → Op → σ → Res σ} (I : σ → Prop) (h : ∀ path v op s, I s → Always I (cb path v op s)) :
    ∀ (ts : List Tree) (p : Op) (path : List Anc) (s : σ), I s → Always I (parseList cb p path s ts)
  | [], _, _, _, hi => hi
  | t :: ts, p, path, s, hi => by
    have hx := parse_always I h t p path s hi
    simp only [parseList]
    cases hc : parse cb p path s t with
    | fail y => rw [hc] at hx; exact hx
    | ub => trivial
    | ok y => rw [hc] at hx; exact parseList_always I h ts p path y hx
end

/-- Sockets are those from before, without the one of the endpoint, and the one of the endpoint now. -/
def Loc (s s' : St) : Prop := ∀ x ∈ s'.2.socks, (x ∈ s.2.socks ∧ some x.fd ≠ s.1.sock) ∨ s'.1.sock = some x.fd

theorem loc_same (s s' : St) (h1 : s'.1.sock = s.1.sock) (h2 : s'.2 = s.2) : Loc s s' := by
  intro x hx
  rw [h2] at hx
  by_cases h : some x.fd = s.1.sock
  · exact .inr (h1.trans h.symm)
  · exact .inl ⟨hx, h⟩

theorem close_loc (n n' : Net) (f : Option Nat) (h : closeSock n f = some n') : n'.next = n.next ∧ ∀ x ∈ n'.socks, x ∈ n.socks ∧ some x.fd ≠ f := by
  cases f with
  | none => simp only [closeSock, Option.some.injEq] at h; subst h; exact ⟨rfl, fun x hx => ⟨hx, by simp⟩⟩
  | some g =>
    simp only [closeSock] at h
    split at h
    · simp only [Option.some.injEq] at h
      subst h
      exact ⟨rfl, fun x hx => by simpa [List.mem_filter] using hx⟩
    · cases h

theorem sap_loc (env : Env) (address : Option Nat) (port : Nat) (s : St) : Always (Loc s) (setAddressPort env address port s) := by
  simp only [setAddressPort]
  generalize (if address.isSome then s.1.port else port) = q
  split
  · trivial
  · split
    · trivial
    · exact loc_same s s rfl rfl
    · split
      · exact loc_same s s rfl rfl
      · split
        · cases hc : closeSock s.2 s.1.sock with
          | none => trivial
          | some n =>
            have := (close_loc s.2 n s.1.sock hc).2
            have hl : ∀ y : List Sock, y = n.socks → ∀ (a : Nat) (x : Sock), x ∈ y ++ [⟨n.next, a, q⟩] →
                (x ∈ s.2.socks ∧ some x.fd ≠ s.1.sock) ∨ some n.next = some x.fd := by
              rintro y rfl a x hx
              rcases List.mem_append.mp hx with hx | hx
              · exact .inl (this x hx)
              · simp only [List.mem_singleton] at hx; subst hx; exact .inr rfl
            dsimp only
            split
            · exact fun x hx => hl _ rfl _ x hx
            · exact fun x hx => hl _ rfl _ x hx
        · exact loc_same s s rfl rfl

theorem delOpts_loc (t : Ti) (s : St) : Always (fun s' => s'.1.name = s.1.name ∧ ∀ x ∈ s'.2.socks, x ∈ s.2.socks ∧ some x.fd ≠ s.1.sock) (delOpts t s) := by
  simp only [delOpts]
  split
  · trivial
  · split
    · trivial
    · rename_i n hc
      split
      · exact ⟨rfl, (close_loc _ _ _ hc).2⟩
      · trivial

theorem always_mono {σ : Type} (I J : σ → Prop) (r : Res σ) (h : Always I r) (hij : ∀ s, I s → J s) : Always J r := by
  cases r with
  | ok s => exact hij s h
  | fail s => exact hij s h
  | ub => trivial

theorem endptCb_loc (env : Env) (path : List Anc) (v : Nat) (op : Op) (s : St) : Always (Loc s) (endptCb env path v op s) := by
  have ht : ∀ t, Always (Loc s) (transport t op s) := by
    intro t
    simp only [transport]
    split
    · exact loc_same _ _ rfl rfl
    · split
      · exact always_mono _ _ _ (delOpts_loc t s) (fun s' h x hx => .inl (h.2 x hx))
      · exact loc_same _ _ rfl rfl
  simp only [endptCb]
  split
  · exact ht _
  · exact ht _
  · split
    · simp only [localAddress]
      split
      · trivial
      · exact sap_loc env _ _ ({ s.1 with addr := .str v }, s.2)
    · exact loc_same _ _ rfl rfl
  · split
    · exact sap_loc env _ _ ({ s.1 with port := if setting op then v else 0 }, s.2)
    · exact loc_same _ _ rfl rfl
  all_goals first
    | (split <;> exact loc_same _ _ rfl rfl)
    | exact loc_same _ _ rfl rfl

theorem swapDel_mem (l : List Endpt) (i : Nat) (a : Endpt) (hi : l[i]? = some a) (y : Endpt) (hy : y ∈ l) (hne : y ≠ a) : y ∈ swapDel l i := by
  have hlt : i < l.length := by
    rcases Nat.lt_or_ge i l.length with hc | hc
    · exact hc
    · rw [List.getElem?_eq_none hc] at hi; cases hi
  have hget : l[i] = a := by rw [List.getElem?_eq_getElem hlt] at hi; exact Option.some.inj hi
  have hp := swapDel_perm l i hlt
  rw [hget] at hp
  rcases List.mem_cons.mp (hp.mem_iff.mpr hy) with h | h
  · exact absurd h hne
  · exact h

theorem srvCb_owned (env : Env) (path : List Anc) (v : Nat) (op : Op) (s : Srv) (h : Owned s) : Always Owned (srvCb env path v op s) := by
  simp only [srvCb]
  split
  · simp only [endpoint]
    split
    · split
      · intro x hx
        obtain ⟨e, e1, e2⟩ := h x hx
        exact ⟨e, List.mem_append_left _ e1, e2⟩
      · exact h
      · trivial
    · split
      · split
        · exact h
        · rename_i i _
          split
          · exact h
          · rename_i e he
            simp only [delEndpt]
            split
            · exact h
            · rename_i t _
              have hd := delOpts_loc t (e, s.net)
              cases hc : delOpts t (e, s.net) with
              | ub => trivial
              | fail y => exact h
              | ok y =>
                rw [hc] at hd
                intro x hx
                obtain ⟨h1, h2⟩ := hd.2 x hx
                obtain ⟨z, z1, z2⟩ := h x h1
                exact ⟨z, swapDel_mem _ i e he z z1 (by rintro rfl; exact h2 z2.symm), z2⟩
      · exact h
  · exact h
  · split
    · simp only [withEndpt]
      split
      · exact h
      · rename_i i _
        split
        · exact h
        · rename_i e he
          have hl := endptCb_loc env path v op (e, s.net)
          have key : ∀ y : St, Loc (e, s.net) y → Owned (put s i y) := by
            intro y hy x hx
            rcases hy x hx with ⟨h1, h2⟩ | h1
            · obtain ⟨z, z1, z2⟩ := h x h1
              exact ⟨z, (set_mem s.endpts i e y.1 he z).mpr (.inr (swapDel_mem _ i e he z z1 (by rintro rfl; exact h2 z2.symm))), z2⟩
            · exact ⟨y.1, (set_mem s.endpts i e y.1 he y.1).mpr (.inl rfl), h1⟩
          cases hc : endptCb env path v op (e, s.net) with
          | ub => trivial
          | fail y => rw [hc] at hl; exact key y hl
          | ok y => rw [hc] at hl; exact key y hl
    · exact h
  · exact h

theorem diffs_owned (env : Env) (ts : List Tree) : ∀ s, Owned s → Always Owned (diffs env ts s) := by
  induction ts with
  | nil => intro s h; exact h
  | cons t ts ih =>
    intro s h
    have hx := parse_always Owned (srvCb_owned env) t .unknown [] s h
    simp only [diffs]
    cases hc : parse (srvCb env) .unknown [] s t with
    | ok s1 => rw [hc] at hx; exact ih s1 hx
    | fail s1 => rw [hc] at hx; exact hx
    | ub => trivial

theorem run_owned (env : Env) (t : Tree) (ts : List Tree) : Always Owned (run env t ts) := by
  have hx := parse_always Owned (srvCb_owned env) t .create [] start (by intro x hx; cases hx)
  simp only [run]
  cases hc : parse (srvCb env) .create [] start t with
  | ok s1 => rw [hc] at hx; exact diffs_owned env ts s1 hx
  | fail s1 => rw [hc] at hx; exact hx
  | ub => trivial

end Verif.ConfEndpt
