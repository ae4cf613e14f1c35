import Verif.Lemmas.ConfEndpt

/-!
# Properties: the server listens where it is configured to
-/

namespace Verif.Props
open Verif.ConfTree (Op Meta)
open Verif.ConfStore
open Verif.ConfEndpt

/-- Everything is granted, no assertions are checked, for the examples. -/
def openEnv : Env := ⟨fun _ _ _ => true, false⟩

/-- Address 0 stands for all addresses, for the examples: two sockets cannot listen on the same port at the same address. -/
def linuxEnv : Env := ⟨fun l a p => l.all (fun x => !(x.port == p && (x.addr == a || x.addr == 0 || a == 0))), false⟩

/-! ## Listening -/

/-- **C136.** Full statement (false, see `listens_where_configured_false`): whatever data were set up and whatever diffs that fit them were
applied afterwards, the server listens at the configured addresses and ports, and nowhere else, if the operating system lets it. -/
def ListensWhereConfigured (env : Env) : Prop :=
  ∀ (d : ListenData) (ds : List ListenDiff) (c0 c : ListenConf), d.conf = some c0 → patchListenAll c0 ds = some c →
    ∃ s, run env d.tree (ds.map listenTree) = .ok s ∧ ListenAs s c.endpts

/-- **C136.** Proved for all diffs that neither change the transport of an endpoint nor remove a port: if the operating system lets the
server listen, it does as configured. -/
theorem listens_where_configured_partial (env : Env) (hg : grants env) (d : ListenData) (ds : List ListenDiff) (c0 c : ListenConf)
    (h0 : d.conf = some c0) (hd : ∀ x ∈ ds, noLost x) (h : patchListenAll c0 ds = some c) :
    ∃ s, run env d.tree (ds.map listenTree) = .ok s ∧ ListenAs s c.endpts := by
  obtain ⟨s, h1, h2⟩ := run_ok env hg false d ds c0 c h0 (fun x hx => okDiff_false x (hd x hx)) h
  exact ⟨s, h1, listenAs_of_inv false s _ h2.1⟩

/-- **C136.** Whatever the operating system answers: if the data and the diffs are reported to be applied, the server listens as configured. -/
theorem applied_listens_partial (env : Env) (d : ListenData) (ds : List ListenDiff) (c0 c : ListenConf) (h0 : d.conf = some c0)
    (hd : ∀ x ∈ ds, noLost x) (h : patchListenAll c0 ds = some c) (s : Srv) (hr : run env d.tree (ds.map listenTree) = .ok s) :
    ListenAs s c.endpts :=
  listenAs_of_inv false s _ (run_inv env false d ds c0 c h0 (fun x hx => okDiff_false x (hd x hx)) h s hr).1

/-- An SSH endpoint 1 at address 5 with the default port and a TLS endpoint 2 at address 6, port 7000. -/
def endptSample : ListenData := ⟨some 600, [(1, ⟨.ssh, 5, none, ⟨none, none, none⟩⟩), (2, ⟨.tls, 6, some 7000, ⟨some 60, none, some 5⟩⟩)]⟩

/-- Endpoint 2 moves to address 7 and port 7001, the port of endpoint 1 is given, a third endpoint is added; then the first one is removed. -/
def endptDiffs : List ListenDiff :=
  [⟨.replace 300, [.change 2 (.params .tls (some 7) (.replace 7001) (.leaves .keep (.create 3) (.delete 5))),
     .change 1 (.params .ssh none (.create 8300) .keep), .create 3 ⟨.ssh, 5, none, ⟨none, none, none⟩⟩]⟩,
   ⟨.delete 300, [.delete 1 []]⟩]

example : endptSample.conf.isSome = true ∧ (endptSample.conf.bind (fun c => patchListenAll c endptDiffs)).isSome = true := by
  constructor <;> rfl

example : run linuxEnv endptSample.tree [] =
    .ok ⟨[⟨1, some .ssh, .live .ssh, .str 5, 830, some 0, ⟨true, 7200, 9, 75⟩⟩, ⟨2, some .tls, .live .tls, .str 6, 7000, some 1, ⟨true, 60, 9, 5⟩⟩],
      ⟨[⟨0, 5, 830⟩, ⟨1, 6, 7000⟩], 2⟩, 600⟩ := by decide +kernel

example : run linuxEnv endptSample.tree (endptDiffs.map listenTree) =
    .ok ⟨[⟨3, some .ssh, .live .ssh, .str 5, 830, some 5, ⟨true, 7200, 9, 75⟩⟩, ⟨2, some .tls, .live .tls, .str 7, 7001, some 3, ⟨true, 60, 3, 75⟩⟩],
      ⟨[⟨3, 7, 7001⟩, ⟨5, 5, 830⟩], 6⟩, 180⟩ := by decide +kernel

/-! ## Changes that are not followed -/

/-- **C136.** Whatever was configured before and whatever the operating system answers: a diff that gives an endpoint the other transport is
never applied, ... -/
theorem transport_change_fails (env : Env) (d : ListenData) (ds : List ListenDiff) (c0 c : ListenConf) (h0 : d.conf = some c0)
    (hd : ∀ x ∈ ds, noLost x) (h : patchListenAll c0 ds = some c) (k : Nat) (y z : EndptConf) (hk : c.endpts k = some y)
    (t : Ti) (r : List Tree) (first : Bool) (hz : y.change (.switch t r z first) = some z) (es : List EndptEdit) (s : Srv) :
    run env d.tree ((ds ++ [endptsDiff (.change k (.switch t r z first) :: es)]).map listenTree) ≠ .ok s := by
  intro hr
  have hm := run_mono env _ _ _ hr
  obtain ⟨s1, p1, p2⟩ := run_ok (granting env) (granting_grants env) false d ds c0 c h0 (fun x hx => okDiff_false x (hd x hx)) h
  obtain ⟨path, hp⟩ := run_then (granting env) d ds s1 p1 c p2.2 (.change k (.switch t r z first) :: es)
  obtain ⟨i, e, f, h1, h2, h3, h4, h5, h6⟩ := inv_up false s1 _ p2.1 k y hk
  have hu := switch_ub (granting env) (granting_grants env) (⟨.endpoint, some k⟩ :: path) e s1.net y z f h6 h5.2.2.2.2.1 t r z first hz
  rw [hp] at hm
  simp only [List.map_cons, parseList, change_part (granting env) .none path s1 k i e _ h1 h2 h3, hu, mapRes] at hm
  cases hm

/-- ... and if the operating system lets the server listen, freed memory is used (src/server_config.c:638-667, 1224-1241). -/
theorem transport_change_ub (env : Env) (hg : grants env) (d : ListenData) (ds : List ListenDiff) (c0 c : ListenConf) (h0 : d.conf = some c0)
    (hd : ∀ x ∈ ds, noLost x) (h : patchListenAll c0 ds = some c) (k : Nat) (y z : EndptConf) (hk : c.endpts k = some y)
    (t : Ti) (r : List Tree) (first : Bool) (hz : y.change (.switch t r z first) = some z) (es : List EndptEdit) :
    run env d.tree ((ds ++ [endptsDiff (.change k (.switch t r z first) :: es)]).map listenTree) = .ub := by
  obtain ⟨s1, p1, p2⟩ := run_ok env hg false d ds c0 c h0 (fun x hx => okDiff_false x (hd x hx)) h
  obtain ⟨path, hp⟩ := run_then env d ds s1 p1 c p2.2 (.change k (.switch t r z first) :: es)
  obtain ⟨i, e, f, h1, h2, h3, h4, h5, h6⟩ := inv_up false s1 _ p2.1 k y hk
  have hu := switch_ub env hg (⟨.endpoint, some k⟩ :: path) e s1.net y z f h6 h5.2.2.2.2.1 t r z first hz
  rw [hp]
  simp only [List.map_cons, parseList, change_part env .none path s1 k i e _ h1 h2 h3, hu, mapRes]

/-- TLS instead of SSH for the endpoint 1. -/
def toTls : ListenDiff := ⟨.keep, [.change 1 (.switch .ssh [] ⟨.tls, 5, none, ⟨none, none, none⟩⟩ true)]⟩

example : (endptSample.conf.bind (fun c => patchListenAll c [toTls])).isSome = true ∧ run openEnv endptSample.tree [listenTree toTls] = .ub := by
  constructor
  · rfl
  · decide +kernel

/-- **C136, false in general** (for any operating system): see `transport_change_fails`. -/
theorem listens_where_configured_false (env : Env) : ¬ ListensWhereConfigured env := by
  intro h
  obtain ⟨s, h1, _⟩ := h endptSample [toTls] _ _ rfl rfl
  exact transport_change_fails env endptSample [] _ _ rfl (fun _ hx => by cases hx) rfl 1 _ ⟨.tls, 5, none, ⟨none, none, none⟩⟩ rfl .ssh [] true rfl [] s h1

/-- **C136.** A port removed from the configuration of an endpoint: with assertions the server is aborted, without them the diff is applied
but the server goes on listening on the port instead of the default one. -/
theorem removed_port_stays (env : Env) (hg : grants env) (d : ListenData) (ds : List ListenDiff) (c0 c : ListenConf) (h0 : d.conf = some c0)
    (hd : ∀ x ∈ ds, noLost x) (h : patchListenAll c0 ds = some c) (k : Nat) (y : EndptConf) (hk : c.endpts k = some y) (v : Nat)
    (hv : y.port = some v) (hw : v ≠ y.ti.defaultPort) :
    ∃ c', patchListenAll c0 (ds ++ [endptsDiff [.change k (.params y.ti none (.delete v) .keep)]]) = some c' ∧
      c'.endpts k = some { y with port := none } ∧
      (env.debug = true → run env d.tree ((ds ++ [endptsDiff [.change k (.params y.ti none (.delete v) .keep)]]).map listenTree) = .ub) ∧
      (env.debug = false → ∃ s e f, run env d.tree ((ds ++ [endptsDiff [.change k (.params y.ti none (.delete v) .keep)]]).map listenTree) = .ok s ∧
        e ∈ s.endpts ∧ e.name = k ∧ e.sock = some f ∧ ⟨f, y.addr, v⟩ ∈ s.net.socks ∧ ¬ ListenAs s c'.endpts) := by
  obtain ⟨s1, p1, p2⟩ := run_ok env hg false d ds c0 c h0 (fun x hx => okDiff_false x (hd x hx)) h
  obtain ⟨path, hp⟩ := run_then env d ds s1 p1 c p2.2 [.change k (.params y.ti none (.delete v) .keep)]
  obtain ⟨i, e, f, h1, h2, h3, h4, h5, h6⟩ := inv_up false s1 _ p2.1 k y hk
  have hz : y.change (.params y.ti none (.delete v) .keep) = some { y with port := none } := by
    have : y.ti.defaultPort ≠ 0 := by cases y.ti <;> decide
    simp [EndptConf.change, LeafEdit.apply, hv, KaConf.change, EndptConf.valid, EndptConf.effPort, this]
  have hpar := port_del env (some v) (⟨y.ti.label, some 0⟩ :: ⟨.endpoint, some k⟩ :: path) e s1.net y.addr v h6.2.2.1
  have hq : parseList (endptCb env) .none (⟨.endpoint, some k⟩ :: path) (e, s1.net) (EndptChange.params y.ti none (.delete v) .keep).trees =
      if env.debug = true then .ub else .ok ({ e with port := 0 }, s1.net) := by
    simp only [EndptChange.trees, replaced, leafTree, KaEdit.trees, List.nil_append, List.append_nil, parseList]
    rw [parse_none _ _ _ _ _ _ _ _ rfl]
    simp only [parseList]
    rw [parse_none _ _ _ _ _ _ _ _ rfl]
    simp only [tcpPath, parseList] at hpar
    simp only [leaf, List.head?_cons, Option.map_some, Tree.val] at hpar ⊢
    simp only [parseList] at hpar ⊢
    generalize parse (endptCb env) Op.none _ (e, s1.net) (Tree.node Label.localPort v Meta.delete []) = q at hpar ⊢
    cases q with
    | ok x => simpa using hpar
    | fail x => simpa using hpar
    | ub => simpa using hpar
  refine ⟨⟨c.idle, upd c.endpts k (some { y with port := none })⟩, ?_, by simp [upd], ?_, ?_⟩
  · have happ : ∀ (l : List ListenDiff) (a b : ListenConf) (x : ListenDiff), patchListenAll a l = some b → patchListenAll a (l ++ [x]) = patchListen b x := by
      intro l
      induction l with
      | nil =>
        intro a b x hab
        simp only [patchListenAll, Option.some.injEq] at hab
        subst hab
        simp only [List.nil_append, patchListenAll]
        cases patchListen a x <;> rfl
      | cons u l ih =>
        intro a b x hab
        simp only [patchListenAll, List.cons_append] at hab ⊢
        cases hu : patchListen a u with
        | none => rw [hu] at hab; cases hab
        | some a1 => rw [hu] at hab; exact ih a1 b x hab
    rw [happ ds c0 c _ h]
    simp only [patchListen, endptsDiff, LeafEdit.apply, patchAll, patch, hk, hz]
    rfl
  · intro hdb
    rw [hp]
    simp only [List.map_cons, List.map_nil, parseList, change_part env .none path s1 k i e _ h1 h2 h3, hq, hdb, if_true, mapRes]
  · intro hdb
    obtain ⟨u1, u2, u3, u4, u5, u6⟩ := h6
    have hmem : ({ e with port := 0 } : Endpt) ∈ (put s1 i ({ e with port := 0 }, s1.net)).endpts :=
      (set_mem s1.endpts i e _ h2 _).mpr (.inl rfl)
    have hef : y.effPort = v := by simp [EndptConf.effPort, hv]
    refine ⟨put s1 i ({ e with port := 0 }, s1.net), { e with port := 0 }, f, ?_, hmem, h3, u5, hef ▸ u6, ?_⟩
    · rw [hp]
      simp only [List.map_cons, List.map_nil, parseList, change_part env .none path s1 k i e _ h1 h2 h3, hq, hdb, Bool.false_eq_true, if_false, mapRes]
    · rintro ⟨n1, n2, n3, n4⟩
      have hk2 := n2 k
      simp only [upd, if_true] at hk2
      cases hf : (put s1 i ({ e with port := 0 }, s1.net)).endpts.find? (fun e => e.name == k) with
      | none => rw [hf] at hk2; exact hk2.elim
      | some e2 =>
        rw [hf] at hk2
        obtain ⟨_, _, f2, g1, g2, g3⟩ := hk2
        have hn2 : e2.name = k := by have := List.find?_some hf; simpa using this
        have heq : ({ e with port := 0 } : Endpt) = e2 := by
          have ha := find_unique Endpt.name _ n1 _ hmem
          have hb := hf
          rw [← h3] at hb
          exact (Option.some.inj (hb.symm.trans ha)).symm
        rw [← heq, show ({ e with port := 0 } : Endpt).sock = e.sock from rfl, u5] at g1
        cases g1
        have := g3 _ u6 rfl
        simp only [Sock.mk.injEq, true_and] at this
        rw [hef] at this
        exact hw this

/-- The port of the endpoint 2 is removed. -/
def portGone : ListenDiff := ⟨.keep, [.change 2 (.params .tls none (.delete 7000) .keep)]⟩

example : run openEnv endptSample.tree [listenTree portGone] =
    .ok ⟨[⟨1, some .ssh, .live .ssh, .str 5, 830, some 0, ⟨true, 7200, 9, 75⟩⟩, ⟨2, some .tls, .live .tls, .str 6, 0, some 1, ⟨true, 60, 9, 5⟩⟩],
      ⟨[⟨0, 5, 830⟩, ⟨1, 6, 7000⟩], 2⟩, 600⟩ := by decide +kernel

/-! ## Conflicts with sockets about to be closed -/

/-- **C136.** The new socket of an endpoint is opened before the old one is closed: where the operating system does not let two sockets
listen at the old and the new address with the same port (one of them being the wildcard), no diff with this change is applied. -/
theorem overlapping_address_fails (env : Env) (d : ListenData) (ds : List ListenDiff) (c0 c : ListenConf) (h0 : d.conf = some c0)
    (hd : ∀ x ∈ ds, noLost x) (h : patchListenAll c0 ds = some c) (s : Srv) (hr : run env d.tree (ds.map listenTree) = .ok s)
    (k : Nat) (y : EndptConf) (hk : c.endpts k = some y) (a : Nat)
    (hos : ∀ l, (∃ x ∈ l, x.addr = y.addr ∧ x.port = y.effPort) → env.os l a y.effPort = false) (p : LeafEdit) (ka : KaEdit) (es : List EndptEdit) :
    ∃ s', run env d.tree ((ds ++ [endptsDiff (.change k (.params y.ti (some a) p ka) :: es)]).map listenTree) = .fail s' := by
  have p2 := run_inv env false d ds c0 c h0 (fun x hx => okDiff_false x (hd x hx)) h s hr
  obtain ⟨path, hp⟩ := run_then env d ds s hr c p2.2 (.change k (.params y.ti (some a) p ka) :: es)
  obtain ⟨i, e, f, h1, h2, h3, h4, h5, h6⟩ := inv_up false s _ p2.1 k y hk
  obtain ⟨x, hx⟩ := addr_refused env (⟨.endpoint, some k⟩ :: path) e s.net y f h6 h5.2.2.2.2.1 a (hos _ ⟨_, h6.2.2.2.2.2, rfl, rfl⟩) p ka
  refine ⟨put s i x, ?_⟩
  rw [hp]
  simp only [List.map_cons, parseList, change_part env .none path s k i e _ h1 h2 h3, hx, mapRes]

/-- The endpoint 1 listens at all addresses now. -/
def toAll : ListenDiff := ⟨.keep, [.change 1 (.params .ssh (some 0) .keep .keep)]⟩

example : run linuxEnv endptSample.tree [listenTree toAll] =
    .fail ⟨[⟨1, some .ssh, .live .ssh, .str 0, 830, some 0, ⟨true, 7200, 9, 75⟩⟩, ⟨2, some .tls, .live .tls, .str 6, 7000, some 1, ⟨true, 60, 9, 5⟩⟩],
      ⟨[⟨0, 5, 830⟩, ⟨1, 6, 7000⟩], 2⟩, 600⟩ := by decide +kernel

/-- The server can be set up with the configuration this leads to. -/
example : run linuxEnv (ListenData.tree ⟨some 600, [(1, ⟨.ssh, 0, none, ⟨none, none, none⟩⟩), (2, ⟨.tls, 6, some 7000, ⟨some 60, none, some 5⟩⟩)]⟩) [] =
    .ok ⟨[⟨1, some .ssh, .live .ssh, .str 0, 830, some 0, ⟨true, 7200, 9, 75⟩⟩, ⟨2, some .tls, .live .tls, .str 6, 7000, some 1, ⟨true, 60, 9, 5⟩⟩],
      ⟨[⟨0, 0, 830⟩, ⟨1, 6, 7000⟩], 2⟩, 600⟩ := by decide +kernel

/-- **C136.** An endpoint cannot take the port of another one at the same address, even if the same diff moves or removes the other one
afterwards. -/
theorem taken_port_fails (env : Env) (d : ListenData) (ds : List ListenDiff) (c0 c : ListenConf) (h0 : d.conf = some c0)
    (hd : ∀ x ∈ ds, noLost x) (h : patchListenAll c0 ds = some c) (s : Srv) (hr : run env d.tree (ds.map listenTree) = .ok s)
    (k k2 : Nat) (y y2 : EndptConf) (hk : c.endpts k = some y) (hk2 : c.endpts k2 = some y2) (ha : y.addr = y2.addr)
    (hos : ∀ l, (∃ x ∈ l, x.addr = y2.addr ∧ x.port = y2.effPort) → env.os l y2.addr y2.effPort = false) (p : LeafEdit)
    (hp : p = .create y2.effPort ∨ p = .replace y2.effPort) (ka : KaEdit) (es : List EndptEdit) :
    ∃ s', run env d.tree ((ds ++ [endptsDiff (.change k (.params y.ti none p ka) :: es)]).map listenTree) = .fail s' := by
  have p2 := run_inv env false d ds c0 c h0 (fun x hx => okDiff_false x (hd x hx)) h s hr
  obtain ⟨path, hpt⟩ := run_then env d ds s hr c p2.2 (.change k (.params y.ti none p ka) :: es)
  obtain ⟨i, e, f, h1, h2, h3, h4, h5, h6⟩ := inv_up false s _ p2.1 k y hk
  obtain ⟨_, _, _, _, _, _, _, h5', h6'⟩ := inv_up false s _ p2.1 k2 y2 hk2
  obtain ⟨x, hx⟩ := port_refused env (⟨.endpoint, some k⟩ :: path) e s.net y f h6 y2.effPort h5'.2.2.2.2.1
    (by rw [ha]; exact hos _ ⟨_, h6'.2.2.2.2.2, rfl, rfl⟩) p hp ka
  refine ⟨put s i x, ?_⟩
  rw [hpt]
  simp only [List.map_cons, parseList, change_part env .none path s k i e _ h1 h2 h3, hx, mapRes]

/-- Two endpoints at one address that exchange their ports. -/
def swapSample : ListenData := ⟨none, [(1, ⟨.ssh, 5, some 10, ⟨none, none, none⟩⟩), (2, ⟨.ssh, 5, some 11, ⟨none, none, none⟩⟩)]⟩

/-- The exchange. -/
def swapDiff : ListenDiff := ⟨.keep, [.change 1 (.params .ssh none (.replace 11) .keep), .change 2 (.params .ssh none (.replace 10) .keep)]⟩

example : (swapSample.conf.bind (fun c => patchListenAll c [swapDiff])).isSome = true := rfl

example : run linuxEnv swapSample.tree [listenTree swapDiff] =
    .fail ⟨[⟨1, some .ssh, .live .ssh, .str 5, 11, some 0, ⟨true, 7200, 9, 75⟩⟩, ⟨2, some .ssh, .live .ssh, .str 5, 11, some 1, ⟨true, 7200, 9, 75⟩⟩],
      ⟨[⟨0, 5, 10⟩, ⟨1, 5, 11⟩], 2⟩, 180⟩ := by decide +kernel

/-! ## Keepalives, idle timeout -/

/-- **C137.** Full statement (false, see `keepalives_follow_false`): keepalives of all endpoints and the idle timeout are as configured. -/
def KeepalivesFollow (env : Env) : Prop :=
  ∀ (d : ListenData) (ds : List ListenDiff) (c0 c : ListenConf), d.conf = some c0 → (∀ x ∈ ds, noLost x) → patchListenAll c0 ds = some c →
    ∀ s, run env d.tree (ds.map listenTree) = .ok s →
    s.idle = c.idle.getD 180 ∧ ∀ k, OptRel (fun e y => KaAs e.ka y.ka) (s.endpts.find? (fun e => e.name == k)) (c.endpts k)

/-- **C137.** Proved for all diffs that do not remove keepalives from the configuration, whatever the operating system answers. -/
theorem keepalives_follow_partial (env : Env) (d : ListenData) (ds : List ListenDiff) (c0 c : ListenConf) (h0 : d.conf = some c0)
    (hd : ∀ x ∈ ds, noLost x) (hka : ∀ x ∈ ds, keepsKa x) (h : patchListenAll c0 ds = some c) (s : Srv)
    (hr : run env d.tree (ds.map listenTree) = .ok s) :
    s.idle = c.idle.getD 180 ∧ ∀ k, OptRel (fun e y => KaAs e.ka y.ka) (s.endpts.find? (fun e => e.name == k)) (c.endpts k) := by
  have p2 := run_inv env true d ds c0 c h0 (fun x hx => okDiff_true x (hd x hx) (hka x hx)) h s hr
  refine ⟨p2.2, fun k => ?_⟩
  have hx := p2.1.1.2 k
  cases hm : c.endpts k with
  | none => rw [hm] at hx; cases hf : s.endpts.find? (fun e => e.name == k) with
    | none => trivial
    | some e => rw [hf] at hx; exact hx.elim
  | some y => rw [hm] at hx; cases hf : s.endpts.find? (fun e => e.name == k) with
    | none => rw [hf] at hx; exact hx.elim
    | some e => rw [hf] at hx; exact hx.2.2.2.2.2 rfl

/-- **C137.** The idle timeout follows the configuration also when keepalives are removed. -/
theorem idle_timeout_follows (env : Env) (d : ListenData) (ds : List ListenDiff) (c0 c : ListenConf) (h0 : d.conf = some c0)
    (hd : ∀ x ∈ ds, noLost x) (h : patchListenAll c0 ds = some c) (s : Srv) (hr : run env d.tree (ds.map listenTree) = .ok s) :
    s.idle = c.idle.getD 180 :=
  (run_inv env false d ds c0 c h0 (fun x hx => okDiff_false x (hd x hx)) h s hr).2

/-- The leaves of the keepalives of the endpoint 2 are removed. -/
def kaGone : ListenDiff := ⟨.keep, [.change 2 (.params .tls none .keep (.delete []))]⟩

/-- **C137, false in general.** Without leaves the keepalives have their defaults, but the server stops sending them (with the old values). -/
theorem keepalives_follow_false : ¬ KeepalivesFollow openEnv := by
  intro h
  have hd : ∀ x ∈ [kaGone], noLost x := by
    intro x hx k e he
    simp only [List.mem_singleton] at hx
    subst hx
    simp only [kaGone, List.mem_singleton, Edit.change.injEq] at he
    rw [he.2]
    rfl
  obtain ⟨_, h2⟩ := h endptSample [kaGone] _ _ rfl hd rfl
    ⟨[⟨1, some .ssh, .live .ssh, .str 5, 830, some 0, ⟨true, 7200, 9, 75⟩⟩, ⟨2, some .tls, .live .tls, .str 6, 7000, some 1, ⟨false, 60, 9, 5⟩⟩],
      ⟨[⟨0, 5, 830⟩, ⟨1, 6, 7000⟩], 2⟩, 600⟩ (by decide +kernel)
  have h3 := h2 2
  have : (false : Bool) = true := h3.1
  cases this

/-- What the server does depends on the history: set up with the configuration this leads to, it sends keepalives. -/
example : run openEnv (ListenData.tree ⟨some 600, [(1, ⟨.ssh, 5, none, ⟨none, none, none⟩⟩), (2, ⟨.tls, 6, some 7000, ⟨none, none, none⟩⟩)]⟩) [] =
    .ok ⟨[⟨1, some .ssh, .live .ssh, .str 5, 830, some 0, ⟨true, 7200, 9, 75⟩⟩, ⟨2, some .tls, .live .tls, .str 6, 7000, some 1, ⟨true, 7200, 9, 75⟩⟩],
      ⟨[⟨0, 5, 830⟩, ⟨1, 6, 7000⟩], 2⟩, 600⟩ := by decide +kernel

/-! ## Sockets belong to endpoints -/

/-- **C138.** Whatever the data and diffs are, whatever the operating system answers, and whether they are applied or fail: every listening
socket belongs to an endpoint of the server, so clients that connect to it are served and it is closed with the endpoint. -/
theorem sockets_owned (env : Env) (t : Tree) (ts : List Tree) (s : Srv) (h : run env t ts = .ok s ∨ run env t ts = .fail s) : Owned s := by
  have hx := run_owned env t ts
  rcases h with h | h <;> rw [h] at hx <;> exact hx

/-- An exchange of ports that failed, then tried again. -/
example : run linuxEnv swapSample.tree [listenTree swapDiff, listenTree toAll] =
    .fail ⟨[⟨1, some .ssh, .live .ssh, .str 5, 11, some 0, ⟨true, 7200, 9, 75⟩⟩, ⟨2, some .ssh, .live .ssh, .str 5, 11, some 1, ⟨true, 7200, 9, 75⟩⟩],
      ⟨[⟨0, 5, 10⟩, ⟨1, 5, 11⟩], 2⟩, 180⟩ := by decide +kernel

end Verif.Props
