import Verif.Spec.ConfUse
import Verif.Props.ConfUtil2

/-!
# Lemmas: from configuration functions to the server
-/

namespace Verif.ConfUse
open Verif.ConfTree (Meta)
open Verif.ConfStore
open Verif.ConfEndpt (Ti EndptConf mkEndpt ListenData endptData transData kaData)
open Verif.ConfUtil (Text Path Seg Node Config Schema newPath found freeTree Closed Place Plain call place step_ok run_cons_ok newPath_some newPath_mem newPath_found
  newPath_keep newPath_closed freeTree_closed found_iff mem_freeTree mem_missing found_freeTree)
open Verif.Props (Holds holds_newPath holds_set holds_free)

/-! ## Calls -/

theorem wanted_nil (n : Text) : wanted [] n = none := rfl

theorem wanted_add (cs : List Call) (m n : Text) (t : Ti) (a : Text) (p : Nat) :
    wanted (cs ++ [.add m t a p]) n = if m = n then some (t, a, p) else wanted cs n := by
  simp only [wanted, List.reverse_append, List.reverse_cons, List.reverse_nil, List.nil_append, List.singleton_append, List.findSome?_cons]
  by_cases h : m = n <;> simp [h]

theorem wanted_del (cs : List Call) (m n : Text) : wanted (cs ++ [.del m]) n = if m = n then none else wanted cs n := by
  simp only [wanted, List.reverse_append, List.reverse_cons, List.reverse_nil, List.nil_append, List.singleton_append, List.findSome?_cons]
  by_cases h : m = n <;> simp [h]

/-! ## Paths -/

/-- The paths of the two leaves. -/
def adr (n : Text) (t : Ti) : Path := tcp n t ++ [seg t!"local-address"]
def prt (n : Text) (t : Ti) : Path := tcp n t ++ [seg t!"local-port"]

theorem tiSeg_inj {a b : Ti} (h : tiSeg a = tiSeg b) : a = b := by
  cases a <;> cases b <;> first | rfl | (exact absurd h (by decide))

theorem leaf_ne : seg t!"local-address" ≠ seg t!"local-port" := by decide

theorem ep_inj {a b : Text} (h : ep a = ep b) : a = b := by
  simpa [ep] using h

theorem adr_eq (n : Text) (t : Ti) : adr n t =
    [seg t!"ietf-netconf-server:netconf-server", seg t!"listen", seg t!"endpoints", ⟨t!"endpoint", [(t!"name", n)]⟩, tiSeg t,
      seg t!"tcp-server-parameters", seg t!"local-address"] := rfl

theorem prt_eq (n : Text) (t : Ti) : prt n t =
    [seg t!"ietf-netconf-server:netconf-server", seg t!"listen", seg t!"endpoints", ⟨t!"endpoint", [(t!"name", n)]⟩, tiSeg t,
      seg t!"tcp-server-parameters", seg t!"local-port"] := rfl

/-- The paths of an endpoint. -/
def own (n : Text) (t : Ti) : List Path := [ep n, ep n ++ [tiSeg t], tcp n t, adr n t, prt n t]

theorem prefix_take {q p : Path} (h : q <+: p) (hq : q ≠ []) : ∃ k, k < p.length ∧ q = p.take (k + 1) := by
  have h1 := h.length_le
  have h2 : 0 < q.length := List.length_pos_iff.mpr hq
  refine ⟨q.length - 1, by omega, ?_⟩
  rw [show q.length - 1 + 1 = q.length by omega]
  exact List.prefix_iff_eq_take.mp h

theorem prefix_leaf {q : Path} {n : Text} {t : Ti} (h : q <+: adr n t ∨ q <+: prt n t) (hq : q ≠ []) :
    (q <+: base) ∨ q ∈ own n t := by
  have key : ∀ p : Path, p = adr n t ∨ p = prt n t → ∀ k, k < p.length → p.take (k + 1) <+: base ∨ p.take (k + 1) ∈ own n t := by
    intro p hp k hk
    have hl : p.length = 7 := by rcases hp with rfl | rfl <;> rfl
    rw [hl] at hk
    match k, hk with
    | 0, _ => left; rcases hp with rfl | rfl <;> exact ⟨[seg t!"listen", seg t!"endpoints"], rfl⟩
    | 1, _ => left; rcases hp with rfl | rfl <;> exact ⟨[seg t!"endpoints"], rfl⟩
    | 2, _ => left; rcases hp with rfl | rfl <;> exact ⟨[], rfl⟩
    | 3, _ => right; rcases hp with rfl | rfl <;> exact .head _
    | 4, _ => right; rcases hp with rfl | rfl <;> exact .tail _ (.head _)
    | 5, _ => right; rcases hp with rfl | rfl <;> exact .tail _ (.tail _ (.head _))
    | 6, _ => right; rcases hp with rfl | rfl
              · exact .tail _ (.tail _ (.tail _ (.head _)))
              · exact .tail _ (.tail _ (.tail _ (.tail _ (.head _))))
  rcases h with h | h
  · obtain ⟨k, hk, rfl⟩ := prefix_take h hq
    exact key _ (.inl rfl) k hk
  · obtain ⟨k, hk, rfl⟩ := prefix_take h hq
    exact key _ (.inr rfl) k hk

theorem own_prefix {q : Path} {n : Text} {t : Ti} (h : q ∈ own n t) : ep n <+: q := by
  simp only [own, List.mem_cons, List.not_mem_nil, or_false] at h
  rcases h with rfl | rfl | rfl | rfl | rfl
  · exact List.prefix_refl _
  · exact ⟨_, rfl⟩
  · exact ⟨[tiSeg t, seg t!"tcp-server-parameters"], rfl⟩
  · exact ⟨[tiSeg t, seg t!"tcp-server-parameters", seg t!"local-address"], rfl⟩
  · exact ⟨[tiSeg t, seg t!"tcp-server-parameters", seg t!"local-port"], rfl⟩

theorem ep_prefix {m n : Text} {q : Path} (h1 : ep m <+: q) (h2 : ep n <+: q) : m = n := by
  have h : ep m = ep n := by
    rw [List.prefix_iff_eq_take.mp h1, List.prefix_iff_eq_take.mp h2]
    rfl
  exact ep_inj h

theorem base_short {q : Path} {n : Text} (h : q <+: base) : ¬ ep n <+: q := by
  intro h'
  have := h.length_le
  have h2 := h'.length_le
  have h3 : (ep n).length = 4 := rfl
  have h4 : base.length = 3 := rfl
  omega

/-! ## The data after a call -/

theorem add_steps {S : Schema} {cfg cfg' : Config} {n : Text} {t : Ti} {a : Text} {p : Nat} (hn : '\'' ∉ n)
    (h : (Call.add n t a p).run S cfg = (true, cfg')) :
    ∃ t1 t2, newPath S (cfg.getD []) (adr n t) (some a) = some t1 ∧ newPath S t1 (prt n t) (some (Nat.toDigits 10 p)) = some t2 ∧ cfg' = some t2 := by
  have hp : ∀ x ∈ [n], Plain x := by simpa [Plain] using hn
  cases t with
  | ssh =>
    obtain ⟨c, h1, h2⟩ := run_cons_ok h
    obtain ⟨c', h3, h4⟩ := run_cons_ok h2
    simp only [ConfUtil.run, Prod.mk.injEq, true_and] at h4
    subst h4
    have e1 : (ConfUtil.Op.create t!"/ietf-netconf-server:netconf-server/listen/endpoints/endpoint[name='%s']/ssh/tcp-server-parameters/local-address" (.arg 0)).place
        = some (ConfUtil.lis ++ [ConfUtil.node t!"ssh", ConfUtil.node t!"tcp-server-parameters", ConfUtil.node t!"local-address"]) := by decide +kernel
    have e2 : (ConfUtil.Op.create t!"/ietf-netconf-server:netconf-server/listen/endpoints/endpoint[name='%s']/ssh/tcp-server-parameters/local-port" (.arg 1)).place
        = some (ConfUtil.lis ++ [ConfUtil.node t!"ssh", ConfUtil.node t!"tcp-server-parameters", ConfUtil.node t!"local-port"]) := by decide +kernel
    rcases step_ok e1 ⟨by exact Nat.le_refl 1, hp⟩ h1 with ⟨_, _, v, t1, he, hv, rfl, hnp, _⟩ | ⟨_, _, he, ho, _⟩ | ⟨_, ⟨_, he⟩, _⟩ | ⟨_, _, he, _⟩
    · cases he
      cases hv
      rcases step_ok e2 ⟨by exact Nat.le_refl 1, hp⟩ h3 with ⟨_, _, v, t2, he, hv, rfl, hnp2, _⟩ | ⟨_, _, he, ho, _⟩ | ⟨_, ⟨_, he⟩, _⟩ | ⟨_, _, he, _⟩
      · cases he
        cases hv
        exact ⟨t1, t2, hnp, hnp2, rfl⟩
      · cases he; cases ho
      · rcases he with he | he <;> cases he
      · cases he
    · cases he; cases ho
    · rcases he with he | he <;> cases he
    · cases he
  | tls =>
    obtain ⟨c, h1, h2⟩ := run_cons_ok h
    obtain ⟨c', h3, h4⟩ := run_cons_ok h2
    simp only [ConfUtil.run, Prod.mk.injEq, true_and] at h4
    subst h4
    have e1 : (ConfUtil.Op.create t!"/ietf-netconf-server:netconf-server/listen/endpoints/endpoint[name='%s']/tls/tcp-server-parameters/local-address" (.arg 0)).place
        = some (ConfUtil.lis ++ [ConfUtil.node t!"tls", ConfUtil.node t!"tcp-server-parameters", ConfUtil.node t!"local-address"]) := by decide +kernel
    have e2 : (ConfUtil.Op.create t!"/ietf-netconf-server:netconf-server/listen/endpoints/endpoint[name='%s']/tls/tcp-server-parameters/local-port" (.arg 1)).place
        = some (ConfUtil.lis ++ [ConfUtil.node t!"tls", ConfUtil.node t!"tcp-server-parameters", ConfUtil.node t!"local-port"]) := by decide +kernel
    rcases step_ok e1 ⟨by exact Nat.le_refl 1, hp⟩ h1 with ⟨_, _, v, t1, he, hv, rfl, hnp, _⟩ | ⟨_, _, he, ho, _⟩ | ⟨_, ⟨_, he⟩, _⟩ | ⟨_, _, he, _⟩
    · cases he
      cases hv
      rcases step_ok e2 ⟨by exact Nat.le_refl 1, hp⟩ h3 with ⟨_, _, v, t2, he, hv, rfl, hnp2, _⟩ | ⟨_, _, he, ho, _⟩ | ⟨_, ⟨_, he⟩, _⟩ | ⟨_, _, he, _⟩
      · cases he
        cases hv
        exact ⟨t1, t2, hnp, hnp2, rfl⟩
      · cases he; cases ho
      · rcases he with he | he <;> cases he
      · cases he
    · cases he; cases ho
    · rcases he with he | he <;> cases he
    · cases he

theorem del_steps {S : Schema} {cfg cfg' : Config} {n : Text} (hn : '\'' ∉ n) (h : (Call.del n).run S cfg = (true, cfg')) :
    ∃ t, cfg = some t ∧ cfg' = some (freeTree t (ep n)) := by
  have hp : ∀ x ∈ [n], Plain x := by simpa [Plain] using hn
  obtain ⟨c, h1, h2⟩ := run_cons_ok h
  simp only [ConfUtil.run, Prod.mk.injEq, true_and] at h2
  subst h2
  have e1 : (ConfUtil.Op.delete t!"/ietf-netconf-server:netconf-server/listen/endpoints/endpoint[name='%s']").place = some ConfUtil.lis := by decide +kernel
  rcases step_ok e1 ⟨by exact Nat.le_refl 1, hp⟩ h1 with ⟨_, _, v, t1, he, _⟩ | ⟨_, _, he, _⟩ | ⟨t, _, rfl, _, rfl, _⟩ | ⟨_, _, he, _⟩
  · cases he
  · cases he
  · exact ⟨t, rfl, rfl⟩
  · cases he

/-! ## Calls that succeed -/

theorem create_some {S : Schema} (hv : ∀ p v, S.valid p v = true) {cfg : Config} {f : Text} {P : Place} {n : Text} {v : Text} (hP : place f = some P)
    (hl : ConfUtil.holes P ≤ 1) (hn : '\'' ∉ n) (ht : ConfUtil.top <+: P.at [n]) :
    ∃ t, ConfUtil.create S cfg (ConfUtil.fill f [n]) (some v) = (true, some t) := by
  have hp : ∀ x ∈ [n], Plain x := by simpa [Plain] using hn
  obtain ⟨t, hnp⟩ : ∃ t, newPath S (cfg.getD []) (P.at [n]) (some v) = some t := by
    unfold newPath; rw [if_pos (hv _ _)]; exact ⟨_, rfl⟩
  have hf : found t ConfUtil.top = true := (newPath_found hnp _).mpr (.inr ⟨by simp [ConfUtil.top], ht⟩)
  refine ⟨t, ?_⟩
  unfold ConfUtil.create
  rw [ConfUtil.parse_fill f P [n] hP hl hp]
  simp only [hnp, ConfUtil.setTop_found hf]

theorem add_some {S : Schema} (hv : ∀ p v, S.valid p v = true) (cfg : Config) {n : Text} (t : Ti) (a : Text) (p : Nat) (hn : '\'' ∉ n) :
    ∃ x, (Call.add n t a p).run S cfg = (true, some x) := by
  have key : ∀ (f g : Text) (P Q : Place), place f = some P → place g = some Q → ConfUtil.holes P ≤ 1 → ConfUtil.holes Q ≤ 1 →
      ConfUtil.top <+: P.at [n] → ConfUtil.top <+: Q.at [n] →
      ∃ x, ConfUtil.run S [n] [some a, some (Nat.toDigits 10 p)] [.create f (.arg 0), .create g (.arg 1)] cfg = (true, some x) := by
    intro f g P Q h1 h2 h3 h4 h5 h6
    obtain ⟨t1, e1⟩ := create_some hv (cfg := cfg) (v := a) h1 h3 hn h5
    obtain ⟨t2, e2⟩ := create_some hv (cfg := some t1) (v := Nat.toDigits 10 p) h2 h4 hn h6
    refine ⟨t2, ?_⟩
    simp only [ConfUtil.run, ConfUtil.step, List.getD_cons_zero, List.getD_cons_succ, e1, e2, if_true]
  cases t with
  | ssh =>
    exact key _ _ (ConfUtil.lis ++ [ConfUtil.node t!"ssh", ConfUtil.node t!"tcp-server-parameters", ConfUtil.node t!"local-address"])
      (ConfUtil.lis ++ [ConfUtil.node t!"ssh", ConfUtil.node t!"tcp-server-parameters", ConfUtil.node t!"local-port"])
      (by decide +kernel) (by decide +kernel) (by decide) (by decide) ⟨_, rfl⟩ ⟨_, rfl⟩
  | tls =>
    exact key _ _ (ConfUtil.lis ++ [ConfUtil.node t!"tls", ConfUtil.node t!"tcp-server-parameters", ConfUtil.node t!"local-address"])
      (ConfUtil.lis ++ [ConfUtil.node t!"tls", ConfUtil.node t!"tcp-server-parameters", ConfUtil.node t!"local-port"])
      (by decide +kernel) (by decide +kernel) (by decide) (by decide) ⟨_, rfl⟩ ⟨_, rfl⟩

theorem del_some {S : Schema} {t : List Node} {n : Text} (hn : '\'' ∉ n) (hf : found t (ep n) = true) (ht : found t ConfUtil.top = true) :
    (Call.del n).run S (some t) = (true, some (freeTree t (ep n))) := by
  have hp : ∀ x ∈ [n], Plain x := by simpa [Plain] using hn
  have e1 : place t!"/ietf-netconf-server:netconf-server/listen/endpoints/endpoint[name='%s']" = some ConfUtil.lis := by decide +kernel
  have e2 := ConfUtil.parse_fill _ _ [n] e1 (by exact Nat.le_refl 1) hp
  have e3 : ConfUtil.lis.at [n] = ep n := rfl
  have e4 : found (freeTree t (ep n)) ConfUtil.top = true := (found_freeTree _ _ _).mpr ⟨ht, fun h => by
    have := h.length_le
    exact absurd (show 4 ≤ 1 from this) (by decide)⟩
  simp only [Call.run, ConfUtil.call, ConfUtil.del_endpt, ConfUtil.run, ConfUtil.step, ConfUtil.delete, e2, e3, hf, if_true, ConfUtil.setTop_found e4]

/-! ## Invariant -/

/-- The data hold what is wanted and nothing else. -/
structure Inv (t : List Node) (m : Text → Option Want) : Prop where
  nodup : (t.map Node.path).Nodup
  only : ∀ x ∈ t, x.path <+: base ∨ ∃ n w, m n = some w ∧ x.path ∈ own n w.1
  closed : Closed t
  leaves : ∀ n w, m n = some w → Holds t (adr n w.1) w.2.1 ∧ Holds t (prt n w.1) (Nat.toDigits 10 w.2.2)

theorem newPath_nodup {S : Schema} {t t' : List Node} {p : Path} {v : Option Text} (h : newPath S t p v = some t') (hd : (t.map Node.path).Nodup) :
    (t'.map Node.path).Nodup := by
  have e : t'.map Node.path = (t ++ ConfUtil.missing t p).map Node.path := by
    rw [(newPath_some h).2, List.map_map]
    refine List.map_congr_left (fun x _ => ?_)
    simp only [Function.comp_apply]
    split <;> rfl
  rw [e, List.map_append, List.nodup_append]
  refine ⟨hd, ?_, ?_⟩
  · have hm : ((ConfUtil.missing t p).map Node.path).Sublist ((List.range p.length).map (fun i => p.take (i + 1))) := by
      rw [ConfUtil.missing, List.map_filterMap]
      generalize (List.range p.length).map (fun i => p.take (i + 1)) = l
      induction l with
      | nil => exact List.Sublist.slnil
      | cons q l ih =>
        rw [List.filterMap_cons]
        by_cases hq : (t.any fun n => n.path == q) = true
        · simp only [hq, if_true, Option.map_none]
          exact ih.cons _
        · simp only [hq, Bool.false_eq_true, if_false, Option.map_some]
          exact ih.cons_cons _
    refine hm.nodup ?_
    rw [List.nodup_iff_pairwise_ne, List.pairwise_map]
    refine List.Pairwise.imp_of_mem ?_ List.nodup_range
    intro a b ha hb hab he
    have := congrArg List.length he
    rw [List.length_take, List.length_take] at this
    have := List.mem_range.mp ha
    have := List.mem_range.mp hb
    omega
  · intro a ha b hb hab
    subst hab
    obtain ⟨x, hx, rfl⟩ := List.mem_map.mp ha
    obtain ⟨y, hy, hxy⟩ := List.mem_map.mp hb
    rw [mem_missing] at hy
    have : found t y.path = true := (found_iff _ _).mpr ⟨x, hx, hxy.symm⟩
    rw [hy.2.2.1] at this
    cases this

theorem newPath_prefix {S : Schema} {t t' : List Node} {p : Path} {v : Option Text} (h : newPath S t p v = some t') (x : Node) (hx : x ∈ t') :
    (∃ y ∈ t, y.path = x.path) ∨ (x.path ≠ [] ∧ x.path <+: p) := by
  rw [(newPath_some h).2, List.mem_map] at hx
  obtain ⟨y, hy, rfl⟩ := hx
  have e : (if y.path = p ∧ v.isSome then { y with value := v } else y).path = y.path := by split <;> rfl
  rw [e]
  rw [List.mem_append, mem_missing] at hy
  rcases hy with hy | hy
  · exact .inl ⟨y, hy, rfl⟩
  · exact .inr ⟨hy.1, hy.2.1⟩

theorem inv_nil : Inv [] (wanted []) :=
  ⟨List.nodup_nil, fun _ hx => (by cases hx), fun _ hx => (by cases hx), fun n w h => (by rw [wanted_nil] at h; cases h)⟩

theorem adr_ne_prt (m n : Text) (s t : Ti) : adr m s ≠ prt n t := by
  intro h
  have := congrArg List.getLast? h
  rw [adr, prt, List.getLast?_concat, List.getLast?_concat] at this
  exact leaf_ne (Option.some.inj this)

theorem ep_adr (n : Text) (t : Ti) : ep n <+: adr n t := own_prefix (t := t) (.tail _ (.tail _ (.tail _ (.head _))))
theorem ep_prt (n : Text) (t : Ti) : ep n <+: prt n t := own_prefix (t := t) (.tail _ (.tail _ (.tail _ (.tail _ (.head _)))))

theorem inv_add {S : Schema} {cfg cfg' : Config} {n : Text} {t : Ti} {a : Text} {p : Nat} {m m' : Text → Option Want} (hn : '\'' ∉ n)
    (hi : Inv (cfg.getD []) m) (hs : ∀ w, m n = some w → w.1 = t) (hm : ∀ k, m' k = if n = k then some (t, a, p) else m k)
    (h : (Call.add n t a p).run S cfg = (true, cfg')) : Inv (cfg'.getD []) m' := by
  obtain ⟨t1, t2, h1, h2, rfl⟩ := add_steps hn h
  have mem : ∀ k w, m k = some w → ∃ w', m' k = some w' ∧ w'.1 = w.1 := by
    intro k w hk
    rw [hm]
    by_cases e : n = k
    · subst e
      rw [if_pos rfl]
      exact ⟨_, rfl, (hs w hk).symm⟩
    · rw [if_neg e]; exact ⟨w, hk, rfl⟩
  have self : m' n = some (t, a, p) := by rw [hm, if_pos rfl]
  have new : ∀ q : Path, q ≠ [] → (q <+: adr n t ∨ q <+: prt n t) → q <+: base ∨ ∃ k w, m' k = some w ∧ q ∈ own k w.1 := by
    intro q hq hp
    rcases prefix_leaf hp hq with h | h
    · exact .inl h
    · exact .inr ⟨n, _, self, h⟩
  have old : ∀ x ∈ cfg.getD [], x.path <+: base ∨ ∃ k w, m' k = some w ∧ x.path ∈ own k w.1 := by
    intro x hx
    rcases hi.only x hx with h | ⟨k, w, hk, h⟩
    · exact .inl h
    · obtain ⟨w', e1, e2⟩ := mem k w hk
      exact .inr ⟨k, w', e1, e2 ▸ h⟩
  refine ⟨newPath_nodup h2 (newPath_nodup h1 hi.nodup), fun x hx => ?_, newPath_closed h2 (newPath_closed h1 hi.closed), fun k w hk => ?_⟩
  · rcases newPath_prefix h2 x hx with ⟨y, hy, e⟩ | ⟨e1, e2⟩
    · rw [← e]
      rcases newPath_prefix h1 y hy with ⟨z, hz, e'⟩ | ⟨e1, e2⟩
      · rw [← e']; exact old z hz
      · exact new _ e1 (.inl e2)
    · exact new _ e1 (.inr e2)
  · rw [hm] at hk
    by_cases e : n = k
    · subst e
      rw [if_pos rfl, Option.some.injEq] at hk
      subst hk
      exact ⟨holds_newPath (holds_set (by rw [adr_eq]; exact List.cons_ne_nil _ _) h1) (adr_ne_prt _ _ _ _).symm h2,
        holds_set (by rw [prt_eq]; exact List.cons_ne_nil _ _) h2⟩
    · rw [if_neg e] at hk
      obtain ⟨l1, l2⟩ := hi.leaves k w hk
      have n1 : adr n t ≠ adr k w.1 := fun h => e (ep_prefix (ep_adr n t) (h ▸ ep_adr k w.1))
      have n2 : prt n t ≠ prt k w.1 := fun h => e (ep_prefix (ep_prt n t) (h ▸ ep_prt k w.1))
      exact ⟨holds_newPath (holds_newPath l1 n1 h1) (adr_ne_prt _ _ _ _).symm h2, holds_newPath (holds_newPath l2 (adr_ne_prt _ _ _ _) h1) n2 h2⟩

theorem inv_del {S : Schema} {cfg cfg' : Config} {n : Text} {m m' : Text → Option Want} (hn : '\'' ∉ n)
    (hi : Inv (cfg.getD []) m) (hm : ∀ k, m' k = if n = k then none else m k)
    (h : (Call.del n).run S cfg = (true, cfg')) : Inv (cfg'.getD []) m' := by
  obtain ⟨t, rfl, rfl⟩ := del_steps hn h
  refine ⟨?_, fun x hx => ?_, freeTree_closed _ hi.closed, fun k w hk => ?_⟩
  · exact ((List.filter_sublist (l := t)).map Node.path).nodup hi.nodup
  · obtain ⟨h1, h2⟩ := (mem_freeTree _ _ _).mp hx
    rcases hi.only x h1 with h | ⟨k, w, hk, h⟩
    · exact .inl h
    · refine .inr ⟨k, w, ?_, h⟩
      rw [hm, if_neg, hk]
      rintro rfl
      exact h2 (own_prefix h)
  · rw [hm] at hk
    by_cases e : n = k
    · rw [if_pos e] at hk; cases hk
    · rw [if_neg e] at hk
      obtain ⟨l1, l2⟩ := hi.leaves k w hk
      exact ⟨holds_free l1 (fun h => e (ep_prefix h (ep_adr _ _))), holds_free l2 (fun h => e (ep_prefix h (ep_prt _ _)))⟩

theorem inv_build (S : Schema) : ∀ (post pre : List Call) (cfg cfg' : Config), (∀ c ∈ post, c.good) → Steady (pre ++ post) →
    Inv (cfg.getD []) (wanted pre) → build S post cfg = (true, cfg') → Inv (cfg'.getD []) (wanted (pre ++ post))
  | [], pre, cfg, cfg', _, _, hi, h => by
    simp only [build, Prod.mk.injEq, true_and] at h
    subst h
    rwa [List.append_nil]
  | c :: post, pre, cfg, cfg', hg, hs, hi, h => by
    rw [build] at h
    cases hr : c.run S cfg with
    | mk b c1 =>
      rw [hr] at h
      cases b with
      | false => simp at h
      | true =>
        have hs' : Steady ((pre ++ [c]) ++ post) := by rwa [List.append_assoc]
        have := inv_build S post (pre ++ [c]) c1 cfg' (fun x hx => hg x (.tail _ hx)) hs' ?_ h
        · rwa [List.append_assoc] at this
        · cases c with
          | add n t a p => exact inv_add (hg _ (.head _)).1 hi (fun w hw => hs pre n t a p post rfl w hw) (fun k => wanted_add pre n k t a p) hr
          | del n => exact inv_del (hg _ (.head _)) hi (fun k => wanted_del pre n k) hr

/-! ## Reading the data -/

theorem endptName_some {p : Path} {n : Text} : endptName p = some n ↔ p = ep n := by
  constructor
  · intro h
    unfold endptName at h
    split at h
    · split at h
      · next hp => rw [Option.some.injEq] at h; subst h; exact hp
      · cases h
    · cases h
  · rintro rfl
    unfold endptName
    show (if ep n = ep n then some n else none) = some n
    rw [if_pos rfl]

theorem mem_names {t : List Node} {n : Text} : n ∈ names t ↔ found t (ep n) = true := by
  rw [names, List.mem_filterMap, found_iff]
  simp only [endptName_some]

theorem names_nodup : ∀ {t : List Node}, (t.map Node.path).Nodup → (names t).Nodup
  | [], _ => List.nodup_nil
  | x :: t, h => by
    rw [List.map_cons, List.nodup_cons] at h
    rw [names, List.filterMap_cons]
    cases he : endptName x.path with
    | none => exact names_nodup h.2
    | some n =>
      refine List.nodup_cons.mpr ⟨fun hm => ?_, names_nodup h.2⟩
      obtain ⟨y, hy, e⟩ := (found_iff _ _).mp (mem_names.mp hm)
      exact h.1 (List.mem_map.mpr ⟨y, hy, by rw [e, endptName_some.mp he]⟩)

theorem valueAt_holds {t : List Node} {p : Path} {w : Text} (h : Holds t p w) : valueAt t p = some w := by
  unfold valueAt
  cases hf : t.find? (fun n => n.path == p) with
  | none =>
    obtain ⟨n, h1, h2⟩ := h.1
    exact absurd h2 (by simpa using List.find?_eq_none.mp hf n h1)
  | some x =>
    have h1 := List.mem_of_find?_eq_some hf
    have h2 := List.find?_some hf
    exact h.2 x h1 (by simpa using h2)

theorem own_tr {n k : Text} {s t : Ti} (h : ep n ++ [tiSeg s] ∈ own k t) : n = k ∧ s = t := by
  have e := ep_prefix (⟨_, rfl⟩ : ep n <+: ep n ++ [tiSeg s]) (own_prefix h)
  subst e
  refine ⟨rfl, ?_⟩
  simp only [own, List.mem_cons, List.not_mem_nil, or_false] at h
  rcases h with h | h | h | h | h
  · exact absurd (congrArg List.length h) (by rw [List.length_append]; exact Nat.succ_ne_self _)
  · exact tiSeg_inj (List.singleton_inj.mp (List.append_cancel_left h))
  · exact absurd (show (5 : Nat) = 6 from congrArg List.length h) (by decide)
  · exact absurd (show (5 : Nat) = 7 from congrArg List.length h) (by decide)
  · exact absurd (show (5 : Nat) = 7 from congrArg List.length h) (by decide)

theorem Inv.trans {t : List Node} {m : Text → Option Want} (hi : Inv t m) {n : Text} {w : Want} (hw : m n = some w) (i : Ti) :
    found t (ep n ++ [tiSeg i]) = decide (i = w.1) := by
  rw [Bool.eq_iff_iff, decide_eq_true_iff]
  constructor
  · intro h
    obtain ⟨x, hx, e⟩ := (found_iff _ _).mp h
    rcases hi.only x hx with h1 | ⟨k, w', hk, h1⟩
    · exact absurd ⟨[tiSeg i], e.symm⟩ (base_short (n := n) h1)
    · rw [e] at h1
      obtain ⟨rfl, rfl⟩ := own_tr h1
      rw [hw] at hk
      cases hk
      rfl
  · rintro rfl
    obtain ⟨⟨x, hx, e⟩, _⟩ := (hi.leaves n w hw).1
    exact hi.closed x hx _ (by simp) (e ▸ ⟨[seg t!"tcp-server-parameters", seg t!"local-address"], rfl⟩)

theorem Inv.name {t : List Node} {m : Text → Option Want} (hi : Inv t m) (n : Text) : n ∈ names t ↔ (m n).isSome := by
  rw [mem_names]
  constructor
  · intro h
    obtain ⟨x, hx, e⟩ := (found_iff _ _).mp h
    rcases hi.only x hx with h1 | ⟨k, w', hk, h1⟩
    · exact absurd ⟨[], by rw [e, List.append_nil]⟩ (base_short (n := n) h1)
    · have := ep_prefix (e ▸ List.prefix_refl _ : ep n <+: x.path) (own_prefix h1)
      subst this
      rw [hk]; rfl
  · intro h
    obtain ⟨w, hw⟩ := Option.isSome_iff_exists.mp h
    obtain ⟨⟨x, hx, e⟩, _⟩ := (hi.leaves n w hw).1
    exact hi.closed x hx _ (by simp [ep]) (e ▸ ep_adr n w.1)

theorem Inv.tree {t : List Node} {m : Text → Option Want} (hi : Inv t m) (C : Codes) {n : Text} {w : Want} (hw : m n = some w) :
    endptTree C t n = endptData (C.name n) (confOf C w) := by
  have key : [Ti.ssh, Ti.tls].filterMap (transTree C t n) = [transData (confOf C w)] := by
    obtain ⟨l1, l2⟩ := hi.leaves n w hw
    have e : ∀ i, transTree C t n i = if i = w.1 then some (transData (confOf C w)) else none := by
      intro i
      unfold transTree
      rw [hi.trans hw i]
      by_cases h : i = w.1
      · subst h
        rw [if_pos (by simp), if_pos rfl]
        have v1 : valueAt t (tcp n w.1 ++ [seg t!"local-address"]) = some w.2.1 := valueAt_holds l1
        have v2 : valueAt t (tcp n w.1 ++ [seg t!"local-port"]) = some (Nat.toDigits 10 w.2.2) := valueAt_holds l2
        rw [v1, v2]
        simp only [Option.map_some, Option.getD_some, Option.toList_some, Nat.ofDigitChars_ten_toDigits]
        obtain ⟨j, a, p⟩ := w
        cases j <;> rfl
      · rw [if_neg (by simpa using h), if_neg h]
    simp only [List.filterMap_cons, List.filterMap_nil, e]
    cases w.1 <;> rfl
  rw [endptTree, key]
  rfl

/-! ## Their meaning -/

theorem creates_ok : ∀ (l : List (Nat × EndptConf)) (m0 : Map EndptConf), (l.map Prod.fst).Nodup → (∀ q ∈ l, m0 q.1 = none ∧ q.2.valid = true) →
    ∃ m, patchAll mkEndpt EndptConf.change m0 (l.map (fun q => Edit.create q.1 q.2)) = some m ∧ (∀ q ∈ l, m q.1 = some q.2) ∧
      ∀ k, (∀ q ∈ l, q.1 ≠ k) → m k = m0 k
  | [], m0, _, _ => ⟨m0, rfl, fun _ h => (by cases h), fun _ _ => rfl⟩
  | x :: l, m0, hd, h => by
    rw [List.map_cons, List.nodup_cons] at hd
    obtain ⟨h1, h2⟩ := h x (.head _)
    have hp : patch mkEndpt EndptConf.change m0 (Edit.create x.1 x.2) = some (upd m0 x.1 (some x.2)) := by
      simp only [patch, h1, mkEndpt, h2, if_true, Option.map_some]
    have hne : ∀ q ∈ l, q.1 ≠ x.1 := fun q hq e => hd.1 (List.mem_map.mpr ⟨q, hq, e⟩)
    obtain ⟨m, g1, g2, g3⟩ := creates_ok l (upd m0 x.1 (some x.2)) hd.2 (fun q hq => ⟨by
      rw [upd, if_neg (hne q hq)]; exact (h q (.tail _ hq)).1, (h q (.tail _ hq)).2⟩)
    refine ⟨m, by rw [List.map_cons, patchAll, hp]; exact g1, ?_, ?_⟩
    · intro q hq
      rcases List.mem_cons.mp hq with rfl | hq
      · rw [g3 _ hne, upd, if_pos rfl]
      · exact g2 q hq
    · intro k hk
      rw [g3 k (fun q hq => hk q (.tail _ hq)), upd, if_neg (fun e => hk x (.head _) e.symm)]

end Verif.ConfUse
