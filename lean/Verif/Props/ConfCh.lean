import Verif.Lemmas.ConfCh

/-!
# Properties: Call Home clients are contacted as configured
-/

namespace Verif.Props
open Verif.ConfTree (Op Meta)
open Verif.ConfStore
open Verif.ConfEndpt (Ti Opts KaConf KaAs mapRes)
open Verif.ConfCh

/-- Diffs remove clients only if the application has given its callbacks. -/
def mayRemove (disp : Bool) (ds : List (List ClientEdit)) : Prop := disp = true ∨ ∀ d ∈ ds, ∀ k r, Edit.delete k r ∉ d

/-! ## Where clients are contacted -/

/-- **C139.** Full statement (false, see `callhome_contact_false`): whatever data were set up and whatever diffs that fit them were applied
afterwards, the server has the configured clients, each with the configured endpoints in the configured order. -/
def CallhomeContact (disp : Bool) : Prop :=
  ∀ (d : ChData) (ds : List (List ClientEdit)) (m0 m : Map ClientConf), chConf d = some m0 → patchCh .all m0 ds = some m →
    ∃ s, run disp (chData d) (ds.map chTree) = .ok s ∧ Holds Client.name EpsAs s m

/-- **C139.** Proved for diffs that add and remove endpoints only at the end of the list, do not remove the port of an endpoint, and change the
transport of an endpoint by removing the old one first (and giving a local address if there was one). -/
theorem callhome_contact_partial (disp : Bool) (d : ChData) (ds : List (List ClientEdit)) (m0 m : Map ClientConf) (h0 : chConf d = some m0)
    (hd : mayRemove disp ds) (h : patchCh .contact m0 ds = some m) :
    patchCh .all m0 ds = some m ∧ ∃ s, run disp (chData d) (ds.map chTree) = .ok s ∧ Holds Client.name EpsAs s m := by
  refine ⟨patchCh_all _ _ _ _ h, ?_⟩
  obtain ⟨s, h1, h2⟩ := run_ok disp .contact (by decide) d ds m0 m h0 hd h
  refine ⟨s, h1, h2.1, fun n => ?_⟩
  have := h2.2 n
  revert this
  cases s.find? (fun x => x.name == n) <;> cases m n <;> intro this
  · exact this
  · exact this
  · exact this
  · exact listRel_mono _ _ (fun _ _ hr => hr.1) _ _ (this.2.2.2 (by decide)).1

/-- A client with an SSH endpoint and a TLS endpoint, connected persistently; a client that is connected periodically. -/
def chSample : ChData :=
  [(1, ⟨[(10, ⟨.ssh, 5, none, none, none, ⟨none, none, none⟩⟩), (11, ⟨.tls, 6, some 7000, some 3, some 900, ⟨some 60, none, none⟩⟩)], .persistent,
      ⟨none, none, none⟩⟩),
   (2, ⟨[(10, ⟨.ssh, 8, some 4444, none, none, ⟨none, none, none⟩⟩)], .periodic (some 30) (some 1000) none, ⟨some 1, some 10, none⟩⟩)]

/-- The first client gets a third endpoint, its second one another address; it is connected periodically. Then the first endpoint becomes a TLS
endpoint and the third one is removed; the second client is removed. -/
def chDiffs : List (List ClientEdit) :=
  [[.change 1 ⟨[.create 12 2 ⟨.ssh, 9, none, none, none, ⟨none, none, none⟩⟩, .change 11 (.params .tls (some 7) (.replace 7001) (.delete 3) .keep .keep)],
     .toPeriodic [] none none (some 20) true, .create ⟨some 2, none, some 4⟩⟩],
   [.change 1 ⟨[.change 10 (.switch .ssh [] ⟨.tls, 5, none, none, none, ⟨none, none, none⟩⟩ true), .delete 12 []], .leaves (.create 5) .keep (.delete 20), .keep⟩,
    .delete 2 []]]

example : (chConf chSample).isSome = true ∧ ((chConf chSample).bind (fun m => patchCh .keepalives m chDiffs)).isSome = true := by
  constructor <;> decide +kernel

example : run true (chData chSample) [] =
    .ok [⟨1, true, [⟨some 10, some .ssh, .live .ssh, none, 0, some 5, 4334, ⟨true, 7200, 9, 75⟩⟩,
        ⟨some 11, some .tls, .live .tls, some 3, 900, some 6, 7000, ⟨true, 60, 9, 75⟩⟩], ⟨.persist, 0, 0, 0, 0, 3, 5⟩⟩,
      ⟨2, true, [⟨some 10, some .ssh, .live .ssh, none, 0, some 8, 4444, ⟨true, 7200, 9, 75⟩⟩], ⟨.period, 30, 1000, 180, 1, 3, 10⟩⟩] := by decide +kernel

example : run true (chData chSample) (chDiffs.map chTree) =
    .ok [⟨1, true, [⟨some 10, some .tls, .live .tls, none, 0, some 5, 4335, ⟨true, 7200, 9, 75⟩⟩,
        ⟨some 11, some .tls, .live .tls, none, 900, some 7, 7001, ⟨true, 60, 9, 75⟩⟩], ⟨.period, 5, 0, 180, 2, 4, 5⟩⟩] := by decide +kernel

/-! ## Edits that are not followed -/

/-- After a history of edits that are followed. -/
def Followed (disp : Bool) (d : ChData) (ds : List (List ClientEdit)) (m : Map ClientConf) : Prop :=
  ∃ m0, chConf d = some m0 ∧ mayRemove disp ds ∧ patchCh .contact m0 ds = some m

theorem followed_run (disp : Bool) (d : ChData) (ds : List (List ClientEdit)) (m : Map ClientConf) (h : Followed disp d ds m) :
    ∃ s, (∀ t, run disp (chData d) ((ds ++ [t]).map chTree) = diffs disp [chTree t] s) ∧
      (∀ t u, run disp (chData d) ((ds ++ [t, u]).map chTree) = diffs disp [chTree t, chTree u] s) ∧ Inv disp .contact s m := by
  obtain ⟨m0, h0, hd, hp⟩ := h
  obtain ⟨s, h1, h2⟩ := run_ok disp .contact (by decide) d ds m0 m h0 hd hp
  refine ⟨s, fun t => ?_, fun t u => ?_, h2⟩
  · rw [List.map_append]
    exact run_append disp _ _ _ s h1
  · rw [List.map_append]
    exact run_append disp _ _ _ s h1

/-- **C139.** Wherever an endpoint is put in the list, for the server it is the last one. -/
theorem inserted_endpoint_goes_last (disp : Bool) (d : ChData) (ds : List (List ClientEdit)) (m : Map ClientConf) (h : Followed disp d ds m)
    (k : Nat) (x : ClientConf) (hk : m k = some x) (n i : Nat) (y : EpConf) (hn : epOf x.eps n = none) :
    ∃ s, run disp (chData d) ((ds ++ [oneEdit k (.create n i y)]).map chTree) = .ok s ∧
      ∃ c ∈ s, c.name = k ∧ c.eps.map Ep.name = x.eps.map (fun z => some z.1) ++ [some n] := by
  obtain ⟨s, h1, -, h2⟩ := followed_run disp d ds m h
  obtain ⟨j, c, c1, c2, c3, -, c4, c5⟩ := client_of disp .contact (by decide) s m h2 k x hk
  refine ⟨s.set j { c with eps := c.eps ++ [epMade (newEp n) y] }, ?_, _, mem_set_self s j c _ c2, c3, ?_⟩
  · rw [h1, diffs_one disp s k j c c1 c2 c3]
    have := ep_created .contact .none .create rfl (onePath k) c x.eps c4 n (epOf_none _ _ hn) y
    simp only [EpEdit.tree, this, mapRes]
  · simp only [List.map_append, rel_names _ _ _ c4, List.map_cons, List.map_nil]
    rfl

/-- **C139.** When an endpoint is moved, nothing changes for the server. -/
theorem moved_endpoint_stays (disp : Bool) (d : ChData) (ds : List (List ClientEdit)) (m : Map ClientConf) (h : Followed disp d ds m)
    (k : Nat) (x : ClientConf) (hk : m k = some x) (n i : Nat) :
    ∃ s, run disp (chData d) ((ds ++ [oneEdit k (.move n i)]).map chTree) = .ok s ∧ ∃ c ∈ s, c.name = k ∧ c.eps.map Ep.name = x.eps.map (fun z => some z.1) := by
  obtain ⟨s, h1, -, h2⟩ := followed_run disp d ds m h
  obtain ⟨j, c, c1, c2, c3, -, c4, c5⟩ := client_of disp .contact (by decide) s m h2 k x hk
  refine ⟨s, ?_, c, List.mem_of_getElem? c2, c3, rel_names _ _ _ c4⟩
  rw [h1, diffs_one disp s k j c c1 c2 c3]
  have : parse clientCb .none (onePath k) c (EpEdit.move n i).tree = .ok c := rfl
  rw [this]
  simp only [mapRes, Verif.ConfUsers.set_self s j c c2]

/-- **C139.** When an endpoint is removed that is not the last one, the last one is no longer contacted, and the server goes on with what was
freed. -/
theorem removed_endpoint_dangles (disp : Bool) (d : ChData) (ds : List (List ClientEdit)) (m : Map ClientConf) (h : Followed disp d ds m)
    (k : Nat) (x : ClientConf) (hk : m k = some x) (n : Nat) (y : EpConf) (hn : epOf x.eps n = some y) (hl : (x.eps.getLast?.map Prod.fst) ≠ some n)
    (r : List Tree) :
    ∃ s i, run disp (chData d) ((ds ++ [oneEdit k (.delete n r)]).map chTree) = .ok s ∧ i + 1 < x.eps.length ∧ (x.eps[i]?).map Prod.fst = some n ∧
      ∃ c ∈ s, c.name = k ∧ c.eps.map Ep.name = ((x.eps.map (fun z => some z.1)).set i none).dropLast := by
  obtain ⟨s, h1, -, h2⟩ := followed_run disp d ds m h
  obtain ⟨j, c, c1, c2, c3, -, c4, c5⟩ := client_of disp .contact (by decide) s m h2 k x hk
  obtain ⟨i, es, e1, e2, e3, e4⟩ := delete_parse .contact c x.eps c4 c5 (onePath k) n y hn hl r
  refine ⟨s.set j { c with eps := es }, i, ?_, e2, e3, _, mem_set_self s j c _ c2, c3, e4⟩
  rw [h1, diffs_one disp s k j c c1 c2 c3, e1]
  rfl

/-- **C139.** Removing the client after that is undefined behaviour, as what was freed is freed again. -/
theorem removed_endpoint_then_client_ub (disp : Bool) (d : ChData) (ds : List (List ClientEdit)) (m : Map ClientConf) (h : Followed disp d ds m)
    (k : Nat) (x : ClientConf) (hk : m k = some x) (n : Nat) (y : EpConf) (hn : epOf x.eps n = some y) (hl : (x.eps.getLast?.map Prod.fst) ≠ some n)
    (r r' : List Tree) : run disp (chData d) ((ds ++ [oneEdit k (.delete n r), [Edit.delete k r']]).map chTree) = .ub := by
  obtain ⟨s, -, h1, h2⟩ := followed_run disp d ds m h
  obtain ⟨j, c, c1, c2, c3, -, c4, c5⟩ := client_of disp .contact (by decide) s m h2 k x hk
  obtain ⟨i, es, e1, e2, e3, e4⟩ := delete_parse .contact c x.eps c4 c5 (onePath k) n y hn hl r
  have hs : diffs disp [chTree (oneEdit k (.delete n r))] s = .ok (s.set j { c with eps := es }) := by
    rw [diffs_one disp s k j c c1 c2 c3, e1]
    rfl
  rw [h1, show [chTree (oneEdit k (.delete n r)), chTree [.delete k r']] = [chTree (oneEdit k (.delete n r))] ++ [chTree [.delete k r']] from rfl,
    diffs_append disp _ _ _ _ hs]
  have f1 := Verif.ConfUsers.findIdx_set Client.name s k j c { c with eps := es } c1 c2 rfl
  have f2 := Verif.ConfUsers.get_set s j c { c with eps := es } c2
  have hdead : destroyable { c with eps := es } = false := by
    have : (none : Option Nat) ∈ es.map Ep.name := by
      rw [e4]
      refine List.mem_of_getElem? (i := i) ?_
      rw [List.getElem?_dropLast, List.length_set, List.length_map, if_pos (by omega), List.getElem?_set_self (by simp; omega)]
    obtain ⟨e, he, hen⟩ := List.mem_map.mp this
    simp only [destroyable, Bool.and_eq_false_imp]
    intro _
    rw [List.all_eq_false]
    exact ⟨e, he, by simp [hen]⟩
  exact removal_ub disp _ k j _ f1 f2 hdead r'

/-- **C139.** When the port of an endpoint is removed from the configuration, port 0 is used, not the default. -/
theorem removed_remote_port_zero (disp : Bool) (d : ChData) (ds : List (List ClientEdit)) (m : Map ClientConf) (h : Followed disp d ds m)
    (k : Nat) (x : ClientConf) (hk : m k = some x) (n : Nat) (y : EpConf) (hn : epOf x.eps n = some y) (v : Nat) :
    ∃ s, run disp (chData d) ((ds ++ [oneEdit k (.change n (.params y.ti none (.delete v) .keep .keep .keep))]).map chTree) = .ok s ∧
      ∃ c ∈ s, c.name = k ∧ ∃ e ∈ c.eps, e.name = some n ∧ e.dstPort = 0 := by
  obtain ⟨s, h1, -, h2⟩ := followed_run disp d ds m h
  obtain ⟨j, c, c1, c2, c3, -, c4, c5⟩ := client_of disp .contact (by decide) s m h2 k x hk
  obtain ⟨i, e, e1, e2, e3, -, -⟩ := ep_find .contact c.eps x.eps c4 c5 n y hn
  refine ⟨s.set j { c with eps := c.eps.set i { e with dstPort := 0 } }, ?_, _, mem_set_self s j c _ c2, c3, _, mem_set_self c.eps i e _ e2, e3.1.1, rfl⟩
  rw [h1, diffs_one disp s k j c c1 c2 c3, change_ep_parse c n i e e1 e2 e3.1.1]
  have : ∀ p, parseList epC .none p e (EpChange.params y.ti none (.delete v) .keep .keep .keep).trees = .ok { e with dstPort := 0 } := by
    intro p
    cases y.ti <;> rfl
  rw [this]
  rfl

/-- **C139.** When another transport is created before the old one is deleted, freed parameters are accessed or parameters are freed as those
of the other transport. -/
theorem switch_create_first_ub (disp : Bool) (d : ChData) (ds : List (List ClientEdit)) (m : Map ClientConf) (h : Followed disp d ds m)
    (k : Nat) (x : ClientConf) (hk : m k = some x) (n : Nat) (y z : EpConf) (hn : epOf x.eps n = some y) (hz : z.ti ≠ y.ti) (r : List Tree) :
    run disp (chData d) ((ds ++ [oneEdit k (.change n (.switch y.ti r z false))]).map chTree) = .ub := by
  obtain ⟨s, h1, -, h2⟩ := followed_run disp d ds m h
  obtain ⟨j, c, c1, c2, c3, -, c4, c5⟩ := client_of disp .contact (by decide) s m h2 k x hk
  obtain ⟨i, e, e1, e2, e3, -, -⟩ := ep_find .contact c.eps x.eps c4 c5 n y hn
  rw [h1, diffs_one disp s k j c c1 c2 c3, change_ep_parse c n i e e1 e2 e3.1.1]
  have : ∀ p, parseList epC .none p e (EpChange.switch y.ti r z false).trees = .ub := by
    intro p
    simp only [EpChange.trees, Bool.false_eq_true, if_false]
    rw [parseList_cons _ _ _ _ _ _ _ (epTrans_create p e .none .create rfl z)]
    simp only [parseList, parse_del]
    cases hy : y.ti <;> cases hzt : z.ti <;> first | (rw [hy, hzt] at hz; exact absurd rfl hz) |
      simp [Verif.ConfEndpt.Ti.label, epC, ofEp, epCb, transport, epMade, hzt]
  rw [this]
  rfl

/-- **C139.** The local address of the old transport is used for the new one. -/
theorem switch_keeps_local_address (disp : Bool) (d : ChData) (ds : List (List ClientEdit)) (m : Map ClientConf) (h : Followed disp d ds m)
    (k : Nat) (x : ClientConf) (hk : m k = some x) (n : Nat) (y z : EpConf) (hn : epOf x.eps n = some y) (hz : z.srcAddr = none)
    (r : List Tree) :
    ∃ s, run disp (chData d) ((ds ++ [oneEdit k (.change n (.switch y.ti r z true))]).map chTree) = .ok s ∧
      ∃ c ∈ s, c.name = k ∧ ∃ e ∈ c.eps, e.name = some n ∧ e.ti = some z.ti ∧ e.srcAddr = y.srcAddr := by
  obtain ⟨s, h1, -, h2⟩ := followed_run disp d ds m h
  obtain ⟨j, c, c1, c2, c3, -, c4, c5⟩ := client_of disp .contact (by decide) s m h2 k x hk
  obtain ⟨i, e, e1, e2, e3, -, -⟩ := ep_find .contact c.eps x.eps c4 c5 n y hn
  refine ⟨s.set j { c with eps := c.eps.set i (epMade { e with opts := .freed } z) }, ?_, _, mem_set_self s j c _ c2, c3, _,
    mem_set_self c.eps i e _ e2, e3.1.1, rfl, ?_⟩
  · rw [h1, diffs_one disp s k j c c1 c2 c3, change_ep_parse c n i e e1 e2 e3.1.1]
    have : ∀ p, parseList epC .none p e (EpChange.switch y.ti r z true).trees = .ok (epMade { e with opts := .freed } z) := by
      intro p
      have h3 := e3.1.2.2.1
      simp only at h3
      simp only [EpChange.trees, if_true]
      rw [parseList_cons _ _ _ _ { e with opts := .freed } _ _ (by
        rw [parse_del]
        cases hc : y.ti <;> rw [hc] at h3 <;> simp [Verif.ConfEndpt.Ti.label, epC, ofEp, epCb, transport, h3])]
      rw [parseList_cons _ _ _ _ _ _ _ (epTrans_create p _ .none .create rfl z)]
      rfl
    rw [this]
    rfl
  · simp only [epMade, hz, Option.none_or]
    exact e3.1.2.2.2.2.2.1

/-- **C139.** When a client is removed though the application has given no callbacks, there are no data of a thread, but they are accessed. -/
theorem client_removal_without_callbacks_ub (d : ChData) (ds : List (List ClientEdit)) (m : Map ClientConf) (h : Followed false d ds m)
    (k : Nat) (x : ClientConf) (hk : m k = some x) (r : List Tree) : run false (chData d) ((ds ++ [[Edit.delete k r]]).map chTree) = .ub := by
  obtain ⟨s, h1, -, h2⟩ := followed_run false d ds m h
  obtain ⟨j, c, c1, c2, c3, c4, -, -⟩ := client_of false .contact (by decide) s m h2 k x hk
  rw [h1]
  exact removal_ub false s k j c c1 c2 (by simp [destroyable, c4]) r

/-- The theorems above apply to the sample. -/
example : ∃ m, Followed true chSample chDiffs m ∧ ∃ x, m 1 = some x ∧ (∃ y, epOf x.eps 10 = some y) ∧ (x.eps.getLast?.map Prod.fst) ≠ some 10 := by
  obtain ⟨m0, h0⟩ : ∃ m0, chConf chSample = some m0 := ⟨_, rfl⟩
  cases hm : patchCh .contact m0 chDiffs with
  | none => exact absurd (show ((chConf chSample).bind (fun m => patchCh .contact m chDiffs)).isSome = true by decide +kernel) (by rw [h0, Option.bind_some, hm]; decide)
  | some m =>
    refine ⟨m, ⟨m0, h0, .inl rfl, hm⟩, ?_⟩
    have hb : ((chConf chSample).bind (fun m => patchCh .contact m chDiffs)).bind (fun m => m 1) =
        some ⟨[(10, ⟨.tls, 5, none, none, none, ⟨none, none, none⟩⟩), (11, ⟨.tls, 7, some 7001, none, some 900, ⟨some 60, none, none⟩⟩)],
          .periodic (some 5) none none, ⟨some 2, none, some 4⟩⟩ := by rfl
    rw [h0, Option.bind_some, hm, Option.bind_some] at hb
    exact ⟨_, hb, ⟨_, rfl⟩, by decide⟩

/-- **C139.** The full statement is false: a diff that puts an endpoint first. -/
theorem callhome_contact_false : ¬ CallhomeContact true := by
  intro h
  obtain ⟨s, h1, h2⟩ := h [(1, ⟨[(10, ⟨.ssh, 5, none, none, none, ⟨none, none, none⟩⟩)], .persistent, ⟨none, none, none⟩⟩)]
    [oneEdit 1 (.create 11 0 ⟨.ssh, 6, none, none, none, ⟨none, none, none⟩⟩)] _ _ rfl rfl
  have h3 : run true (chData [(1, ⟨[(10, ⟨.ssh, 5, none, none, none, ⟨none, none, none⟩⟩)], .persistent, ⟨none, none, none⟩⟩)])
      ([oneEdit 1 (.create 11 0 ⟨.ssh, 6, none, none, none, ⟨none, none, none⟩⟩)].map chTree) =
      .ok [⟨1, true, [⟨some 10, some .ssh, .live .ssh, none, 0, some 5, 4334, ⟨true, 7200, 9, 75⟩⟩,
        ⟨some 11, some .ssh, .live .ssh, none, 0, some 6, 4334, ⟨true, 7200, 9, 75⟩⟩], ⟨.persist, 0, 0, 0, 0, 3, 5⟩⟩] := by decide +kernel
  rw [h3] at h1
  cases h1
  have h4 := h2.2 1
  have h5 : EpsAs ⟨1, true, [⟨some 10, some .ssh, .live .ssh, none, 0, some 5, 4334, ⟨true, 7200, 9, 75⟩⟩,
        ⟨some 11, some .ssh, .live .ssh, none, 0, some 6, 4334, ⟨true, 7200, 9, 75⟩⟩], ⟨.persist, 0, 0, 0, 0, 3, 5⟩⟩
      ⟨[(11, ⟨.ssh, 6, none, none, none, ⟨none, none, none⟩⟩), (10, ⟨.ssh, 5, none, none, none, ⟨none, none, none⟩⟩)], .persistent, ⟨none, none, none⟩⟩ := h4
  have h6 := h5.1.1
  cases h6

/-! ## When connections are made -/

/-- **C140.** Whatever data were set up and whatever diffs that fit them were applied successfully afterwards, the server has the configured
clients, each with the configured connection type and reconnect strategy, defaults included. -/
theorem callhome_settings (disp : Bool) (d : ChData) (ds : List (List ClientEdit)) (m0 m : Map ClientConf) (h0 : chConf d = some m0)
    (h : patchCh .all m0 ds = some m) (s : List Client) (hr : run disp (chData d) (ds.map chTree) = .ok s) : Holds Client.name OptAs s m := by
  have h2 := run_any disp d ds m0 m h0 h s hr
  refine ⟨h2.1, fun n => ?_⟩
  have := h2.2 n
  revert this
  cases s.find? (fun x => x.name == n) <;> cases m n <;> intro this
  · exact this
  · exact this
  · exact this
  · exact this.2.1

/-- **C140.** They are applied successfully if the edits of endpoints are followed. -/
theorem callhome_settings_applied (disp : Bool) (d : ChData) (ds : List (List ClientEdit)) (m0 m : Map ClientConf) (h0 : chConf d = some m0)
    (hd : mayRemove disp ds) (h : patchCh .contact m0 ds = some m) :
    ∃ s, run disp (chData d) (ds.map chTree) = .ok s ∧ Holds Client.name OptAs s m := by
  obtain ⟨s, h1, -⟩ := run_ok disp .contact (by decide) d ds m0 m h0 hd h
  exact ⟨s, h1, callhome_settings disp d ds m0 m h0 (patchCh_all _ _ _ _ h) s h1⟩

/-- Edits of the sample and others that are not followed otherwise. -/
example : ∃ s, run true (chData chSample) ([oneEdit 1 (.move 11 0), [.change 2 ⟨[.delete 10 []], .toPersistent [] false, .delete []⟩]].map chTree) = .ok s ∧
    s.map Client.opt = [⟨.persist, 0, 0, 0, 0, 3, 5⟩, ⟨.persist, 30, 1000, 180, 0, 3, 5⟩] :=
  ⟨[⟨1, true, [⟨some 10, some .ssh, .live .ssh, none, 0, some 5, 4334, ⟨true, 7200, 9, 75⟩⟩,
        ⟨some 11, some .tls, .live .tls, some 3, 900, some 6, 7000, ⟨true, 60, 9, 75⟩⟩], ⟨.persist, 0, 0, 0, 0, 3, 5⟩⟩,
      ⟨2, true, [], ⟨.persist, 30, 1000, 180, 0, 3, 5⟩⟩], by decide +kernel, rfl⟩

/-! ## Keepalives -/

/-- **C137.** Full statement for Call Home (false, see `callhome_keepalives_false`): keepalives are sent to clients as configured. -/
def CallhomeKeepalives (disp : Bool) : Prop :=
  ∀ (d : ChData) (ds : List (List ClientEdit)) (m0 m : Map ClientConf), chConf d = some m0 → patchCh .contact m0 ds = some m →
    ∃ s, run disp (chData d) (ds.map chTree) = .ok s ∧ Holds Client.name KasAs s m

/-- **C137.** Proved for diffs that do not remove keepalives either. -/
theorem callhome_keepalives_partial (disp : Bool) (d : ChData) (ds : List (List ClientEdit)) (m0 m : Map ClientConf) (h0 : chConf d = some m0)
    (hd : mayRemove disp ds) (h : patchCh .keepalives m0 ds = some m) :
    patchCh .all m0 ds = some m ∧ ∃ s, run disp (chData d) (ds.map chTree) = .ok s ∧ Holds Client.name KasAs s m := by
  refine ⟨patchCh_all _ _ _ _ h, ?_⟩
  obtain ⟨s, h1, h2⟩ := run_ok disp .keepalives (by decide) d ds m0 m h0 hd h
  refine ⟨s, h1, h2.1, fun n => ?_⟩
  have := h2.2 n
  revert this
  cases s.find? (fun x => x.name == n) <;> cases m n <;> intro this
  · exact this
  · exact this
  · exact this
  · exact listRel_mono _ _ (fun _ _ hr => hr.2 rfl) _ _ (this.2.2.2 (by decide)).1

/-- **C137.** When keepalives are removed from the configuration, none are sent, though the defaults of the model apply. -/
theorem callhome_keepalives_false : ¬ CallhomeKeepalives true := by
  intro h
  obtain ⟨s, h1, h2⟩ := h [(1, ⟨[(10, ⟨.ssh, 5, none, none, none, ⟨some 60, none, none⟩⟩)], .persistent, ⟨none, none, none⟩⟩)]
    [oneEdit 1 (.change 10 (.params .ssh none .keep .keep .keep (.delete [])))] _ _ rfl rfl
  have h3 : run true (chData [(1, ⟨[(10, ⟨.ssh, 5, none, none, none, ⟨some 60, none, none⟩⟩)], .persistent, ⟨none, none, none⟩⟩)])
      ([oneEdit 1 (.change 10 (.params .ssh none .keep .keep .keep (.delete [])))].map chTree) =
      .ok [⟨1, true, [⟨some 10, some .ssh, .live .ssh, none, 0, some 5, 4334, ⟨false, 60, 9, 75⟩⟩], ⟨.persist, 0, 0, 0, 0, 3, 5⟩⟩] := by decide +kernel
  rw [h3] at h1
  cases h1
  have h4 := h2.2 1
  have h5 : KasAs ⟨1, true, [⟨some 10, some .ssh, .live .ssh, none, 0, some 5, 4334, ⟨false, 60, 9, 75⟩⟩], ⟨.persist, 0, 0, 0, 0, 3, 5⟩⟩
      ⟨[(10, ⟨.ssh, 5, none, none, none, ⟨none, none, none⟩⟩)], .persistent, ⟨none, none, none⟩⟩ := h4
  have h6 := h5.1.1
  cases h6

end Verif.Props
