import Verif.Spec.ConfSetup
import Verif.Lemmas.ConfCh

/-!
# Lemmas: setting up the whole configuration
-/

namespace Verif.ConfSetup
open Verif.ConfTree (Op Meta current)
open Verif.ConfStore
open Verif.ConfEndpt (Env Srv Endpt Net delOpts NetInv NetOk Inv net_del ListenConf ListenData ListenDiff EndptConf grants listenTree patchListen)
open Verif.ConfCh (Client destroyable ChData ClientConf ClientEdit chConf chData chTree patchCh)
open Verif.CertExp (Span Interval)

/-! ## Intervals -/

theorem span_text (p : Period) (h : p.valid = true) : spanOf p.text = some p.span := by
  obtain ⟨n, u⟩ := p
  have h1 : ∀ n, n ≤ 24 → spanOf (Period.text ⟨n, .months⟩) = some (Period.span ⟨n, .months⟩) := by decide
  have h2 : ∀ n, n ≤ 24 → spanOf (Period.text ⟨n, .weeks⟩) = some (Period.span ⟨n, .weeks⟩) := by decide
  have h3 : ∀ n, n ≤ 24 → spanOf (Period.text ⟨n, .days⟩) = some (Period.span ⟨n, .days⟩) := by decide
  have h4 : ∀ n, n ≤ 24 → spanOf (Period.text ⟨n, .hours⟩) = some (Period.span ⟨n, .hours⟩) := by decide
  cases u <;> simp only [Period.valid, Bool.and_eq_true, decide_eq_true_eq] at h
  · exact h1 n (by omega)
  · exact h2 n (by omega)
  · exact h3 n (by omega)
  · exact h4 n (by omega)

theorem iv_create (x : Iv) (h : ivValid x = true) (l : List Interval) : createInterval x.1.text x.2.text l = .ok (l ++ [ivOf x]) := by
  simp only [ivValid, Bool.and_eq_true] at h
  simp only [createInterval, span_text _ h.1, span_text _ h.2]
  rfl

theorem iv_delete (x : Iv) (h : ivValid x = true) (l : List Interval) (hx : ivOf x ∈ l) : (ivOf x :: delInterval x.1.text x.2.text l).Perm l := by
  simp only [ivValid, Bool.and_eq_true] at h
  simp only [delInterval, span_text _ h.1, span_text _ h.2]
  have hp : ∀ y : Interval, (decide (y.anchor = x.1.span) && decide (y.period = x.2.span)) = true ↔ y = ivOf x := by
    intro y
    obtain ⟨a, b⟩ := y
    simp [ivOf]
  cases hf : l.findIdx? (fun i => decide (i.anchor = x.1.span) && decide (i.period = x.2.span)) with
  | none =>
    rw [List.findIdx?_eq_none_iff] at hf
    have := hf _ hx
    rw [(hp (ivOf x)).mpr rfl] at this
    cases this
  | some i =>
    rw [List.findIdx?_eq_some_iff_getElem] at hf
    obtain ⟨h1, h2, _⟩ := hf
    have := swapDel_perm l i h1
    rw [(hp _).mp h2] at this
    exact this

theorem ivs_edit (es : List IvEdit) : ∀ (l l' : List Iv) (s : List Interval), (∀ x ∈ l, ivValid x = true) → s.Perm (l.map ivOf) → applyIvs l es = some l' →
    ∃ s', parseIvs .none s (es.map IvEdit.node) = .ok s' ∧ (∀ x ∈ l', ivValid x = true) ∧ s'.Perm (l'.map ivOf) := by
  induction es with
  | nil =>
    intro l l' s hv hp ha
    simp only [applyIvs, Option.some.injEq] at ha
    subst ha
    exact ⟨s, rfl, hv, hp⟩
  | cons e es ih =>
    intro l l' s hv hp ha
    simp only [applyIvs] at ha
    cases h1 : e.apply l with
    | none => rw [h1] at ha; cases ha
    | some l1 =>
      rw [h1] at ha
      simp only [Option.bind_some] at ha
      cases e with
      | create x =>
        simp only [IvEdit.apply] at h1
        split at h1
        · rename_i hx
          simp only [Option.some.injEq] at h1
          subst h1
          obtain ⟨s', q1, q2, q3⟩ := ih (l ++ [x]) l' (s ++ [ivOf x])
            (by intro y hy; rcases List.mem_append.mp hy with hy | hy
                · exact hv y hy
                · rw [List.mem_singleton.mp hy]; exact hx.1)
            (by rw [List.map_append]; exact hp.append_right _) ha
          refine ⟨s', ?_, q2, q3⟩
          have hc := iv_create x hx.1 s
          have : parseIv .none s (ivNode .create x) = .ok (s ++ [ivOf x]) := hc
          simp only [List.map_cons, IvEdit.node, parseIvs, this]
          exact q1
        · cases h1
      | delete x =>
        simp only [IvEdit.apply] at h1
        split at h1
        · rename_i hx
          simp only [Option.some.injEq] at h1
          subst h1
          have hd := iv_delete x (hv x hx) s (hp.mem_iff.mpr (List.mem_map_of_mem hx))
          obtain ⟨s', q1, q2, q3⟩ := ih (l.erase x) l' (delInterval x.1.text x.2.text s) (fun y hy => hv y (List.mem_of_mem_erase hy))
            (by
              have he : (l.map ivOf).Perm (ivOf x :: (l.erase x).map ivOf) := by
                have := (List.perm_cons_erase hx).map ivOf
                exact this
              exact ((hd.trans hp).trans he).cons_inv) ha
          refine ⟨s', ?_, q2, q3⟩
          have : parseIv .none s (ivNode .delete x) = .ok (delInterval x.1.text x.2.text s) := rfl
          simp only [List.map_cons, IvEdit.node, parseIvs, this]
          exact q1
        · cases h1

theorem ivs_data (l : List Iv) : ∀ (l0 l' : List Iv) (s : List Interval), applyIvs l0 (l.map IvEdit.create) = some l' →
    l' = l0 ++ l ∧ (∀ x ∈ l, ivValid x = true) ∧ parseIvs .create s (l.map (ivNode .absent)) = .ok (s ++ l.map ivOf) := by
  induction l with
  | nil =>
    intro l0 l' s h
    simp only [List.map_nil, applyIvs, Option.some.injEq] at h
    subst h
    exact ⟨by simp, by simp, by simp [parseIvs]⟩
  | cons x l ih =>
    intro l0 l' s h
    simp only [List.map_cons, applyIvs, IvEdit.apply] at h
    split at h
    · rename_i hx
      simp only [Option.bind_some] at h
      obtain ⟨h1, h2, h3⟩ := ih (l0 ++ [x]) l' (s ++ [ivOf x]) h
      refine ⟨by simp [h1], ?_, ?_⟩
      · intro y hy
        rcases List.mem_cons.mp hy with rfl | hy
        · exact hx.1
        · exact h2 y hy
      · have : parseIv .create s (ivNode .absent x) = .ok (s ++ [ivOf x]) := iv_create x hx.1 s
        simp only [List.map_cons, parseIvs, this, h3]
        simp
    · cases h

/-! ## Removal of everything -/

theorem delListen_ok (es : List Endpt) : ∀ (n : Net), (es.map Endpt.name).Nodup → NetInv (fun e => e ∈ es) n →
    (∀ e ∈ es, ∃ t, e.ti = some t ∧ e.opts = .live t) → ∃ n', delListen es n = .ok ([], n') ∧ NetInv (fun e => e ∈ ([] : List Endpt)) n' ∧ n'.next = n.next := by
  induction es with
  | nil => intro n _ h _; exact ⟨n, rfl, h, rfl⟩
  | cons e es ih =>
    intro n hn h hl
    obtain ⟨t, t1, t2⟩ := hl e (by simp)
    simp only [List.map_cons, List.nodup_cons] at hn
    obtain ⟨n1, c1, c2⟩ := net_del (fun y => y ∈ e :: es) (fun y => y ∈ es) n h e (by simp)
      (fun y hy => ⟨List.mem_cons_of_mem _ hy, by rintro rfl; exact hn.1 (List.mem_map_of_mem hy)⟩)
      (fun y hy => List.mem_cons.mp hy)
    obtain ⟨f, a, -, f2, -⟩ := h.2.1 e (by simp)
    obtain ⟨n2, d1, d2, d3⟩ := ih n1 hn.2 c2 (fun y hy => hl y (List.mem_cons_of_mem _ hy))
    refine ⟨n2, ?_, d2, d3.trans (ConfEndpt.close_loc _ _ _ c1).1⟩
    simp only [delListen, t1, delOpts, f2, reduceCtorEq, if_false, c1, t2, if_true, d1]

theorem clearListen_ok (b : Bool) (s : Srv) (m : Map EndptConf) (h : Inv b s m) :
    ∃ n, clearListen s = .ok { s with endpts := [], net := n } ∧ Inv b { s with endpts := [], net := n } (fun _ => none) ∧ n.next = s.net.next := by
  obtain ⟨n, h1, h2, h3⟩ := delListen_ok s.endpts s.net h.1.1 h.2 (by
    intro e he
    have := h.1.2 e.name
    rw [find_unique Endpt.name s.endpts h.1.1 e he] at this
    cases hm : m e.name with
    | none => rw [hm] at this; exact this.elim
    | some c => rw [hm] at this; exact ⟨c.ti, this.1, this.2.1⟩)
  refine ⟨n, ?_, ⟨holds_nil _ _, h2⟩, h3⟩
  simp only [clearListen, h1]

theorem clearCh_ok (w : ConfCh.Scope) (hw : w ≠ .all) (s : List Client) (m : Map ClientConf) (h : ConfCh.Inv true w s m) : clearCh s = .ok [] := by
  have : s.all destroyable = true := by
    rw [List.all_eq_true]
    intro c hc
    have hx := h.2 c.name
    rw [find_unique Client.name s h.1 c hc] at hx
    cases hm : m c.name with
    | none => rw [hm] at hx; exact hx.elim
    | some x =>
      rw [hm] at hx
      obtain ⟨r1, -, -, r2⟩ := hx
      obtain ⟨r2, -⟩ := r2 hw
      simp only [destroyable, r1, Bool.true_and, List.all_eq_true, Bool.and_eq_true]
      intro e he
      obtain ⟨b, -, hb⟩ := ConfCh.listRel_left _ _ _ r2 e he
      refine ⟨by rw [hb.1.1]; rfl, ?_⟩
      rw [hb.1.2.1]
      simp [hb.1.2.2.1]
  simp only [clearCh, this, if_true]

/-! ## Parts of the container `netconf-server` -/

theorem listen_data (env : Env) (hg : grants env) (b : Bool) (p : Op) (m : Meta) (hm : current m p = .create) (s : Srv) (hs : Inv b s (fun _ => none))
    (d : ListenData) (c : ListenConf) (h : d.conf = some c) :
    ∃ s', parse (ConfEndpt.srvCb env) p [] s (withMeta m d.tree) = .ok s' ∧ ConfEndpt.InvAll b s' c := by
  simp only [ListenData.conf, Option.map_eq_some_iff] at h
  obtain ⟨m', hm', rfl⟩ := h
  simp only [ListenData.tree, withMeta]
  rw [parse_set (ConfEndpt.srvCb env) p m [] s s .other 0 _ .create hm (.inl rfl) rfl]
  rw [parseList_cons _ _ _ _ { s with idle := d.idle.getD 180 } _ _ rfl]
  obtain ⟨s', q1, q2, q3⟩ := ConfEndpt.creates_all env hg b
    (⟨.other, Option.map Tree.val (d.endpts.map (fun q => ConfEndpt.endptData q.1 q.2)).head?⟩ :: ⟨.other, some (d.idle.getD 180)⟩ :: []) d.endpts
    { s with idle := d.idle.getD 180 } (fun _ => none) m' (ConfEndpt.inv_idle b s _ hs _) hm'
  refine ⟨s', ?_, q2, q3⟩
  rw [parseList_cons _ _ _ _ s' _ _ ?_]
  · rfl
  · rw [parse_set (ConfEndpt.srvCb env) .create .absent _ _ _ .other 0 _ .create rfl (.inl rfl) rfl]
    exact q1

theorem ch_data (disp : Bool) (w : ConfCh.Scope) (p : Op) (m : Meta) (hm : current m p = .create) (d : ChData) (c : Map ClientConf) (h : chConf d = some c) :
    ∃ s', parse (ConfCh.srvCb disp) p [] [] (withMeta m (chData d)) = .ok s' ∧ ConfCh.Inv disp w s' c := by
  obtain ⟨s', h1, h2⟩ := ConfCh.data_ok disp w d c h
  refine ⟨s', ?_, h2⟩
  rw [← h1]
  simp only [chData, withMeta]
  rw [parse_set (ConfCh.srvCb disp) .create .absent [] [] [] .other 0 _ .create rfl (.inl rfl) rfl,
    parse_set (ConfCh.srvCb disp) p m [] [] [] .other 0 _ .create hm (.inl rfl) rfl]

theorem ch_diff (disp : Bool) (s : List Client) (m : Map ClientConf) (h : ConfCh.Inv disp .contact s m) (es : List ClientEdit) (m' : Map ClientConf)
    (hd : disp = true ∨ ∀ k r, Edit.delete k r ∉ es) (hp : patchCh .contact m [es] = some m') :
    ∃ s', parse (ConfCh.srvCb disp) .none [] s (chTree es) = .ok s' ∧ ConfCh.Inv disp .contact s' m' := by
  obtain ⟨s', h1, h2⟩ := ConfCh.diffs_ok disp .contact (by decide) [es] s m m' h (hd.imp id (fun hd x hx => by rw [List.mem_singleton.mp hx]; exact hd)) hp
  refine ⟨s', ?_, h2⟩
  have e : parse (ConfCh.srvCb disp) .none [] s (chTree es) = parse (ConfCh.srvCb disp) .unknown [] s (chTree es) := rfl
  rw [e]
  simp only [List.map_cons, List.map_nil, ConfCh.diffs] at h1
  cases hc : parse (ConfCh.srvCb disp) .unknown [] s (chTree es) with
  | ok x => rw [hc] at h1; exact h1
  | fail x => rw [hc] at h1; cases h1
  | ub => rw [hc] at h1; cases h1

theorem listen_diff (env : Env) (hg : grants env) (s : Srv) (c c' : ListenConf) (h : ConfEndpt.InvAll false s c) (d : ListenDiff) (hd : ConfEndpt.noLost d)
    (hp : patchListen c d = some c') : ∃ s', parse (ConfEndpt.srvCb env) .none [] s (listenTree d) = .ok s' ∧ ConfEndpt.InvAll false s' c' := by
  obtain ⟨s', h1, h2⟩ := ConfEndpt.diff_ok env hg false s c c' h d (ConfEndpt.okDiff_false d hd) hp
  exact ⟨s', h1, h2⟩

/-- The endpoints of a part of the configuration. -/
def endptsOf (o : Option ListenConf) : Map EndptConf := (o.map ListenConf.endpts).getD (fun _ => none)

/-- Invariant of the part `listen`. -/
def LInv (s : Srv) (o : Option ListenConf) : Prop := Inv false s (endptsOf o) ∧ ∀ l, o = some l → s.idle = l.idle.getD 180

/-- Invariant of the part `call-home`. -/
def CInv (disp : Bool) (s : List Client) (o : Option (Map ClientConf)) : Prop := ConfCh.Inv disp .contact s (o.getD (fun _ => none))

theorem listen_none (s : Srv) (h : LInv s none) : Inv false s (fun _ => none) := h.1

theorem ch_none (disp : Bool) (s : List Client) (h : CInv disp s none) : s = [] := by
  cases s with
  | nil => rfl
  | cons a l =>
    have := h.2 a.name
    rw [find_unique Client.name (a :: l) h.1 a (by simp)] at this
    exact this.elim

/-- Creation of the part `listen`, if it is there. -/
theorem stepListen_create (env : Env) (hg : grants env) (p : Op) (m : Meta) (hm : current m p = .create) (s : Srv) (hs : LInv s none)
    (o : Option ListenData) (c : Option ListenConf) (h : partConf none (fun x => (ListenData.conf x).map some) o = some c) (srv : Server) (he : srv.listen = s) :
    ∃ s', stepListen env p (o.map (fun d => withMeta m d.tree)) srv = .ok { srv with listen := s' } ∧ LInv s' c := by
  cases o with
  | none =>
    simp only [partConf, Option.some.injEq] at h
    subst h
    exact ⟨s, by simp only [Option.map_none, stepListen, ← he], hs⟩
  | some d =>
    simp only [partConf, Option.map_eq_some_iff] at h
    obtain ⟨l, hl, rfl⟩ := h
    obtain ⟨s', h1, h2⟩ := listen_data env hg false p m hm s (listen_none s hs) d l hl
    refine ⟨s', ?_, h2.1, ?_⟩
    · have hx : current (metaOf (withMeta m d.tree)) p ≠ .delete := by
        have : metaOf (withMeta m d.tree) = m := rfl
        rw [this, hm]; decide
      simp only [Option.map_some, stepListen, parseListen, hx, if_false, he, h1, on]
    · intro l' hl'; cases hl'; exact h2.2

theorem stepCh_create (disp : Bool) (p : Op) (m : Meta) (hm : current m p = .create) (o : Option ChData) (c : Option (Map ClientConf))
    (h : partConf none (fun x => (chConf x).map some) o = some c) (srv : Server) (he : srv.ch = []) :
    ∃ s', stepCh disp p (o.map (fun d => withMeta m (chData d))) srv = .ok { srv with ch := s' } ∧ CInv disp s' c := by
  cases o with
  | none =>
    simp only [partConf, Option.some.injEq] at h
    subst h
    exact ⟨[], by simp only [Option.map_none, stepCh, ← he], holds_nil _ _⟩
  | some d =>
    simp only [partConf, Option.map_eq_some_iff] at h
    obtain ⟨l, hl, rfl⟩ := h
    obtain ⟨s', h1, h2⟩ := ch_data disp .contact p m hm d l hl
    refine ⟨s', ?_, h2⟩
    have hx : current (metaOf (withMeta m (chData d))) p ≠ .delete := by
      have : metaOf (withMeta m (chData d)) = m := rfl
      rw [this, hm]; decide
    simp only [Option.map_some, stepCh, parseCh, hx, if_false, he, h1, on]

/-- A diff of the part `listen`. -/
theorem stepListen_diff (env : Env) (hg : grants env) (srv : Server) (o o' : Option ListenConf) (hs : LInv srv.listen o)
    (d : ConfSetup.PartDiff ListenDiff ListenData) (hd : listenOk d) (h : d.apply ListenData.conf patchListen o = some o') :
    ∃ s', stepListen env .none (d.tree ListenData.tree listenTree) srv = .ok { srv with listen := s' } ∧ LInv s' o' := by
  cases d with
  | keep =>
    simp only [PartDiff.apply, Option.some.injEq] at h
    subst h
    exact ⟨srv.listen, rfl, hs⟩
  | create x =>
    cases o with
    | some c => cases h
    | none =>
      exact stepListen_create env hg .none .create rfl srv.listen hs (some x) o' h srv rfl
  | edit x =>
    cases o with
    | none => cases h
    | some c =>
      simp only [PartDiff.apply, Option.map_eq_some_iff] at h
      obtain ⟨c', hc, rfl⟩ := h
      obtain ⟨s', h1, h2⟩ := listen_diff env hg srv.listen c c' ⟨hs.1, hs.2 c rfl⟩ x hd hc
      refine ⟨s', ?_, h2.1, ?_⟩
      · have hx : current (metaOf (listenTree x)) .none ≠ .delete := by change Op.none ≠ Op.delete; decide
        simp only [PartDiff.tree, stepListen, parseListen, hx, if_false, h1, on]
      · intro l' hl'; cases hl'; exact h2.2
  | delete rest =>
    cases o with
    | none => cases h
    | some c =>
      simp only [PartDiff.apply, Option.some.injEq] at h
      subst h
      obtain ⟨n, h1, h2, -⟩ := clearListen_ok false srv.listen _ hs.1
      refine ⟨_, ?_, h2, fun l hl => by cases hl⟩
      have hx : current (metaOf (.node .other 0 .delete rest)) .none = .delete := rfl
      simp only [PartDiff.tree, stepListen, parseListen, hx, if_true, h1, on]

/-- A diff of the part `call-home`. -/
theorem stepCh_diff (disp : Bool) (srv : Server) (o o' : Option (Map ClientConf)) (hs : CInv disp srv.ch o)
    (d : ConfSetup.PartDiff (List ClientEdit) ChData) (hd : chOk disp o d) (h : d.apply chConf chStep o = some o') :
    ∃ s', stepCh disp .none (d.tree chData chTree) srv = .ok { srv with ch := s' } ∧ CInv disp s' o' := by
  cases d with
  | keep =>
    simp only [PartDiff.apply, Option.some.injEq] at h
    subst h
    exact ⟨srv.ch, rfl, hs⟩
  | create x =>
    cases o with
    | some c => cases h
    | none =>
      have he := ch_none disp srv.ch hs
      exact stepCh_create disp .none .create rfl (some x) o' h srv he
  | edit x =>
    cases o with
    | none => cases h
    | some c =>
      simp only [PartDiff.apply, Option.map_eq_some_iff] at h
      obtain ⟨c', hc, rfl⟩ := h
      obtain ⟨h3, h4⟩ := hd
      have h3 := h3 c rfl
      cases h5 : patchCh .contact c [x] with
      | none => rw [h5] at h3; cases h3
      | some c2 =>
        have := ConfCh.patchCh_all _ _ _ _ h5
        simp only [chStep] at hc
        rw [this] at hc
        cases hc
        obtain ⟨s', h1, h2⟩ := ch_diff disp srv.ch c hs x c' h4 h5
        refine ⟨s', ?_, h2⟩
        have hx : current (metaOf (chTree x)) .none ≠ .delete := by change Op.none ≠ Op.delete; decide
        simp only [PartDiff.tree, stepCh, parseCh, hx, if_false, h1, on]
  | delete rest =>
    cases o with
    | none => cases h
    | some c =>
      simp only [PartDiff.apply, Option.some.injEq] at h
      subst h
      have hd : disp = true := hd
      subst hd
      have h1 := clearCh_ok .contact (by decide) srv.ch _ hs
      refine ⟨[], ?_, holds_nil _ _⟩
      have hx : current (metaOf (.node .other 0 .delete rest)) .none = .delete := rfl
      simp only [PartDiff.tree, stepCh, parseCh, hx, if_true, h1, on]

/-! ## The whole server -/

/-- Invariant of the whole server. -/
def SInv (disp : Bool) (s : Server) (c : Conf) : Prop :=
  HoldsKs s.ks c.ks ∧ HoldsTs s.ts c.ts ∧ LInv s.listen c.listen ∧ CInv disp s.ch c.ch ∧ s.ivs.Perm (c.ivs.map ivOf) ∧ ∀ x ∈ c.ivs, ivValid x = true

theorem sinv_boot (disp : Bool) : SInv disp boot Conf.empty :=
  ⟨holds_nil _ _, ⟨holds_nil _ _, holds_nil _ _⟩, ⟨ConfEndpt.inv_start false, fun l hl => by cases hl⟩, holds_nil _ _, List.Perm.refl _, fun x hx => by cases hx⟩

theorem as_of_sinv (disp : Bool) (s : Server) (c : Conf) (h : SInv disp s c) : As s c := by
  obtain ⟨h1, h2, h3, h4, h5, -⟩ := h
  refine ⟨h1, h2, ConfEndpt.listenAs_of_inv false _ _ h3.1, h3.2, ⟨h4.1, fun n => ?_⟩, h5⟩
  have := h4.2 n
  change OptRel _ _ (c.ch.getD (fun _ => none) n)
  revert this
  cases s.ch.find? (fun x => x.name == n) <;> cases c.ch.getD (fun _ => none) n <;> intro this
  · exact this
  · exact this
  · exact this
  · exact ⟨ConfCh.listRel_mono _ _ (fun _ _ hr => hr.1) _ _ (this.2.2.2 (by decide)).1, this.2.1⟩

/-- Diffs of the server. -/
theorem stepSrv_diff (env : Env) (hg : grants env) (disp : Bool) (s : Server) (c c' : Conf) (h3 : LInv s.listen c.listen)
    (h4 : CInv disp s.ch c.ch) (d : Option SrvDiff)
    (hd : ∀ x, d = some x → x.ok disp c) (hp : optApply SrvDiff.apply c d = some c') :
    ∃ l e, stepSrv env disp .unknown (d.map SrvDiff.tree) s = .ok { s with listen := l, ch := e } ∧ LInv l c'.listen ∧ CInv disp e c'.ch := by
  cases d with
  | none =>
    simp only [optApply, Option.some.injEq] at hp
    subst hp
    exact ⟨s.listen, s.ch, rfl, h3, h4⟩
  | some d =>
    have hd := hd d rfl
    simp only [optApply] at hp
    cases d with
    | edit a b =>
      simp only [SrvDiff.apply] at hp
      cases e1 : a.apply ListenData.conf patchListen c.listen with
      | none => rw [e1] at hp; cases hp
      | some x =>
      cases e2 : b.apply chConf chStep c.ch with
      | none => rw [e1, e2] at hp; cases hp
      | some y =>
      rw [e1, e2] at hp
      simp only [Option.some.injEq] at hp
      subst hp
      obtain ⟨l, l1, l2⟩ := stepListen_diff env hg s c.listen x h3 a hd.1 e1
      obtain ⟨m, m1, m2⟩ := stepCh_diff disp { s with listen := l } c.ch y h4 b hd.2 e2
      refine ⟨l, m, ?_, l2, m2⟩
      have hc : current (SrvDiff.edit a b).tree.m .unknown = .none := rfl
      simp only [Option.map_some, stepSrv, hc, reduceCtorEq, if_false]
      simp only [SrvDiff.tree, l1, andThen, m1]
    | create a b =>
      simp only [SrvDiff.apply] at hp
      split at hp
      · rename_i hn
        simp only [Bool.and_eq_true, Option.isNone_iff_eq_none] at hn
        cases e1 : partConf none (fun x => (ListenData.conf x).map some) a with
        | none => rw [e1] at hp; cases hp
        | some x =>
        cases e2 : partConf none (fun x => (chConf x).map some) b with
        | none => rw [e1, e2] at hp; cases hp
        | some y =>
        rw [e1, e2] at hp
        simp only [Option.some.injEq] at hp
        subst hp
        rw [hn.1] at h3
        rw [hn.2] at h4
        obtain ⟨l, l1, l2⟩ := stepListen_create env hg .create .absent rfl s.listen h3 a x e1 s rfl
        obtain ⟨m, m1, m2⟩ := stepCh_create disp .create .absent rfl b y e2 { s with listen := l } (ch_none disp s.ch h4)
        refine ⟨l, m, ?_, l2, m2⟩
        have hc : current (SrvDiff.create a b).tree.m .unknown = .create := rfl
        simp only [Option.map_some, stepSrv, hc, reduceCtorEq, if_false]
        have ha : a.map (fun d => withMeta .absent d.tree) = a.map ListenData.tree := rfl
        have hb : b.map (fun d => withMeta .absent (chData d)) = b.map chData := rfl
        rw [ha] at l1
        rw [hb] at m1
        simp only [SrvDiff.tree, l1, andThen, m1]
      · cases hp
    | clear a b =>
      simp only [SrvDiff.apply, Option.some.injEq] at hp
      subst hp
      obtain ⟨d1, d2⟩ := hd
      rw [d1] at h3
      rw [d2] at h4
      exact ⟨s.listen, s.ch, rfl, h3, h4⟩

/-- Diffs of the intervals. -/
theorem stepLn2_diff (s : Server) (l l' : List Iv) (h : s.ivs.Perm (l.map ivOf)) (hv : ∀ x ∈ l, ivValid x = true) (d : Option LnDiff)
    (hd : ∀ x, d = some x → x.ok l) (hp : optApply LnDiff.apply l d = some l') :
    ∃ v, stepLn2 .unknown (d.map LnDiff.tree) s = .ok { s with ivs := v } ∧ v.Perm (l'.map ivOf) ∧ ∀ x ∈ l', ivValid x = true := by
  cases d with
  | none =>
    simp only [optApply, Option.some.injEq] at hp
    subst hp
    exact ⟨s.ivs, rfl, h, hv⟩
  | some d =>
    have hd := hd d rfl
    simp only [optApply] at hp
    cases d with
    | edit es =>
      obtain ⟨v, h1, h2, h3⟩ := ivs_edit es l l' s.ivs hv h hp
      refine ⟨v, ?_, h3, h2⟩
      have : parseLn2 .unknown s.ivs (LnDiff.edit es).tree = .ok v := h1
      simp only [Option.map_some, stepLn2, this, on]
    | clearIvs rest =>
      simp only [LnDiff.apply, Option.some.injEq] at hp
      subst hp
      have hd : l = [] := hd
      subst hd
      exact ⟨s.ivs, rfl, h, hv⟩
    | clear rest =>
      simp only [LnDiff.apply, Option.some.injEq] at hp
      subst hp
      exact ⟨[], rfl, List.Perm.refl _, fun x hx => by cases hx⟩

/-! ## Finding the modules in data -/

theorem find_diff (d : Diff) : findKs d.tops = d.ks.map ksTree ∧ findTs d.tops = d.ts.map tsTree ∧ findSrv d.tops = d.srv.map SrvDiff.tree ∧
    findLn2 d.tops = d.ln2.map LnDiff.tree := by
  obtain ⟨a, b, c, e⟩ := d
  cases a <;> cases b <;> cases c <;> cases e <;> exact ⟨rfl, rfl, rfl, rfl⟩

theorem find_data (d : Data) : findKs d.tops = d.ks.map ksDataTree ∧ findTs d.tops = d.ts.map TsData.tree ∧
    findSrv d.tops = some ⟨.absent, d.listen.map ListenData.tree, d.ch.map chData⟩ ∧
    findLn2 d.tops = d.ivs.map (fun l => ⟨.absent, some (.absent, l.map (ivNode .absent))⟩) := by
  obtain ⟨a, b, c, e, f, g⟩ := d
  cases a <;> cases b <;> cases f <;> cases g <;> exact ⟨rfl, rfl, rfl, rfl⟩

theorem diff_ok (env : Env) (hg : grants env) (disp : Bool) (s : Server) (c c' : Conf) (h : SInv disp s c) (d : Diff)
    (hd : (Step.diff d).ok disp c) (hp : d.apply c = some c') : ∃ s', setupDiff env disp d.tops s = .ok s' ∧ SInv disp s' c' := by
  simp only [Diff.apply] at hp
  cases e1 : optApply patchKs c.ks d.ks with
  | none => rw [e1] at hp; cases hp
  | some a =>
  cases e2 : optApply patchTs c.ts d.ts with
  | none => rw [e1, e2] at hp; cases hp
  | some b =>
  cases e3 : optApply SrvDiff.apply c d.srv with
  | none => rw [e1, e2, e3] at hp; cases hp
  | some e =>
  cases e4 : optApply LnDiff.apply c.ivs d.ln2 with
  | none => rw [e1, e2, e3, e4] at hp; cases hp
  | some f =>
  rw [e1, e2, e3, e4] at hp
  simp only [Option.some.injEq] at hp
  subst hp
  obtain ⟨f1, f2, f3, f4⟩ := find_diff d
  have hk : ∃ k, stepKs .unknown (d.ks.map ksTree) s = .ok { s with ks := k } ∧ HoldsKs k a := by
    cases hx : d.ks with
    | none =>
      rw [hx] at e1
      simp only [optApply, Option.some.injEq] at e1
      subst e1
      exact ⟨s.ks, rfl, h.1⟩
    | some x =>
      rw [hx] at e1
      obtain ⟨k, k1, k2⟩ := ks_diff_ok s.ks c.ks x a h.1 (hd.1 x hx) e1
      exact ⟨k, by simp only [Option.map_some, stepKs, k1, on], k2⟩
  obtain ⟨k, k1, k2⟩ := hk
  have ht : ∃ t, stepTs .unknown (d.ts.map tsTree) { s with ks := k } = .ok { s with ks := k, ts := t } ∧ HoldsTs t b := by
    cases hx : d.ts with
    | none =>
      rw [hx] at e2
      simp only [optApply, Option.some.injEq] at e2
      subst e2
      exact ⟨s.ts, rfl, h.2.1⟩
    | some x =>
      rw [hx] at e2
      obtain ⟨t, t1, t2⟩ := ts_diff_ok s.ts c.ts x b h.2.1 e2
      exact ⟨t, by simp only [Option.map_some, stepTs, t1, on], t2⟩
  obtain ⟨t, t1, t2⟩ := ht
  obtain ⟨l, m, l1, l2, l3⟩ := stepSrv_diff env hg disp { s with ks := k, ts := t } c e h.2.2.1 h.2.2.2.1 d.srv hd.2.1 e3
  obtain ⟨v, v1, v2, v3⟩ := stepLn2_diff { s with ks := k, ts := t, listen := l, ch := m } c.ivs f h.2.2.2.2.1 h.2.2.2.2.2 d.ln2 hd.2.2 e4
  refine ⟨{ s with ks := k, ts := t, listen := l, ch := m, ivs := v }, ?_, k2, t2, l2, l3, v2, v3⟩
  simp only [setupDiff, fill, f1, f2, f3, f4, k1, andThen, t1, l1, v1]

/-! ## Complete data -/

theorem hasOpL_iff (ts : List Tree) : hasOpL ts = true ↔ ∃ t ∈ ts, hasOp t = true := by
  induction ts with
  | nil => simp [hasOpL]
  | cons t ts ih => simp [hasOpL, ih]

theorem marked_hasOp {t : Tree} (h : Marked t) : hasOp t = true := by
  induction h with
  | here l v m ch h => simp [hasOp, h]
  | under l v m ch t ht _ ih => simp [hasOp, (hasOpL_iff ch).2 ⟨t, ht, ih⟩]

mutual
theorem hasOp_marked : ∀ (t : Tree), hasOp t = true → Marked t
  | .node l v m ch, h => by
    by_cases hm : m = .absent
    · subst hm
      have h : hasOpL ch = true := by simpa [hasOp] using h
      obtain ⟨t, ht, hk⟩ := hasOpL_marked ch h
      exact .under _ _ _ _ t ht hk
    · exact .here _ _ _ _ hm
theorem hasOpL_marked : ∀ (ts : List Tree), hasOpL ts = true → ∃ t ∈ ts, Marked t
  | [], h => by simp [hasOpL] at h
  | t :: ts, h => by
    simp only [hasOpL, Bool.or_eq_true] at h
    rcases h with h | h
    · exact ⟨t, List.mem_cons_self, hasOp_marked t h⟩
    · obtain ⟨u, hu, hk⟩ := hasOpL_marked ts h
      exact ⟨u, List.mem_cons_of_mem _ hu, hk⟩
end

theorem hasOp_iff (t : Tree) : hasOp t = true ↔ Marked t := ⟨hasOp_marked t, marked_hasOp⟩

theorem topOp_iff (t : Top) : t.hasOp = true ↔ t.Marked := by
  cases t with
  | ks t => exact hasOp_iff t
  | ts t => exact hasOp_iff t
  | srv t => simp [Top.hasOp, Top.Marked, hasOp_iff, Option.any_eq_true]
  | ln2 t => simp [Top.hasOp, Top.Marked, Option.any_eq_true]

theorem hasOpL_append (a b : List Tree) : hasOpL (a ++ b) = (hasOpL a || hasOpL b) := by
  induction a with
  | nil => rfl
  | cons t ts ih => simp only [List.cons_append, hasOpL, ih, Bool.or_assoc]

theorem hasOpL_map {α : Type} (f : α → Tree) (l : List α) (h : ∀ x, hasOp (f x) = false) : hasOpL (l.map f) = false := by
  induction l with
  | nil => rfl
  | cons x l ih => simp only [List.map_cons, hasOpL, h, ih, Bool.or_self]

theorem hasOp_leaf (l : Label) (v : Nat) : hasOp (leaf l v) = false := rfl

theorem hasOp_opt (l : Label) (o : Option Nat) : hasOpL (optLeaf l o) = false := by cases o <;> rfl

theorem hasOp_node (l : Label) (v : Nat) (ch : List Tree) (h : hasOpL ch = false) : hasOp (.node l v .absent ch) = false := by
  simp only [hasOp, h]; rfl

theorem hasOp_ks (l : List (Nat × KeyData)) : hasOp (ksDataTree l) = false := by
  refine hasOp_node _ _ _ ?_
  simp only [hasOpL, Bool.or_false]
  refine hasOp_node _ _ _ (hasOpL_map _ _ (fun x => ?_))
  refine hasOp_node _ _ _ ?_
  simp only [hasOpL, hasOpL_append, hasOp_opt, hasOp_leaf, Bool.or_false, Bool.false_or]
  exact hasOp_node _ _ _ (hasOpL_map _ _ (fun x => rfl))

theorem hasOp_ts (d : TsData) : hasOp d.tree = false := by
  refine hasOp_node _ _ _ ?_
  simp only [hasOpL, Bool.or_false, Bool.or_eq_false_iff]
  constructor
  · refine hasOp_node _ _ _ (hasOpL_map _ _ (fun x => ?_))
    refine hasOp_node _ _ _ ?_
    simp only [hasOpL, hasOp_leaf, Bool.false_or]
    exact hasOpL_map _ _ (fun x => rfl)
  · refine hasOp_node _ _ _ (hasOpL_map _ _ (fun x => ?_))
    refine hasOp_node _ _ _ ?_
    simp only [hasOpL, hasOp_leaf, Bool.false_or]
    exact hasOpL_map _ _ (fun x => rfl)

theorem hasOp_listen (d : ListenData) : hasOp d.tree = false := by
  refine hasOp_node _ _ _ ?_
  simp only [hasOpL, hasOp_leaf, Bool.or_false, Bool.false_or]
  exact hasOp_node _ _ _ (hasOpL_map _ _ (fun x => rfl))

theorem hasOp_ch (d : ChData) : hasOp (chData d) = false := by
  refine hasOp_node _ _ _ (hasOpL_map _ _ (fun x => ?_))
  refine hasOp_node _ _ _ ?_
  simp only [hasOpL, hasOp_leaf, Bool.or_false, Bool.false_or, Bool.or_eq_false_iff]
  refine ⟨hasOp_node _ _ _ (hasOpL_map _ _ (fun y => ?_)), hasOp_node _ _ _ ?_, rfl⟩
  · refine hasOp_node _ _ _ ?_
    simp only [hasOpL, hasOp_leaf, Bool.or_false, Bool.false_or]
    refine hasOp_node _ _ _ ?_
    simp only [hasOpL, Bool.or_false]
    refine hasOp_node _ _ _ ?_
    simp only [hasOpL, hasOpL_append, hasOp_opt, hasOp_leaf, Bool.false_or]
    rfl
  · simp only [hasOpL, Bool.or_false]
    cases x.2.conn with
    | persistent => rfl
    | periodic p a i =>
      refine hasOp_node _ _ _ ?_
      simp only [hasOpL, hasOpL_append, hasOp_opt, hasOp_leaf, Bool.false_or]

theorem data_noOp (d : Data) : d.tops.any Top.hasOp = false := by
  have h1 : d.stores.any Top.hasOp = false := by
    obtain ⟨a, b, c, e, f, g⟩ := d
    cases a <;> cases b <;> simp [Data.stores, Top.hasOp, hasOp_ks, hasOp_ts]
  have h2 : d.server.any Top.hasOp = false := by
    obtain ⟨a, b, c, e, f, g⟩ := d
    cases c <;> cases e <;> cases f <;> simp [Data.server, Top.hasOp, hasOp_listen, hasOp_ch, ivNode]
  simp only [Data.tops]
  split <;> simp only [List.any_append, h1, h2, Bool.or_self]

theorem dropWhile_any {α : Type} (p q : α → Bool) (l : List α) (h : l.any q = false) : (l.dropWhile p).any q = false := by
  induction l with
  | nil => rfl
  | cons a l ih =>
    simp only [List.any_cons, Bool.or_eq_false_iff] at h
    simp only [List.dropWhile_cons]
    split
    · exact ih h.2
    · simp only [List.any_cons, h.1, h.2, Bool.or_self]

theorem clear_ok (disp : Bool) (s : Server) (c : Conf) (h : SInv disp s c) (hd : disp = true ∨ c.ch = none) :
    ∃ l, clear s = some ⟨⟨[]⟩, ⟨[], []⟩, l, [], s.ivs⟩ ∧ LInv l none ∧ l.net.next = s.listen.net.next ∧ l.endpts = [] ∧ l.idle = s.listen.idle := by
  obtain ⟨-, -, h3, h4, -, -⟩ := h
  obtain ⟨n, h1, h2, h5⟩ := clearListen_ok false s.listen _ h3.1
  have hc : clearCh s.ch = .ok [] := by
    rcases hd with rfl | hd
    · exact clearCh_ok .contact (by decide) s.ch _ h4
    · rw [hd] at h4
      rw [ch_none disp s.ch h4]
      rfl
  refine ⟨_, ?_, ⟨h2, fun l hl => by cases hl⟩, h5, rfl, rfl⟩
  simp only [clear, h1, hc]
  rfl

/-- Complete data on a server where everything but the intervals is removed. -/
theorem fill_data (env : Env) (hg : grants env) (disp : Bool) (l : Srv) (hl : LInv l none) (v : List Interval) (d : Data) (c : Conf) (hc : d.conf = some c) :
    ∃ s', fill env disp .create d.tops ⟨⟨[]⟩, ⟨[], []⟩, l, [], v⟩ = .ok s' ∧ HoldsKs s'.ks c.ks ∧ HoldsTs s'.ts c.ts ∧ LInv s'.listen c.listen ∧
      CInv disp s'.ch c.ch ∧ s'.ivs = v ++ c.ivs.map ivOf ∧ ∀ x ∈ c.ivs, ivValid x = true := by
  simp only [Data.conf] at hc
  cases e1 : partConf (fun _ => none) ksDataConf d.ks with
  | none => rw [e1] at hc; cases hc
  | some a =>
  cases e2 : partConf TsConf.empty TsData.conf d.ts with
  | none => rw [e1, e2] at hc; cases hc
  | some b =>
  cases e3 : partConf none (fun x => (ListenData.conf x).map some) d.listen with
  | none => rw [e1, e2, e3] at hc; cases hc
  | some e =>
  cases e4 : partConf none (fun x => (chConf x).map some) d.ch with
  | none => rw [e1, e2, e3, e4] at hc; cases hc
  | some f =>
  cases e5 : partConf [] (fun l => applyIvs [] (l.map IvEdit.create)) d.ivs with
  | none => rw [e1, e2, e3, e4, e5] at hc; cases hc
  | some g =>
  rw [e1, e2, e3, e4, e5] at hc
  simp only [Option.some.injEq] at hc
  subst hc
  obtain ⟨f1, f2, f3, f4⟩ := find_data d
  have hk : ∃ k, stepKs .create (d.ks.map ksDataTree) ⟨⟨[]⟩, ⟨[], []⟩, l, [], v⟩ = .ok ⟨k, ⟨[], []⟩, l, [], v⟩ ∧ HoldsKs k a := by
    cases hx : d.ks with
    | none =>
      rw [hx] at e1
      simp only [partConf, Option.some.injEq] at e1
      subst e1
      exact ⟨⟨[]⟩, rfl, holds_nil _ _⟩
    | some x =>
      rw [hx] at e1
      obtain ⟨k, k1, k2⟩ := ks_data_ok x a e1
      exact ⟨k, by simp only [Option.map_some, stepKs, k1, on], k2⟩
  obtain ⟨k, k1, k2⟩ := hk
  have ht : ∃ t, stepTs .create (d.ts.map TsData.tree) ⟨k, ⟨[], []⟩, l, [], v⟩ = .ok ⟨k, t, l, [], v⟩ ∧ HoldsTs t b := by
    cases hx : d.ts with
    | none =>
      rw [hx] at e2
      simp only [partConf, Option.some.injEq] at e2
      subst e2
      exact ⟨⟨[], []⟩, rfl, holds_nil _ _, holds_nil _ _⟩
    | some x =>
      rw [hx] at e2
      obtain ⟨t, t1, t2⟩ := ts_data_ok x b e2
      exact ⟨t, by simp only [Option.map_some, stepTs, t1, on], t2⟩
  obtain ⟨t, t1, t2⟩ := ht
  obtain ⟨l', l1, l2⟩ := stepListen_create env hg .create .absent rfl l hl d.listen e e3 ⟨k, t, l, [], v⟩ rfl
  obtain ⟨m, m1, m2⟩ := stepCh_create disp .create .absent rfl d.ch f e4 ⟨k, t, l', [], v⟩ rfl
  have ha : d.listen.map (fun d => withMeta .absent d.tree) = d.listen.map ListenData.tree := rfl
  have hb : d.ch.map (fun d => withMeta .absent (chData d)) = d.ch.map chData := rfl
  rw [ha] at l1
  rw [hb] at m1
  have hs : stepSrv env disp .create (some ⟨.absent, d.listen.map ListenData.tree, d.ch.map chData⟩) ⟨k, t, l, [], v⟩ = .ok ⟨k, t, l', m, v⟩ := by
    have hcu : current Meta.absent .create = .create := rfl
    simp only [stepSrv, hcu, reduceCtorEq, if_false, l1, andThen, m1]
  have hv : stepLn2 .create (d.ivs.map (fun l => ⟨.absent, some (.absent, l.map (ivNode .absent))⟩)) ⟨k, t, l', m, v⟩ = .ok ⟨k, t, l', m, v ++ g.map ivOf⟩ ∧
      ∀ x ∈ g, ivValid x = true := by
    cases hx : d.ivs with
    | none =>
      rw [hx] at e5
      simp only [partConf, Option.some.injEq] at e5
      subst e5
      exact ⟨by simp [stepLn2], by simp⟩
    | some x =>
      rw [hx] at e5
      obtain ⟨i1, i2, i3⟩ := ivs_data x [] g v e5
      simp only [List.nil_append] at i1
      subst i1
      refine ⟨?_, i2⟩
      have : parseLn2 .create v ⟨.absent, some (.absent, g.map (ivNode .absent))⟩ = .ok (v ++ g.map ivOf) := i3
      simp only [Option.map_some, stepLn2, this, on]
  refine ⟨⟨k, t, l', m, v ++ g.map ivOf⟩, ?_, k2, t2, l2, m2, rfl, hv.2⟩
  simp only [fill, f1, f2, f3, f4, k1, andThen, t1, hs, hv.1]

theorem setup_eq (env : Env) (disp : Bool) (d : Data) (s : Server) :
    setupData env disp d.tops s = (match clear s with | none => .ub | some s0 => fill env disp .create d.tops s0) := by
  have h1 : (findSrv d.tops).isNone = false := by rw [(find_data d).2.2.1]; rfl
  have h2 : (d.tops.dropWhile (fun t => !t.isSrv)).any Top.hasOp = false := dropWhile_any _ _ _ (data_noOp d)
  simp only [setupData, h1, h2, Bool.false_eq_true, if_false]
  cases clear s <;> rfl

theorem data_ok (env : Env) (hg : grants env) (disp : Bool) (s : Server) (c c' : Conf) (h : SInv disp s c) (d : Data)
    (hd : disp = true ∨ c.ch = none) (hp : d.conf = some c') :
    ∃ s', setupData env disp d.tops s = .ok s' ∧ HoldsKs s'.ks c'.ks ∧ HoldsTs s'.ts c'.ts ∧ LInv s'.listen c'.listen ∧ CInv disp s'.ch c'.ch ∧
      s'.ivs = s.ivs ++ c'.ivs.map ivOf ∧ ∀ x ∈ c'.ivs, ivValid x = true := by
  obtain ⟨l, h1, h2, -⟩ := clear_ok disp s c h hd
  rw [setup_eq, h1]
  exact fill_data env hg disp l h2 s.ivs d c' hp

theorem step_ok (env : Env) (hg : grants env) (disp : Bool) (s : Server) (c c' : Conf) (h : SInv disp s c) (x : Step) (hx : x.ok disp c)
    (hp : x.apply c = some c') : ∃ s', call env disp s x.call = .ok s' ∧ SInv disp s' c' := by
  cases x with
  | data d =>
    obtain ⟨s', h1, h2, h3, h4, h5, h6, h7⟩ := data_ok env hg disp s c c' h d hx.2 hp
    refine ⟨s', h1, h2, h3, h4, h5, ?_, h7⟩
    have hn : s.ivs = [] := by
      have := h.2.2.2.2.1
      rw [hx.1] at this
      exact List.perm_nil.mp this
    rw [h6, hn]
    exact List.Perm.refl _
  | diff d => exact diff_ok env hg disp s c c' h d hx hp

theorem steps_ok (env : Env) (hg : grants env) (disp : Bool) (xs : List Step) : ∀ (s : Server) (c c' : Conf), SInv disp s c → okAll disp c xs →
    applyAll c xs = some c' → ∃ s', calls env disp (xs.map Step.call) s = .ok s' ∧ SInv disp s' c' := by
  induction xs with
  | nil =>
    intro s c c' h _ hp
    simp only [applyAll, Option.some.injEq] at hp
    subst hp
    exact ⟨s, rfl, h⟩
  | cons x xs ih =>
    intro s c c' h hok hp
    simp only [applyAll] at hp
    cases h1 : x.apply c with
    | none => rw [h1] at hp; cases hp
    | some c1 =>
      rw [h1] at hp
      obtain ⟨s1, q1, q2⟩ := step_ok env hg disp s c c1 h x hok.1 h1
      obtain ⟨s2, r1, r2⟩ := ih s1 c1 c' q2 (hok.2 c1 h1) hp
      exact ⟨s2, by simp only [List.map_cons, calls, q1]; exact r1, r2⟩

/-! ## Any operating system -/

theorem stepListen_mono (env : Env) (op : Op) (t : Option Tree) (s s' : Server) (h : stepListen env op t s = .ok s') :
    stepListen (ConfEndpt.granting env) op t s = .ok s' := by
  cases t with
  | none => exact h
  | some t =>
    simp only [stepListen, parseListen] at h ⊢
    split at h
    · rename_i hc
      simp only [hc, if_true]
      exact h
    · rename_i hc
      simp only [hc, if_false]
      cases hr : parse (ConfEndpt.srvCb env) op [] s.listen t with
      | ok x =>
        rw [ConfEndpt.parse_mono (ConfEndpt.srvCb_mono env) t _ _ _ _ hr]
        rw [hr] at h
        exact h
      | fail x => rw [hr] at h; cases h
      | ub => rw [hr] at h; cases h

theorem stepSrv_mono (env : Env) (disp : Bool) (op : Op) (t : Option SrvTree) (s s' : Server) (h : stepSrv env disp op t s = .ok s') :
    stepSrv (ConfEndpt.granting env) disp op t s = .ok s' := by
  cases t with
  | none => exact h
  | some t =>
    simp only [stepSrv] at h ⊢
    split at h
    · cases h
    · rename_i h1
      simp only [h1, if_false]
      split at h
      · rename_i h2; simp only [h2, if_true]; exact h
      · rename_i h2
        simp only [h2, if_false]
        cases hr : stepListen env (current t.m op) t.listen s with
        | ok x => rw [stepListen_mono env _ _ _ _ hr]; rw [hr] at h; exact h
        | fail x => rw [hr] at h; cases h
        | ub => rw [hr] at h; cases h

theorem andThen_ok (r : Res Server) (f : Server → Res Server) (s' : Server) (h : andThen r f = .ok s') : ∃ s, r = .ok s ∧ f s = .ok s' := by
  cases r with
  | ok s => exact ⟨s, rfl, h⟩
  | fail s => cases h
  | ub => cases h

theorem fill_mono (env : Env) (disp : Bool) (op : Op) (d : List Top) (s s' : Server) (h : fill env disp op d s = .ok s') :
    fill (ConfEndpt.granting env) disp op d s = .ok s' := by
  simp only [fill] at h ⊢
  obtain ⟨s1, h1, h2⟩ := andThen_ok _ _ _ h
  obtain ⟨s3, h3, h4⟩ := andThen_ok _ _ _ h1
  rw [h3]
  simp only [andThen, stepSrv_mono env disp op _ _ _ h4]
  exact h2

theorem call_mono (env : Env) (disp : Bool) (s s' : Server) (c : Call) (h : call env disp s c = .ok s') :
    call (ConfEndpt.granting env) disp s c = .ok s' := by
  cases c with
  | diff d => exact fill_mono env disp _ d s s' h
  | data d =>
    simp only [call, setupData] at h ⊢
    split at h
    · cases h
    · rename_i h1
      simp only [h1, if_false]
      split at h
      · cases h
      · rename_i h2
        simp only [h2]
        split at h
        · cases h
        · exact fill_mono env disp _ d _ s' h

theorem calls_mono (env : Env) (disp : Bool) (cs : List Call) : ∀ s s', calls env disp cs s = .ok s' → calls (ConfEndpt.granting env) disp cs s = .ok s' := by
  induction cs with
  | nil => intro s s' h; exact h
  | cons c cs ih =>
    intro s s' h
    simp only [calls] at h ⊢
    cases hr : call env disp s c with
    | ok x => rw [call_mono env disp s x c hr]; rw [hr] at h; exact ih _ _ h
    | fail x => rw [hr] at h; cases h
    | ub => rw [hr] at h; cases h

/-- What is known after successful steps. -/
theorem steps_inv (env : Env) (disp : Bool) (xs : List Step) (s s' : Server) (c c' : Conf) (h : SInv disp s c) (hok : okAll disp c xs)
    (hp : applyAll c xs = some c') (hr : calls env disp (xs.map Step.call) s = .ok s') : SInv disp s' c' := by
  obtain ⟨s1, h1, h2⟩ := steps_ok (ConfEndpt.granting env) (ConfEndpt.granting_grants env) disp xs s c c' h hok hp
  rw [calls_mono env disp _ s s' hr] at h1
  cases h1
  exact h2

/-! ## Sockets after complete data -/

/-- Sockets are not older than `n`. -/
def Fresh (n : Nat) (s : Net) : Prop := n ≤ s.next ∧ ∀ x ∈ s.socks, n ≤ x.fd

theorem close_fresh (n : Nat) (s s' : Net) (f : Option Nat) (h : ConfEndpt.closeSock s f = some s') (hf : Fresh n s) : Fresh n s' := by
  obtain ⟨h1, h2⟩ := ConfEndpt.close_loc s s' f h
  exact ⟨by rw [h1]; exact hf.1, fun x hx => hf.2 x (h2 x hx).1⟩

theorem sap_fresh (n : Nat) (env : Env) (address : Option Nat) (port : Nat) (s : ConfEndpt.St) (hf : Fresh n s.2) :
    ConfEndpt.Always (fun s' => Fresh n s'.2) (ConfEndpt.setAddressPort env address port s) := by
  simp only [ConfEndpt.setAddressPort]
  generalize (if address.isSome then s.1.port else port) = q
  split
  · trivial
  · split
    · trivial
    · exact hf
    · split
      · exact hf
      · split
        · cases hc : ConfEndpt.closeSock s.2 s.1.sock with
          | none => trivial
          | some m =>
            have hm := close_fresh n _ _ _ hc hf
            have key : ∀ a, Fresh n ⟨m.socks ++ [⟨m.next, a, q⟩], m.next + 1⟩ := by
              refine fun a => ⟨Nat.le_succ_of_le hm.1, fun x hx => ?_⟩
              rcases List.mem_append.mp hx with hx | hx
              · exact hm.2 x hx
              · simp only [List.mem_singleton] at hx; subst hx; exact hm.1
            dsimp only
            split
            · exact key _
            · exact key _
        · exact hf

theorem delOpts_fresh (n : Nat) (t : ConfEndpt.Ti) (s : ConfEndpt.St) (hf : Fresh n s.2) :
    ConfEndpt.Always (fun s' => Fresh n s'.2) (delOpts t s) := by
  simp only [delOpts]
  split
  · trivial
  · split
    · trivial
    · rename_i m hc
      split
      · exact close_fresh n _ _ _ hc hf
      · trivial

theorem endptCb_fresh (n : Nat) (env : Env) (path : List Anc) (v : Nat) (op : Op) (s : ConfEndpt.St) (hf : Fresh n s.2) :
    ConfEndpt.Always (fun s' => Fresh n s'.2) (ConfEndpt.endptCb env path v op s) := by
  have ht : ∀ t, ConfEndpt.Always (fun s' => Fresh n s'.2) (ConfEndpt.transport t op s) := by
    intro t
    simp only [ConfEndpt.transport]
    split
    · exact hf
    · split
      · exact delOpts_fresh n t s hf
      · exact hf
  simp only [ConfEndpt.endptCb]
  split
  · exact ht _
  · exact ht _
  · split
    · simp only [ConfEndpt.localAddress]
      split
      · trivial
      · exact sap_fresh n env _ _ ({ s.1 with addr := .str v }, s.2) hf
    · exact hf
  · split
    · exact sap_fresh n env _ _ ({ s.1 with port := if setting op then v else 0 }, s.2) hf
    · exact hf
  all_goals first
    | (split <;> exact hf)
    | exact hf

theorem srvCb_fresh (n : Nat) (env : Env) (path : List Anc) (v : Nat) (op : Op) (s : Srv) (hf : Fresh n s.net) :
    ConfEndpt.Always (fun s' => Fresh n s'.net) (ConfEndpt.srvCb env path v op s) := by
  simp only [ConfEndpt.srvCb]
  split
  · simp only [ConfEndpt.endpoint]
    split
    · split
      · exact hf
      · exact hf
      · trivial
    · split
      · split
        · exact hf
        · split
          · exact hf
          · rename_i e he
            simp only [ConfEndpt.delEndpt]
            split
            · exact hf
            · rename_i t _
              have hd := delOpts_fresh n t (e, s.net) hf
              cases hc : delOpts t (e, s.net) with
              | ub => trivial
              | fail y => exact hf
              | ok y => rw [hc] at hd; exact hd
      · exact hf
  · exact hf
  · split
    · simp only [ConfEndpt.withEndpt]
      split
      · exact hf
      · split
        · exact hf
        · rename_i e he
          have hl := endptCb_fresh n env path v op (e, s.net) hf
          cases hc : ConfEndpt.endptCb env path v op (e, s.net) with
          | ub => trivial
          | fail y => rw [hc] at hl; exact hl
          | ok y => rw [hc] at hl; exact hl
    · exact hf
  · exact hf

theorem delListen_fresh (n : Nat) (es : List Endpt) : ∀ m, Fresh n m → ConfEndpt.Always (fun x => Fresh n x.2) (delListen es m) := by
  induction es with
  | nil => intro m h; exact h
  | cons e es ih =>
    intro m h
    simp only [delListen]
    split
    · exact h
    · rename_i t _
      have hd := delOpts_fresh n t (e, m) h
      cases hc : delOpts t (e, m) with
      | ok y => rw [hc] at hd; exact ih _ hd
      | fail y => rw [hc] at hd; exact hd
      | ub => trivial

/-- The sockets of a server are not older than `n`. -/
abbrev FreshS (n : Nat) (s : Server) : Prop := Fresh n s.listen.net

theorem andThen_always (I : Server → Prop) (r : Res Server) (f : Server → Res Server) (h : ConfEndpt.Always I r)
    (hf : ∀ s, I s → ConfEndpt.Always I (f s)) : ConfEndpt.Always I (andThen r f) := by
  cases r with
  | ok s => exact hf s h
  | fail s => exact h
  | ub => trivial

theorem on_always {σ : Type} (I : Server → Prop) (put : σ → Server) (r : Res σ) (h : ∀ x, I (put x)) : ConfEndpt.Always I (on put r) := by
  cases r with
  | ok x => exact h x
  | fail x => exact h x
  | ub => trivial

theorem stepListen_fresh (n : Nat) (env : Env) (op : Op) (t : Option Tree) (s : Server) (h : FreshS n s) :
    ConfEndpt.Always (FreshS n) (stepListen env op t s) := by
  cases t with
  | none => exact h
  | some t =>
    have : ConfEndpt.Always (fun x : Srv => Fresh n x.net) (parseListen env op s.listen t) := by
      simp only [parseListen]
      split
      · have hd := delListen_fresh n s.listen.endpts s.listen.net h
        simp only [clearListen]
        cases hc : delListen s.listen.endpts s.listen.net with
        | ok x => rw [hc] at hd; exact hd
        | fail x => rw [hc] at hd; exact hd
        | ub => trivial
      · exact ConfEndpt.parse_always (fun x : Srv => Fresh n x.net) (srvCb_fresh n env) t _ _ _ h
    simp only [stepListen]
    cases hc : parseListen env op s.listen t with
    | ok x => rw [hc] at this; exact this
    | fail x => rw [hc] at this; exact this
    | ub => trivial

theorem fill_fresh (n : Nat) (env : Env) (disp : Bool) (op : Op) (d : List Top) (s : Server) (h : FreshS n s) :
    ConfEndpt.Always (FreshS n) (fill env disp op d s) := by
  refine andThen_always _ _ _ (andThen_always _ _ _ (andThen_always _ _ _ ?_ ?_) ?_) ?_
  · exact on_always _ _ _ (fun _ => h)
  · exact fun s h => on_always _ _ _ (fun _ => h)
  · intro s h
    cases findSrv d with
    | none => exact h
    | some t =>
      simp only [stepSrv]
      split
      · exact h
      · split
        · exact h
        · refine andThen_always _ _ _ (stepListen_fresh n env _ _ s h) ?_
          intro s h
          cases t.ch with
          | none => exact h
          | some t => exact on_always _ _ _ (fun _ => h)
  · intro s h
    cases findLn2 d with
    | none => exact h
    | some t => exact on_always _ _ _ (fun _ => h)

end Verif.ConfSetup
