import Verif.Spec.UnixSock

/-! # Lemmas about UNIX sockets -/

namespace Verif.UnixSock

theorem upd_same (fs : Path → Option Node) (p : Path) (n : Option Node) : upd fs p n p = n := by simp [upd]

theorem upd_other (fs : Path → Option Node) {p q : Path} (n : Option Node) (h : q ≠ p) : upd fs p n q = fs q := by simp [upd, h]

theorem unlink_fds (e : Env) (w : World) (p : Path) : (unlink e w p).fds = w.fds := by unfold unlink; split <;> rfl
theorem unlink_lis (e : Env) (w : World) (p : Path) : (unlink e w p).lis = w.lis := by unfold unlink; split <;> rfl
theorem unlink_next (e : Env) (w : World) (p : Path) : (unlink e w p).next = w.next := by unfold unlink; split <;> rfl
theorem unlink_other (e : Env) (w : World) {p q : Path} (h : q ≠ p) : (unlink e w p).fs q = w.fs q := by
  unfold unlink
  split
  · exact upd_other _ _ h
  · rfl
theorem unlink_fs (e : Env) (w : World) (p q : Path) (n : Node) (h : (unlink e w p).fs q = some n) : w.fs q = some n := by
  unfold unlink at h
  split at h
  · by_cases hq : q = p
    · subst hq
      simp [upd] at h
    · exact (upd_other _ _ hq).symm.trans h
  · exact h

theorem bind_some {e : Env} {w v : World} {f : Nat} {p : Path} (h : bind e w f p = some v) :
    w.fs p = none ∧ v = { w with fs := upd w.fs p (some ⟨some f, e.mode, e.uid, e.gid⟩) } := by
  unfold bind at h
  split at h
  · cases hp : w.fs p with
    | none =>
      simp only [hp, Option.some.injEq] at h
      exact ⟨rfl, h.symm⟩
    | some n => simp [hp] at h
  · cases h

theorem chmod_eq {e : Env} {w : World} {p : Path} {n : Node} (m : Option Nat) (h : w.fs p = some n) (hok : ¬ (m.isSome && !e.chmodOk) = true) :
    (chmod e w p m).fds = w.fds ∧ (chmod e w p m).lis = w.lis ∧ (chmod e w p m).next = w.next ∧
      (chmod e w p m).fs p = some { n with mode := m.getD n.mode } ∧ ∀ q, q ≠ p → (chmod e w p m).fs q = w.fs q := by
  unfold chmod
  rw [h]
  cases m with
  | none => exact ⟨rfl, rfl, rfl, h, fun _ _ => rfl⟩
  | some k =>
    have hc : e.chmodOk = true := by simpa using hok
    simp only [hc, if_true]
    exact ⟨trivial, trivial, trivial, upd_same _ _ _, fun q hq => upd_other _ _ hq⟩

theorem chown_eq {e : Env} {w : World} {p : Path} {n : Node} (u g : Option Nat) (h : w.fs p = some n)
    (hok : ¬ ((u.isSome || g.isSome) && !e.chownOk) = true) :
    (chown e w p u g).fds = w.fds ∧ (chown e w p u g).lis = w.lis ∧ (chown e w p u g).next = w.next ∧
      (chown e w p u g).fs p = some { n with uid := u.getD n.uid, gid := g.getD n.gid } ∧
      ∀ q, q ≠ p → (chown e w p u g).fs q = w.fs q := by
  unfold chown
  rw [h]
  simp only
  split
  · exact ⟨rfl, rfl, rfl, upd_same _ _ _, fun q hq => upd_other _ _ hq⟩
  · rename_i hn
    refine ⟨rfl, rfl, rfl, ?_, fun _ _ => rfl⟩
    rw [h]
    cases u <;> cases g <;> simp_all

theorem filter_fresh {l : List Nat} {f : Nat} (h : f ∉ l) : l.filter (fun x => !(x == f)) = l := by
  rw [List.filter_eq_self]
  intro a ha
  have hne : a ≠ f := fun hh => h (hh ▸ ha)
  simp [hne]

theorem mem_close_fds {w : World} {f g : Nat} : g ∈ (close w f).fds ↔ g ∈ w.fds ∧ g ≠ f := by simp [close]
theorem mem_close_lis {w : World} {f g : Nat} : g ∈ (close w f).lis ↔ g ∈ w.lis ∧ g ≠ f := by simp [close]

/-- The state when the socket is bound. -/
structure Bound (e : Env) (w w3 : World) (p : Path) : Prop where
  fds : w3.fds = w.next :: w.fds
  lis : w3.lis = w.lis
  next : w3.next = w.next + 1
  node : w3.fs p = some ⟨some w.next, e.mode, e.uid, e.gid⟩
  other : ∀ q, q ≠ p → w3.fs q = w.fs q

/-- What is left of a call that fails. -/
structure Failed (w v : World) (p : Path) : Prop where
  fds : v.fds = w.fds
  lis : v.lis = w.lis
  next : w.next ≤ v.next
  other : ∀ q, q ≠ p → v.fs q = w.fs q
  nodes : ∀ q n f, v.fs q = some n → n.sock = some f → f = w.next ∧ w.next < v.next ∨ w.fs q = some n

/-- What is there after a call that succeeds. -/
structure Done (e : Env) (o : Opts) (w v : World) (p : Path) : Prop where
  fds : v.fds = w.next :: w.fds
  lis : v.lis = w.next :: w.lis
  next : v.next = w.next + 1
  node : v.fs p = some ⟨some w.next, o.mode.getD e.mode, o.uid.getD e.uid, o.gid.getD e.gid⟩
  other : ∀ q, q ≠ p → v.fs q = w.fs q

theorem failed_of {w v : World} {p : Path} {n : Node} (hw : Sane w) (h1 : v.fds = w.next :: w.fds) (h2 : v.lis = w.lis) (h3 : v.next = w.next + 1)
    (h4 : v.fs p = some n) (hn : n.sock = some w.next) (h5 : ∀ q, q ≠ p → v.fs q = w.fs q) : Failed w (close v w.next) p := by
  have hf : w.next ∉ w.fds := fun h => Nat.lt_irrefl _ (hw.1 _ h)
  have hl : w.next ∉ w.lis := fun h => Nat.lt_irrefl _ (hw.2.1 _ h)
  refine ⟨?_, ?_, ?_, h5, ?_⟩
  · show v.fds.filter _ = _
    rw [h1, List.filter_cons]
    simp only [beq_self_eq_true, Bool.not_true, Bool.false_eq_true, if_false]
    exact filter_fresh hf
  · show v.lis.filter _ = _
    rw [h2]
    exact filter_fresh hl
  · show w.next ≤ v.next
    omega
  · intro q m f hq hm
    have hq' : v.fs q = some m := hq
    by_cases hqp : q = p
    · subst hqp
      rw [h4] at hq'
      cases hq'
      rw [hn] at hm
      cases hm
      exact .inl ⟨rfl, by show w.next < v.next; omega⟩
    · rw [h5 q hqp] at hq'
      exact .inr hq'

theorem listenBound_spec (e : Env) (o : Opts) {w w3 : World} {p : Path} (hist : List World) (hw : Sane w) (hb : Bound e w w3 p) :
    (∀ r, r = listenBound e o w3 w.next p hist → (r.sock = none → Failed w r.w p) ∧ (∀ f, r.sock = some f → f = w.next ∧ Done e o w r.w p)) := by
  rintro r rfl
  unfold listenBound
  split
  · exact ⟨fun _ => failed_of hw hb.fds hb.lis hb.next hb.node rfl hb.other, fun f h => by cases h⟩
  · rename_i hok1
    obtain ⟨a1, a2, a3, a4, a5⟩ := chmod_eq o.mode hb.node hok1
    simp only
    split
    · exact ⟨fun _ => failed_of hw (a1.trans hb.fds) (a2.trans hb.lis) (a3.trans hb.next) a4 rfl (fun q hq => (a5 q hq).trans (hb.other q hq)),
        fun f h => by cases h⟩
    · rename_i hok2
      obtain ⟨b1, b2, b3, b4, b5⟩ := chown_eq o.uid o.gid a4 hok2
      split
      · exact ⟨fun _ => failed_of hw (b1.trans (a1.trans hb.fds)) (b2.trans (a2.trans hb.lis)) (b3.trans (a3.trans hb.next)) b4 rfl
          (fun q hq => (b5 q hq).trans ((a5 q hq).trans (hb.other q hq))), fun f h => by cases h⟩
      · refine ⟨fun h => (nomatch h), fun f h => ?_⟩
        have h' : f = w.next := (Option.some.inj h).symm
        refine ⟨h', b1.trans (a1.trans hb.fds), ?_, b3.trans (a3.trans hb.next), b4, fun q hq => (b5 q hq).trans ((a5 q hq).trans (hb.other q hq))⟩
        show w.next :: (chown _ _ _ _ _).lis = _
        rw [b2, a2, hb.lis]

theorem bound_of {e : Env} {w v : World} {p : Path} (h : bind e (unlink e (socket w) p) w.next p = some v) : Bound e w v p := by
  obtain ⟨-, rfl⟩ := bind_some h
  refine ⟨?_, ?_, ?_, upd_same _ _ _, ?_⟩
  · show (unlink e (socket w) p).fds = _
    rw [unlink_fds]
    rfl
  · show (unlink e (socket w) p).lis = _
    rw [unlink_lis]
    rfl
  · show (unlink e (socket w) p).next = _
    rw [unlink_next]
    rfl
  · intro q hq
    show upd _ _ _ q = _
    rw [upd_other _ _ hq, unlink_other _ _ hq]
    rfl

theorem listenUnix_spec (e : Env) (o : Opts) {w : World} (hw : Sane w) :
    ((listenUnix e o w).sock = none → Failed w (listenUnix e o w).w (o.address.take 106)) ∧
    (∀ f, (listenUnix e o w).sock = some f → f = w.next ∧ o.address.length ≤ 107 ∧ Done e o w (listenUnix e o w).w (o.address.take 106)) := by
  have hf : w.next ∉ w.fds := fun h => Nat.lt_irrefl _ (hw.1 _ h)
  have hl : w.next ∉ w.lis := fun h => Nat.lt_irrefl _ (hw.2.1 _ h)
  have hid : Failed w w (o.address.take 106) := ⟨rfl, rfl, Nat.le_refl _, fun _ _ => rfl, fun q n f h _ => .inr h⟩
  unfold listenUnix
  split
  · exact ⟨fun _ => hid, fun f h => by cases h⟩
  · rename_i hlen
    have hlen' : o.address.length ≤ 107 := Nat.le_of_not_lt hlen
    split
    · exact ⟨fun _ => hid, fun f h => by cases h⟩
    · simp only
      have hp : snprintf (sunPathSize - 1) o.address = o.address.take 106 := rfl
      rw [hp]
      cases hb : bind e (unlink e (socket w) (o.address.take 106)) w.next (o.address.take 106) with
      | none =>
        refine ⟨fun _ => ⟨?_, ?_, ?_, ?_, ?_⟩, fun f h => by cases h⟩
        · show (unlink e (socket w) _).fds.filter _ = _
          rw [unlink_fds]
          show List.filter _ (w.next :: w.fds) = _
          rw [List.filter_cons]
          simp only [beq_self_eq_true, Bool.not_true, Bool.false_eq_true, if_false]
          exact filter_fresh hf
        · show (unlink e (socket w) _).lis.filter _ = _
          rw [unlink_lis]
          exact filter_fresh hl
        · show w.next ≤ (unlink e (socket w) _).next
          rw [unlink_next]
          exact Nat.le_succ _
        · intro q hq
          show (unlink e (socket w) _).fs q = _
          rw [unlink_other _ _ hq]
          rfl
        · intro q n f hq hn
          have hq' : (unlink e (socket w) (o.address.take 106)).fs q = some n := hq
          have hk := unlink_fs _ _ _ _ _ hq'
          exact .inr hk
      | some v =>
        have h := listenBound_spec e o [socket w, unlink e (socket w) (o.address.take 106)] hw (bound_of hb) _ rfl
        exact ⟨h.1, fun f hf' => ⟨(h.2 f hf').1, hlen', (h.2 f hf').2⟩⟩

theorem failed_sane {w v : World} {p : Path} (hw : Sane w) (h : Failed w v p) : Sane v := by
  refine ⟨fun f hf => ?_, fun f hf => ?_, fun q n f hq hn => ?_⟩
  · rw [h.fds] at hf
    exact Nat.lt_of_lt_of_le (hw.1 f hf) h.next
  · rw [h.lis] at hf
    exact Nat.lt_of_lt_of_le (hw.2.1 f hf) h.next
  · rcases h.nodes q n f hq hn with ⟨rfl, hl⟩ | hl
    · exact hl
    · exact Nat.lt_of_lt_of_le (hw.2.2 q n f hl hn) h.next

theorem done_sane {e : Env} {o : Opts} {w v : World} {p : Path} (hw : Sane w) (h : Done e o w v p) : Sane v := by
  have hn := h.next
  refine ⟨fun f hf => ?_, fun f hf => ?_, fun q n f hq hs => ?_⟩
  · rw [h.fds] at hf
    rcases List.mem_cons.1 hf with rfl | hf
    · omega
    · have := hw.1 f hf
      omega
  · rw [h.lis] at hf
    rcases List.mem_cons.1 hf with rfl | hf
    · omega
    · have := hw.2.1 f hf
      omega
  · by_cases hqp : q = p
    · subst hqp
      rw [h.node] at hq
      cases hq
      cases hs
      omega
    · rw [h.other q hqp] at hq
      have := hw.2.2 q n f hq hs
      omega


/-! ## Endpoints -/

/-- Each socket that was opened belongs to exactly one endpoint. -/
structure Own (base : List Nat) (s : Srv) : Prop where
  sane : Sane s.w
  fds : ∀ f, f ∈ s.w.fds ↔ f ∈ base ∨ ∃ x ∈ s.endpts, x.sock = some f
  baseOk : ∀ x ∈ s.endpts, ∀ f, x.sock = some f → f ∉ base
  names : ∀ x ∈ s.endpts, ∀ y ∈ s.endpts, x.name = y.name → x = y
  socks : ∀ x ∈ s.endpts, ∀ y ∈ s.endpts, ∀ f, x.sock = some f → y.sock = some f → x = y

/-- Endpoints that are listening are reached at their path. -/
structure Reach (s : Srv) : Prop where
  paths : ∀ x ∈ s.endpts, ∀ y ∈ s.endpts, x.path = y.path → x = y
  reach : ∀ x ∈ s.endpts, ∀ f, x.sock = some f → listensAt s.w x.path f

theorem mem_add {l : List Endpt} {a x : Endpt} (h : x ∈ l ++ [a]) : x ∈ l ∨ x = a := by
  rcases List.mem_append.1 h with h | h
  · exact .inl h
  · exact .inr (List.mem_singleton.1 h)

theorem own_add {base : List Nat} {s : Srv} {e : Env} {name : Nat} {o : Opts} (h : Own base s) (hb : ∀ f ∈ base, f < s.w.next) :
    Own base (add e name o s).2 ∧ s.w.next ≤ (add e name o s).2.w.next := by
  unfold add
  split
  · exact ⟨h, Nat.le_refl _⟩
  · rename_i hno
    have hno' : ∀ x ∈ s.endpts, x.name ≠ name := by
      intro x hx hxn
      apply hno
      simp only [Bool.or_eq_true, List.any_eq_true]
      exact .inl ⟨x, hx, by simp [hxn]⟩
    obtain ⟨s1, s2⟩ := listenUnix_spec e o h.sane
    have hnames : ∀ sk, ∀ x ∈ s.endpts ++ [⟨name, o.address, sk⟩], ∀ y ∈ s.endpts ++ [⟨name, o.address, sk⟩], x.name = y.name → x = y := by
      intro sk x hx y hy hxy
      rcases mem_add hx with hx | hx <;> rcases mem_add hy with hy | hy
      · exact h.names x hx y hy hxy
      · subst hy
        exact absurd hxy (hno' x hx)
      · subst hx
        exact absurd hxy.symm (hno' y hy)
      · rw [hx, hy]
    cases hs : (listenUnix e o s.w).sock with
    | none =>
      have hf := s1 hs
      refine ⟨⟨failed_sane h.sane hf, fun f => ?_, ?_, ?_, ?_⟩, hf.next⟩
      · show f ∈ (listenUnix e o s.w).w.fds ↔ _
        rw [hf.fds, h.fds]
        refine or_congr Iff.rfl ⟨fun ⟨x, hx, hxs⟩ => ⟨x, List.mem_append_left _ hx, hxs⟩, fun ⟨x, hx, hxs⟩ => ?_⟩
        rcases mem_add hx with hx | hx
        · exact ⟨x, hx, hxs⟩
        · subst hx
          exact absurd (show (listenUnix e o s.w).sock = some f from hxs) (by rw [hs]; exact fun hh => nomatch hh)
      · intro x hx f hxs
        rcases mem_add hx with hx | hx
        · exact h.baseOk x hx f hxs
        · subst hx
          exact absurd (show (listenUnix e o s.w).sock = some f from hxs) (by rw [hs]; exact fun hh => nomatch hh)
      · exact hnames _
      · intro x hx y hy f hxs hys
        rcases mem_add hx with hx | hx <;> rcases mem_add hy with hy | hy
        · exact h.socks x hx y hy f hxs hys
        · subst hy
          exact absurd (show (listenUnix e o s.w).sock = some f from hys) (by rw [hs]; exact fun hh => nomatch hh)
        · subst hx
          exact absurd (show (listenUnix e o s.w).sock = some f from hxs) (by rw [hs]; exact fun hh => nomatch hh)
        · rw [hx, hy]
    | some g =>
      obtain ⟨rfl, -, hd⟩ := s2 g hs
      have hnew : ∀ x ∈ s.endpts, x.sock ≠ some s.w.next := by
        intro x hx hxs
        exact Nat.lt_irrefl _ (h.sane.1 _ ((h.fds _).2 (.inr ⟨x, hx, hxs⟩)))
      refine ⟨⟨done_sane h.sane hd, fun f => ?_, ?_, ?_, ?_⟩, by show s.w.next ≤ (listenUnix e o s.w).w.next; rw [hd.next]; exact Nat.le_succ _⟩
      · show f ∈ (listenUnix e o s.w).w.fds ↔ _
        rw [hd.fds, List.mem_cons, h.fds]
        constructor
        · rintro (rfl | hb' | ⟨x, hx, hxs⟩)
          · exact .inr ⟨_, List.mem_append_right _ (List.mem_singleton.2 rfl), hs⟩
          · exact .inl hb'
          · exact .inr ⟨x, List.mem_append_left _ hx, hxs⟩
        · rintro (hb' | ⟨x, hx, hxs⟩)
          · exact .inr (.inl hb')
          · rcases mem_add hx with hx | hx
            · exact .inr (.inr ⟨x, hx, hxs⟩)
            · subst hx
              have hk : (listenUnix e o s.w).sock = some f := hxs
              rw [hs] at hk
              exact .inl (Option.some.inj hk).symm
      · intro x hx f hxs
        rcases mem_add hx with hx | hx
        · exact h.baseOk x hx f hxs
        · subst hx
          have hk : (listenUnix e o s.w).sock = some f := hxs
          rw [hs] at hk
          cases hk
          exact fun hh => Nat.lt_irrefl _ (hb _ hh)
      · exact hnames _
      · intro x hx y hy f hxs hys
        rcases mem_add hx with hx | hx <;> rcases mem_add hy with hy | hy
        · exact h.socks x hx y hy f hxs hys
        · subst hy
          have hk : (listenUnix e o s.w).sock = some f := hys
          rw [hs] at hk
          cases hk
          exact absurd hxs (hnew x hx)
        · subst hx
          have hk : (listenUnix e o s.w).sock = some f := hxs
          rw [hs] at hk
          cases hk
          exact absurd hys (hnew y hy)
        · rw [hx, hy]

theorem delOpts_next (e : Env) (w : World) (x : Endpt) : (delOpts e w x).next = w.next := by
  unfold delOpts
  split
  · rw [unlink_next]
    rfl
  · rw [unlink_next]

theorem mem_delOpts_fds {e : Env} {w : World} {x : Endpt} {g : Nat} : g ∈ (delOpts e w x).fds ↔ g ∈ w.fds ∧ x.sock ≠ some g := by
  unfold delOpts
  cases hx : x.sock with
  | none => simp [unlink_fds]
  | some f =>
    simp only [unlink_fds, mem_close_fds, ne_eq, Option.some.injEq]
    exact and_congr Iff.rfl ⟨fun h hh => h hh.symm, fun h hh => h hh.symm⟩

theorem mem_delOpts_lis {e : Env} {w : World} {x : Endpt} {g : Nat} : g ∈ (delOpts e w x).lis ↔ g ∈ w.lis ∧ x.sock ≠ some g := by
  unfold delOpts
  cases hx : x.sock with
  | none => simp [unlink_lis]
  | some f =>
    simp only [unlink_lis, mem_close_lis, ne_eq, Option.some.injEq]
    exact and_congr Iff.rfl ⟨fun h hh => h hh.symm, fun h hh => h hh.symm⟩

theorem delOpts_fs {e : Env} {w : World} {x : Endpt} {q : Path} {n : Node} (h : (delOpts e w x).fs q = some n) : w.fs q = some n := by
  unfold delOpts at h
  split at h
  · exact unlink_fs e (close w _) _ _ _ h
  · exact unlink_fs _ _ _ _ _ h

theorem delOpts_other {e : Env} {w : World} {x : Endpt} {q : Path} (h : q ≠ x.path) : (delOpts e w x).fs q = w.fs q := by
  unfold delOpts
  split
  · rw [unlink_other _ _ h]
    rfl
  · exact unlink_other _ _ h

theorem own_del {base : List Nat} {s : Srv} {e : Env} {name : Nat} (h : Own base s) :
    Own base (del e name s) ∧ s.w.next ≤ (del e name s).w.next := by
  unfold del
  cases hfd : s.endpts.find? (fun x => x.name == name) with
  | none => exact ⟨h, Nat.le_refl _⟩
  | some x =>
    have hx : x ∈ s.endpts := List.mem_of_find?_eq_some hfd
    have hxn : x.name = name := by
      have := List.find?_some hfd
      simpa using this
    have hmem : ∀ y, y ∈ s.endpts.filter (fun y => !(y.name == name)) ↔ y ∈ s.endpts ∧ y ≠ x := by
      intro y
      simp only [List.mem_filter, Bool.not_eq_true', beq_eq_false_iff_ne]
      refine and_congr_right fun hy => ⟨fun hne hh => hne (hh ▸ hxn), fun hne hh => hne (h.names y hy x hx (hh.trans hxn.symm))⟩
    refine ⟨⟨⟨?_, ?_, ?_⟩, fun f => ?_, ?_, ?_, ?_⟩, by rw [delOpts_next]; exact Nat.le_refl _⟩
    · intro f hf
      show f < (delOpts e s.w x).next
      rw [delOpts_next]
      exact h.sane.1 f (mem_delOpts_fds.1 hf).1
    · intro f hf
      show f < (delOpts e s.w x).next
      rw [delOpts_next]
      exact h.sane.2.1 f (mem_delOpts_lis.1 hf).1
    · intro p n f hp hn
      show f < (delOpts e s.w x).next
      rw [delOpts_next]
      exact h.sane.2.2 p n f (delOpts_fs hp) hn
    · show f ∈ (delOpts e s.w x).fds ↔ _
      rw [mem_delOpts_fds, h.fds]
      constructor
      · rintro ⟨hb | ⟨y, hy, hys⟩, hne⟩
        · exact .inl hb
        · exact .inr ⟨y, (hmem y).2 ⟨hy, fun hh => hne (hh ▸ hys)⟩, hys⟩
      · rintro (hb | ⟨y, hy, hys⟩)
        · exact ⟨.inl hb, fun hh => h.baseOk x hx f hh hb⟩
        · have hy' := (hmem y).1 hy
          exact ⟨.inr ⟨y, hy'.1, hys⟩, fun hh => hy'.2 (h.socks y hy'.1 x hx f hys hh)⟩
    · intro y hy
      exact h.baseOk y ((hmem y).1 hy).1
    · intro y hy z hz
      exact h.names y ((hmem y).1 hy).1 z ((hmem z).1 hz).1
    · intro y hy z hz
      exact h.socks y ((hmem y).1 hy).1 z ((hmem z).1 hz).1

theorem own_after {base : List Nat} (cs : List Call) : ∀ {s : Srv}, Own base s → (∀ f ∈ base, f < s.w.next) → Own base (after s cs) := by
  induction cs with
  | nil => exact fun h _ => h
  | cons c cs ih =>
    intro s h hb
    have hstep : Own base (c.run s) ∧ s.w.next ≤ (c.run s).w.next := by
      cases c with
      | add e name o => exact own_add h hb
      | del e name => exact own_del h
    exact ih hstep.1 fun f hf => Nat.lt_of_lt_of_le (hb f hf) hstep.2

theorem reach_add {base : List Nat} {s : Srv} {e : Env} {name : Nat} {o : Opts} (ho : Own base s) (h : Reach s) (hlen : o.address.length ≤ 106)
    (hp : ∀ x ∈ s.endpts, x.path ≠ o.address) : Reach (add e name o s).2 := by
  unfold add
  split
  · exact h
  · obtain ⟨s1, s2⟩ := listenUnix_spec e o ho.sane
    have htake : o.address.take 106 = o.address := List.take_of_length_le hlen
    rw [htake] at s1 s2
    refine ⟨?_, ?_⟩
    · intro x hx y hy hxy
      rcases mem_add hx with hx | hx <;> rcases mem_add hy with hy | hy
      · exact h.paths x hx y hy hxy
      · subst hy
        exact absurd hxy (hp x hx)
      · subst hx
        exact absurd hxy.symm (hp y hy)
      · rw [hx, hy]
    · intro x hx f hxs
      rcases mem_add hx with hx | hx
      · obtain ⟨g1, g2, n, g3, g4⟩ := h.reach x hx f hxs
        have hne := hp x hx
        cases hs : (listenUnix e o s.w).sock with
        | none =>
          have hf := s1 hs
          exact ⟨by show f ∈ (listenUnix e o s.w).w.fds; rw [hf.fds]; exact g1, by show f ∈ (listenUnix e o s.w).w.lis; rw [hf.lis]; exact g2,
            n, (hf.other _ hne).trans g3, g4⟩
        | some g =>
          have hd := (s2 g hs).2.2
          exact ⟨by show f ∈ (listenUnix e o s.w).w.fds; rw [hd.fds]; exact List.mem_cons_of_mem _ g1,
            by show f ∈ (listenUnix e o s.w).w.lis; rw [hd.lis]; exact List.mem_cons_of_mem _ g2, n, (hd.other _ hne).trans g3, g4⟩
      · subst hx
        have hs : (listenUnix e o s.w).sock = some f := hxs
        obtain ⟨rfl, -, hd⟩ := s2 f hs
        exact ⟨by show _ ∈ (listenUnix e o s.w).w.fds; rw [hd.fds]; exact List.mem_cons_self,
          by show _ ∈ (listenUnix e o s.w).w.lis; rw [hd.lis]; exact List.mem_cons_self, _, hd.node, rfl⟩

theorem reach_del {base : List Nat} {s : Srv} {e : Env} {name : Nat} (ho : Own base s) (h : Reach s) : Reach (del e name s) := by
  unfold del
  cases hfd : s.endpts.find? (fun x => x.name == name) with
  | none => exact h
  | some x =>
    have hx : x ∈ s.endpts := List.mem_of_find?_eq_some hfd
    have hxn : x.name = name := by
      have := List.find?_some hfd
      simpa using this
    have hmem : ∀ y, y ∈ s.endpts.filter (fun y => !(y.name == name)) → y ∈ s.endpts ∧ y ≠ x := by
      intro y
      simp only [List.mem_filter, Bool.not_eq_true', beq_eq_false_iff_ne]
      exact fun hy => ⟨hy.1, fun hh => hy.2 (hh ▸ hxn)⟩
    refine ⟨fun y hy z hz => h.paths y (hmem y hy).1 z (hmem z hz).1, fun y hy f hys => ?_⟩
    obtain ⟨hy1, hy2⟩ := hmem y hy
    obtain ⟨g1, g2, n, g3, g4⟩ := h.reach y hy1 f hys
    have hsock : x.sock ≠ some f := fun hh => hy2 (ho.socks y hy1 x hx f hys hh)
    have hpath : y.path ≠ x.path := fun hh => hy2 (h.paths y hy1 x hx hh)
    exact ⟨mem_delOpts_fds.2 ⟨g1, hsock⟩, mem_delOpts_lis.2 ⟨g2, hsock⟩, n, (delOpts_other hpath).trans g3, g4⟩

theorem reach_after {base : List Nat} (cs : List Call) : ∀ {s : Srv}, Own base s → Reach s → (∀ f ∈ base, f < s.w.next) → CarefulRun s cs →
    Reach (after s cs) := by
  induction cs with
  | nil => exact fun _ h _ _ => h
  | cons c cs ih =>
    intro s ho h hb hc
    obtain ⟨hc1, hc2⟩ := hc
    cases c with
    | add e name o =>
      have hk := own_add (e := e) (name := name) (o := o) ho hb
      exact ih (s := (add e name o s).2) hk.1 (reach_add ho h hc1.1 hc1.2) (fun f hf => Nat.lt_of_lt_of_le (hb f hf) hk.2) hc2
    | del e name =>
      have hk := own_del (e := e) (name := name) ho
      exact ih (s := del e name s) hk.1 (reach_del ho h) (fun f hf => Nat.lt_of_lt_of_le (hb f hf) hk.2) hc2

theorem own_start {w : World} (hw : Sane w) (others : List Nat) : Own w.fds ⟨w, [], others⟩ :=
  ⟨hw, fun f => by simp, fun x hx => by simp at hx, fun x hx => by simp at hx, fun x hx => by simp at hx⟩

theorem reach_start (w : World) (others : List Nat) : Reach ⟨w, [], others⟩ := ⟨fun x hx => by simp at hx, fun x hx => by simp at hx⟩

/-! ## Lookups -/

theorem getpwLoop_all (d : Db) : ∀ size, getpwLoop (fun _ => true) d size = (d.answer, true) := by
  intro size
  induction size using getpwLoop.induct (alloc := fun _ => true) (d := d) with
  | case1 size h => simp at h
  | case2 size _ h ih => rw [getpwLoop]; simp [h, ih]
  | case3 size _ h => rw [getpwLoop]; simp [h]

theorem getpwLoop_sound (alloc : Nat → Bool) (d : Db) : ∀ size n b, getpwLoop alloc d size = (some n, b) → d.answer = some n := by
  intro size
  induction size using getpwLoop.induct (alloc := alloc) (d := d) with
  | case1 size h => intro n b hh; rw [getpwLoop, if_pos h] at hh; cases hh
  | case2 size h1 h ih => intro n b hh; rw [getpwLoop, if_neg h1, if_pos h] at hh; exact ih n b hh
  | case3 size h1 h => intro n b hh; rw [getpwLoop, if_neg h1, if_neg h] at hh; exact congrArg Prod.fst hh

theorem retryLoop_all (d : Db) : ∀ size, retryLoop (fun _ => true) d size = d.answer := by
  intro size
  induction size using retryLoop.induct (alloc := fun _ => true) (d := d) with
  | case1 size h1 h2 ih => rw [retryLoop, if_pos h1, if_pos rfl]; exact ih
  | case2 size h1 h2 => exact absurd rfl h2
  | case3 size h => rw [retryLoop, if_neg h]

theorem retryLoop_sound (alloc : Nat → Bool) (d : Db) : ∀ size n, retryLoop alloc d size = some n → d.answer = some n := by
  intro size
  induction size using retryLoop.induct (alloc := alloc) (d := d) with
  | case1 size h1 h2 ih => intro n hh; rw [retryLoop, if_pos h1, if_pos h2] at hh; exact ih n hh
  | case2 size h1 h2 => intro n hh; rw [retryLoop, if_pos h1, if_neg h2] at hh; cases hh
  | case3 size h => intro n hh; rw [retryLoop, if_neg h] at hh; exact hh

end Verif.UnixSock
