import Verif.Lemmas.ConfSetup
import Verif.Props.ConfEndpt
import Verif.Props.ConfCh
import Verif.Props.CertExp

/-!
# Properties: setting up the whole configuration
-/

namespace Verif.Props
open Verif.ConfTree (Op Meta)
open Verif.ConfStore
open Verif.ConfEndpt (Env grants Endpt)
open Verif.ConfCh (Client ClientConf)
open Verif.ConfSetup
open Verif.CertExp (Interval utc certAppend Exp)

/-! ## The server is as configured -/

/-- **C141.** Full statement (false, see `config_follows_false`): whatever valid data and fitting diffs are set up, in any number and order, the
calls succeed and the server works as configured, if the operating system lets it listen. -/
def ConfigFollows (env : Env) (disp : Bool) : Prop :=
  ∀ (xs : List Step) (c : Conf), applyAll Conf.empty xs = some c → ∃ s, calls env disp (xs.map Step.call) boot = .ok s ∧ As s c

/-- **C141.** Proved if complete data are set up only while no intervals are configured, the containers `netconf-server` and
`certificate-expiration-notif-intervals` are not removed by a diff, and the diffs of keystore, endpoints and clients are among those that are
followed (C130, C136, C139). -/
theorem config_follows_partial (env : Env) (hg : grants env) (disp : Bool) (xs : List Step) (c : Conf) (hok : okAll disp Conf.empty xs)
    (h : applyAll Conf.empty xs = some c) : ∃ s, calls env disp (xs.map Step.call) boot = .ok s ∧ As s c := by
  obtain ⟨s, h1, h2⟩ := steps_ok env hg disp xs boot Conf.empty c (sinv_boot disp) hok h
  exact ⟨s, h1, as_of_sinv disp s c h2⟩

/-- **C141.** Whatever the operating system answers: if all calls succeed, the server works as configured. -/
theorem config_applied_partial (env : Env) (disp : Bool) (xs : List Step) (c : Conf) (hok : okAll disp Conf.empty xs)
    (h : applyAll Conf.empty xs = some c) (s : Server) (hr : calls env disp (xs.map Step.call) boot = .ok s) : As s c :=
  as_of_sinv disp s c (steps_inv env disp xs boot s Conf.empty c (sinv_boot disp) hok h hr)

/-- A key, a bag of certificates, two endpoints, two clients. -/
def setupSample : Data :=
  ⟨some [(1, ⟨some 0, some 5, 0, 6, [(2, 9)]⟩)], some ⟨[(1, [(2, 3)])], []⟩, some endptSample, some chSample, none, true⟩

/-- Intervals: every month from three months on, every day from a week on. -/
def setupIvs : Diff := ⟨none, none, none, some (.edit [.create (⟨3, .months⟩, ⟨1, .months⟩), .create (⟨7, .days⟩, ⟨1, .days⟩)])⟩

/-- The first interval is removed, an endpoint changed, Call Home removed. -/
def setupChange : Diff :=
  ⟨some (.clear []), none, some (.edit (.edit ⟨.delete 600, [.change 2 (.params .tls (some 7) .keep .keep)]⟩) (.delete [])),
    some (.edit [.delete (⟨3, .months⟩, ⟨1, .months⟩)])⟩

example : (applyAll Conf.empty [.data setupSample, .diff setupIvs, .diff setupChange]).isSome = true := by decide +kernel

example : okAll true Conf.empty [.data setupSample, .diff setupIvs, .diff setupChange] := by
  refine ⟨⟨rfl, .inl rfl⟩, fun c1 h1 => ⟨⟨?_, ?_, ?_⟩, fun c2 h2 => ⟨⟨?_, ?_, ?_⟩, fun c3 h3 => trivial⟩⟩⟩
  · intro x hx; cases hx
  · intro x hx; cases hx
  · intro x hx; cases hx; trivial
  · intro x hx; cases hx; trivial
  · intro x hx
    cases hx
    refine ⟨?_, rfl⟩
    intro k e he
    rw [List.mem_singleton.mp he |> Edit.change.inj |>.2]
    rfl
  · intro x hx; cases hx; trivial

example : calls linuxEnv true ([Step.data setupSample, .diff setupIvs, .diff setupChange].map Step.call) boot =
    .ok ⟨⟨[]⟩, ⟨[⟨1, [⟨2, some 3⟩]⟩], []⟩,
      ⟨[⟨1, some .ssh, .live .ssh, .str 5, 830, some 0, ⟨true, 7200, 9, 75⟩⟩, ⟨2, some .tls, .live .tls, .str 7, 7000, some 2, ⟨true, 60, 9, 5⟩⟩],
        ⟨[⟨0, 5, 830⟩, ⟨2, 7, 7000⟩], 3⟩, 180⟩, [], [⟨{ days := 7 }, { days := 1 }⟩]⟩ := by decide +kernel

/-! ## What is not followed -/

/-- Reached by steps that are followed. -/
def Reached (env : Env) (disp : Bool) (s : Server) (c : Conf) : Prop :=
  ∃ xs, okAll disp Conf.empty xs ∧ applyAll Conf.empty xs = some c ∧ calls env disp (xs.map Step.call) boot = .ok s

/-- **C141, C142, false in general.** Complete data replace everything but the intervals: those of the data are added to those configured
before, which stay (src/server_config.c:4454-4458 does not remove them). -/
theorem data_again_keeps_intervals (env : Env) (hg : grants env) (disp : Bool) (s : Server) (c : Conf) (h : Reached env disp s c) (d : Data) (c' : Conf)
    (hd : d.conf = some c') (hc : disp = true ∨ c.ch = none) :
    ∃ s', call env disp s (Step.data d).call = .ok s' ∧ As s' { c' with ivs := c.ivs ++ c'.ivs } := by
  obtain ⟨xs, h1, h2, h3⟩ := h
  have hi := steps_inv env disp xs boot s Conf.empty c (sinv_boot disp) h1 h2 h3
  obtain ⟨s', p1, p2, p3, p4, p5, p6, p7⟩ := data_ok env hg disp s c c' hi d hc hd
  refine ⟨s', p1, as_of_sinv disp s' { c' with ivs := c.ivs ++ c'.ivs } ⟨p2, p3, p4, p5, ?_, ?_⟩⟩
  · rw [p6, List.map_append]
    exact hi.2.2.2.2.1.append_right _
  · intro x hx
    rcases List.mem_append.mp hx with hx | hx
    · exact hi.2.2.2.2.2 x hx
    · exact p7 x hx

/-- **C141, false in general.** A diff that removes the container `netconf-server` is reported to be applied, but the server goes on listening and
calling clients as before: there is no callback for the container (src/server_config.c:3846-3964), and its children are not visited. -/
theorem removed_server_stays (env : Env) (disp : Bool) (s : Server) (l h : Option Tree) :
    call env disp s (Step.diff ⟨none, none, some (.clear l h), none⟩).call = .ok s := rfl

/-- **C142, false in general.** The same for a diff that removes the container with the intervals. -/
theorem removed_interval_container_stays (env : Env) (disp : Bool) (s : Server) (rest : List IvNode) :
    call env disp s (Step.diff ⟨none, none, none, some (.clearIvs rest)⟩).call = .ok s := rfl

/-- Data with one interval. -/
def ivData (x : Iv) : Data := ⟨none, none, none, none, some [x], false⟩

/-- **C141, false in general.** For instance: data with an interval are set up, then the same data again. -/
theorem config_follows_false (env : Env) (disp : Bool) : ¬ ConfigFollows env disp := by
  intro h
  obtain ⟨s, h1, h2⟩ := h [.data (ivData (⟨3, .months⟩, ⟨1, .days⟩)), .data (ivData (⟨3, .months⟩, ⟨1, .days⟩))]
    ⟨fun _ => none, TsConf.empty, none, none, [(⟨3, .months⟩, ⟨1, .days⟩)]⟩ rfl
  have hs : calls env disp ([Step.data (ivData (⟨3, .months⟩, ⟨1, .days⟩)), .data (ivData (⟨3, .months⟩, ⟨1, .days⟩))].map Step.call) boot =
      .ok { boot with ivs := [⟨{ months := 3 }, { days := 1 }⟩, ⟨{ months := 3 }, { days := 1 }⟩] } := by
    rfl
  rw [hs] at h1
  cases h1
  exact absurd h2.2.2.2.2.2.length_eq (by decide)

/-- **C141, false in general.** An application that has given no callbacks for Call Home and sets up complete data while clients are configured
makes the library use a thread argument that is not there (src/server_config.c:921-928). -/
theorem data_again_without_callbacks_ub (env : Env) (s : Server) (c : Conf) (h : Reached env false s c) (k : Nat) (x : ClientConf)
    (hk : c.clients k = some x) (d : Data) : call env false s (Step.data d).call = .ub := by
  obtain ⟨xs, h1, h2, h3⟩ := h
  have hi := steps_inv env false xs boot s Conf.empty c (sinv_boot false) h1 h2 h3
  obtain ⟨i, a, -, q2, -, q4, -⟩ := ConfCh.client_of false .contact (by decide) s.ch _ hi.2.2.2.1 k x hk
  have hb : s.ch.all ConfCh.destroyable = false := by
    rw [List.all_eq_false]
    exact ⟨a, List.mem_of_getElem? q2, by simp [ConfCh.destroyable, q4]⟩
  obtain ⟨n, l1, -, -⟩ := clearListen_ok false s.listen _ hi.2.2.1.1
  have hc : clear s = none := by
    simp only [clear, l1, clearCh, hb, Bool.false_eq_true, if_false]
  simp only [Step.call, call, setup_eq, hc]

example : ∃ s, calls openEnv false [(Step.data setupSample).call] boot = .ok s ∧ call openEnv false s (Step.data setupSample).call = .ub := by
  have h : ∃ s, calls openEnv false [(Step.data setupSample).call] boot = .ok s := by
    obtain ⟨c, hc⟩ : ∃ c, setupSample.conf = some c := Option.isSome_iff_exists.mp (by decide +kernel)
    obtain ⟨s, hs, -⟩ := config_follows_partial openEnv (fun _ _ _ => rfl) false [.data setupSample] c ⟨⟨rfl, .inr rfl⟩, fun _ _ => trivial⟩
      (by simp only [applyAll, Step.apply, hc, Option.bind_some])
    exact ⟨s, hs⟩
  obtain ⟨s, hs⟩ := h
  refine ⟨s, hs, ?_⟩
  have : calls openEnv false [(Step.data setupSample).call, (Step.data setupSample).call] boot = .ub := by decide +kernel
  simp only [calls] at this hs
  cases hr : call openEnv false boot (Step.data setupSample).call with
  | ok s1 =>
    rw [hr] at this hs
    cases hs
    dsimp only at this
    cases hq : call openEnv false s (Step.data setupSample).call with
    | ok _ => rw [hq] at this; cases this
    | fail _ => rw [hq] at this; cases this
    | ub => rfl
  | fail s1 => rw [hr] at hs; cases hs
  | ub => rw [hr] at hs; cases hs

/-! ## Intervals -/

/-- **C142.** Full statement (false, see `intervals_follow_false`): whatever data with intervals were set up and whatever diffs that fit them were
applied afterwards, the server uses the configured intervals, each once. -/
def IntervalsFollow (env : Env) (disp : Bool) : Prop :=
  ∀ (l : List Iv) (ds : List LnDiff) (c : Conf), applyAll Conf.empty (.data ⟨none, none, none, none, some l, false⟩ :: ds.map (fun d => .diff ⟨none, none, none, some d⟩)) = some c →
    ∃ s, calls env disp ((Step.data ⟨none, none, none, none, some l, false⟩ :: ds.map (fun d => Step.diff ⟨none, none, none, some d⟩)).map Step.call) boot = .ok s ∧
      s.ivs.Perm (c.ivs.map ivOf)

/-- Steps of intervals are followed. -/
theorem intervals_okAll (disp : Bool) (ds : List LnDiff) (hd : ∀ x ∈ ds, ∀ r, x ≠ .clearIvs r) :
    ∀ c, okAll disp c (ds.map (fun d => Step.diff ⟨none, none, none, some d⟩)) := by
  induction ds with
  | nil => intro c; trivial
  | cons x ds ih =>
    intro c
    refine ⟨⟨fun _ hx => (by cases hx), fun _ hx => (by cases hx), fun y hy => ?_⟩, fun c' _ => ih (fun y hy => hd y (by simp [hy])) c'⟩
    cases hy
    cases x with
    | clearIvs r => exact absurd rfl (hd (.clearIvs r) (by simp) r)
    | edit es => trivial
    | clear r => trivial

/-- **C142.** Proved for diffs that do not remove the container with the intervals alone: each interval that is configured is used once with its anchor
and period, and no other. -/
theorem intervals_follow_partial (env : Env) (hg : grants env) (disp : Bool) (l : List Iv) (ds : List LnDiff) (hd : ∀ x ∈ ds, ∀ r, x ≠ .clearIvs r) (c : Conf)
    (h : applyAll Conf.empty (.data ⟨none, none, none, none, some l, false⟩ :: ds.map (fun d => .diff ⟨none, none, none, some d⟩)) = some c) :
    ∃ s, calls env disp ((Step.data ⟨none, none, none, none, some l, false⟩ :: ds.map (fun d => Step.diff ⟨none, none, none, some d⟩)).map Step.call) boot = .ok s ∧
      s.ivs.Perm (c.ivs.map ivOf) := by
  obtain ⟨s, h1, h2⟩ := config_follows_partial env hg disp
    (.data ⟨none, none, none, none, some l, false⟩ :: ds.map (fun d => .diff ⟨none, none, none, some d⟩)) c ⟨⟨rfl, .inr rfl⟩, fun c' _ => intervals_okAll disp ds hd c'⟩ h
  exact ⟨s, h1, h2.2.2.2.2.2⟩

/-- **C142, false in general.** The container with the intervals is removed by a diff. -/
theorem intervals_follow_false (env : Env) (disp : Bool) : ¬ IntervalsFollow env disp := by
  intro h
  obtain ⟨s, h1, h2⟩ := h [(⟨3, .months⟩, ⟨1, .days⟩)] [.clearIvs []] Conf.empty rfl
  have hs : calls env disp ((Step.data ⟨none, none, none, none, some [(⟨3, .months⟩, ⟨1, .days⟩)], false⟩ ::
      [LnDiff.clearIvs []].map (fun d => Step.diff ⟨none, none, none, some d⟩)).map Step.call) boot =
      .ok { boot with ivs := [⟨{ months := 3 }, { days := 1 }⟩] } := rfl
  rw [hs] at h1
  cases h1
  exact absurd h2.length_eq (by decide)

/-- Intervals in the order of time. -/
def orderedIvs : List Iv := [(⟨6, .months⟩, ⟨2, .months⟩), (⟨3, .months⟩, ⟨1, .months⟩), (⟨7, .days⟩, ⟨1, .days⟩)]

/-- **C142, the order is lost.** The intervals are given in the order of time; the first one is removed by a diff. The last one takes its place
(src/server_config.c:4070-4073), and the notification times that follow (C89) go back in time. -/
theorem removed_interval_disorders (env : Env) (disp : Bool) : ∃ s e ts,
    calls env disp ((([Step.data ⟨none, none, none, none, some orderedIvs, false⟩, .diff ⟨none, none, none, some (.edit [.delete (⟨6, .months⟩, ⟨2, .months⟩)])⟩]).map Step.call)) boot
      = .ok s ∧ certAppend utc s.ivs 1788220800 (some 1796040000) = .ok e ∧ notifTimes utc s.ivs e [1795435200] = some ts ∧ ¬ ts.Pairwise (· < ·) := by
  refine ⟨{ boot with ivs := [⟨{ days := 7 }, { days := 1 }⟩, ⟨{ months := 3 }, { months := 1 }⟩] }, ⟨[1795435200, 1788091200], 0, 1796040000, 1795435200⟩,
    [1795435200, 1788091200], rfl, by decide +kernel, by decide +kernel, by decide⟩

example : applyAll Conf.empty [.data ⟨none, none, none, none, some orderedIvs, false⟩, .diff setupIvs] = none ∧
    (applyAll Conf.empty [.data ⟨none, none, none, none, some orderedIvs, false⟩,
      .diff ⟨none, none, none, some (.edit [.delete (⟨6, .months⟩, ⟨2, .months⟩), .create (⟨4, .weeks⟩, ⟨24, .hours⟩)])⟩]).map Conf.ivs =
      some [(⟨3, .months⟩, ⟨1, .months⟩), (⟨7, .days⟩, ⟨1, .days⟩), (⟨4, .weeks⟩, ⟨24, .hours⟩)] := by
  constructor <;> rfl

/-! ## Data that are not applied -/

/-- **C143.** Full statement (false, see `failed_data_harmless_false`): if complete data are reported not to be applied, the server is as before. -/
def FailedDataHarmless (env : Env) (disp : Bool) : Prop :=
  ∀ (s : Server) (c : Conf) (d : List Top) (s' : Server), Reached env disp s c → call env disp s (.data d) = .fail s' → s' = s

/-- **C143.** Proved for data without the container `netconf-server` and for data in which the container, what is in it or what comes after it has
an operation attribute: they are refused, and the server is as before. -/
theorem failed_data_harmless_partial (env : Env) (disp : Bool) (s : Server) (d : List Top)
    (h : (∀ x, Top.srv x ∉ d) ∨ ∃ a t b, d = a ++ .srv t :: b ∧ (∀ x, Top.srv x ∉ a) ∧ ∃ y ∈ Top.srv t :: b, y.Marked) :
    call env disp s (.data d) = .fail s := by
  rcases h with h | ⟨a, t, b, rfl, ha, y, hy, ho⟩
  · have : findSrv d = none := by
      simp only [findSrv, List.findSome?_eq_none_iff]
      intro x hx
      cases x <;> first | rfl | exact absurd hx (h _)
    simp only [call, setupData, this, Option.isNone_none, if_true]
  · have h1 : (findSrv (a ++ .srv t :: b)).isNone = false := by simp [findSrv, List.findSome?_append]
    have h2 : (a ++ .srv t :: b).dropWhile (fun t => !t.isSrv) = .srv t :: b := by
      rw [List.dropWhile_append_of_pos (by intro x hx; cases x <;> first | rfl | exact absurd hx (ha _))]
      simp [Top.isSrv]
    have h3 : (Top.srv t :: b).any Top.hasOp = true := List.any_eq_true.mpr ⟨y, hy, (topOp_iff y).2 ho⟩
    simp only [call, setupData, h1, h2, h3, Bool.false_eq_true, if_false, if_true]

/-- **C143, false in general.** Any other data: whether they are applied or not, every socket that listened before is closed. -/
theorem accepted_data_close (env : Env) (disp : Bool) (s : Server) (c : Conf) (h : Reached env disp s c) (a : List Top) (t : SrvTree) (b : List Top)
    (ha : ∀ x, Top.srv x ∉ a) (ho : ∀ y ∈ Top.srv t :: b, ¬ y.Marked) (hc : disp = true ∨ c.ch = none)
    (s' : Server) (hr : call env disp s (.data (a ++ .srv t :: b)) = .ok s' ∨ call env disp s (.data (a ++ .srv t :: b)) = .fail s') :
    ∀ x ∈ s.listen.net.socks, x ∉ s'.listen.net.socks := by
  obtain ⟨xs, q1, q2, q3⟩ := h
  have hi := steps_inv env disp xs boot s Conf.empty c (sinv_boot disp) q1 q2 q3
  obtain ⟨l, l1, l2, l3, l4, -⟩ := clear_ok disp s c hi hc
  have hl : l.net.socks = [] := by
    cases hx : l.net.socks with
    | nil => rfl
    | cons y ys =>
      obtain ⟨e, e1, -⟩ := l2.1.2.2.2.1 y (by rw [hx]; simp)
      rw [l4] at e1
      cases e1
  have h1 : (findSrv (a ++ .srv t :: b)).isNone = false := by simp [findSrv, List.findSome?_append]
  have h2 : (a ++ .srv t :: b).dropWhile (fun t => !t.isSrv) = .srv t :: b := by
    rw [List.dropWhile_append_of_pos (by intro x hx; cases x <;> first | rfl | exact absurd hx (ha _))]
    simp [Top.isSrv]
  have h3 : (Top.srv t :: b).any Top.hasOp = false := List.any_eq_false.mpr (fun y hy hm => ho y hy ((topOp_iff y).1 hm))
  have hf := fill_fresh s.listen.net.next env disp .create (a ++ .srv t :: b) ⟨⟨[]⟩, ⟨[], []⟩, l, [], s.ivs⟩
    ⟨by rw [l3]; exact Nat.le_refl _, fun x hx => by rw [show (⟨⟨[]⟩, ⟨[], []⟩, l, [], s.ivs⟩ : Server).listen.net.socks = l.net.socks from rfl, hl] at hx; cases hx⟩
  simp only [call, setupData, h1, h2, h3, Bool.false_eq_true, if_false, l1] at hr
  intro x hx hx'
  have hlt : x.fd < s.listen.net.next := hi.2.2.1.1.2.1.1 x hx
  have hge : s.listen.net.next ≤ x.fd := by
    rcases hr with hr | hr
    · rw [hr] at hf; exact hf.2 x hx'
    · rw [hr] at hf; exact hf.2 x hx'
  omega

/-- Data with endpoint 1 at address 5 and one endpoint more that cannot be opened, because another one listens there. -/
def clashData : Data := ⟨none, none, some ⟨none, [(1, ⟨.ssh, 5, none, ⟨none, none, none⟩⟩), (3, ⟨.ssh, 0, none, ⟨none, none, none⟩⟩)]⟩, none, none, false⟩

/-- **C143, false in general.** For instance: the server listens at two addresses; new data name an address that cannot be used. The call fails, and
the server listens at one address of the new data only. -/
theorem failed_data_harmless_false (disp : Bool) : ¬ FailedDataHarmless linuxEnv disp := by
  intro h
  obtain ⟨c, hc⟩ : ∃ c, Data.conf ⟨none, none, some endptSample, none, none, false⟩ = some c := ⟨_, rfl⟩
  have hr : ∀ disp, calls linuxEnv disp [(Step.data ⟨none, none, some endptSample, none, none, false⟩).call] boot =
      .ok { boot with listen := ⟨[⟨1, some .ssh, .live .ssh, .str 5, 830, some 0, ⟨true, 7200, 9, 75⟩⟩, ⟨2, some .tls, .live .tls, .str 6, 7000, some 1, ⟨true, 60, 9, 5⟩⟩],
        ⟨[⟨0, 5, 830⟩, ⟨1, 6, 7000⟩], 2⟩, 600⟩ } := by decide +kernel
  have hf : ∀ disp, call linuxEnv disp { boot with listen := ⟨[⟨1, some .ssh, .live .ssh, .str 5, 830, some 0, ⟨true, 7200, 9, 75⟩⟩,
        ⟨2, some .tls, .live .tls, .str 6, 7000, some 1, ⟨true, 60, 9, 5⟩⟩], ⟨[⟨0, 5, 830⟩, ⟨1, 6, 7000⟩], 2⟩, 600⟩ } (.data clashData.tops) =
      .fail { boot with listen := ⟨[⟨1, some .ssh, .live .ssh, .str 5, 830, some 2, ⟨true, 7200, 9, 75⟩⟩, ⟨3, some .ssh, .live .ssh, .str 0, 830, none, ⟨false, 0, 0, 0⟩⟩],
        ⟨[⟨2, 5, 830⟩], 3⟩, 180⟩ } := by decide +kernel
  have := h _ c clashData.tops _ ⟨[.data ⟨none, none, some endptSample, none, none, false⟩], ⟨⟨rfl, .inr rfl⟩, fun _ _ => trivial⟩,
    by simp only [applyAll, Step.apply, hc, Option.bind_some], hr disp⟩ (hf disp)
  exact absurd this (by decide)

/-- **C144.** Full statement (false, see `operations_refused_false`): complete data with an operation attribute anywhere are refused, and the server is
as before. -/
def OperationsRefused (env : Env) (disp : Bool) : Prop :=
  ∀ (s : Server) (d : List Top), (∃ t ∈ d, t.Marked) → call env disp s (.data d) = .fail s

/-- **C144.** Proved if no top-level container comes before `netconf-server`. -/
theorem operations_refused_partial (env : Env) (disp : Bool) (s : Server) (d : List Top) (h : ∃ t ∈ d, t.Marked) (t : SrvTree)
    (hd : d.head? = some (.srv t)) : call env disp s (.data d) = .fail s := by
  cases d with
  | nil => cases hd
  | cons x xs =>
    simp only [List.head?_cons, Option.some.injEq] at hd
    subst hd
    exact failed_data_harmless_partial env disp s _ (.inr ⟨[], t, xs, rfl, by simp, h⟩)

/-- A keystore with a key that has the operation `none`, before `netconf-server`. -/
def ksOperation : List Top :=
  [.ks (.node .keystore 0 .absent [.node .asymmetricKeys 0 .absent [.node .asymmetricKey 0 .none [leaf .name 1]]]), .srv ⟨.absent, none, none⟩]

/-- **C144, false in general.** Only `netconf-server` and the containers after it are looked at (src/server_config.c:4441): a keystore with operations
before it is processed with them. -/
theorem operations_refused_false (env : Env) (disp : Bool) : ¬ OperationsRefused env disp := by
  intro h
  have := h boot ksOperation ⟨.ks (.node .keystore 0 .absent [.node .asymmetricKeys 0 .absent [.node .asymmetricKey 0 .none [leaf .name 1]]]), by simp [ksOperation], (topOp_iff _).1 (by decide)⟩
  have hs : call env disp boot (.data ksOperation) = .ok boot := rfl
  rw [hs] at this
  cases this

example : call openEnv true boot (.data [.srv ⟨.absent, none, none⟩, .ks (.node .keystore 0 .delete [])]) = .fail boot := by decide +kernel

end Verif.Props
