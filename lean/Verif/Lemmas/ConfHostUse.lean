import Verif.Lemmas.ConfStoreUse
import Verif.Spec.ConfHostUse

/-!
# Lemmas: from the functions for host keys to the host keys of the server

As for the stores (`Lemmas.ConfStoreUse`).
-/

namespace Verif.ConfHostUse
open Verif.ConfUtil
open Verif.ConfUse (seg ep valueAt leafOf)
open Verif.ConfUserUse (View view put cut view_found view_value edit Sound run_view Placed E E.apply filterMap_nodup patch_creates map_nodup usr)
open Verif.ConfStoreUse (KL KL.seg KL_inj toE edits_eq ksSeg tsSeg Off Kept Tops)

/-! ## Edits elsewhere -/

theorem edit_apart {names : List Text} {vals : List (Option Text)} {q : Path} (x : Op × Place) (V : View)
    (h1 : ¬ q <+: x.2.at names) (h2 : ¬ x.2.at names <+: q) : edit names vals V x q = V q := by
  have a3 : q ≠ x.2.at names := fun c => h1 (c ▸ List.prefix_refl _)
  obtain ⟨o, P⟩ := x
  dsimp only at h1 h2 a3
  cases o <;> simp only [edit, put, cut, h1, h2, a3, if_false]

theorem edits_apart {names : List Text} {vals : List (Option Text)} {q : Path} : ∀ (l : List (Op × Place)) (V : View),
    (∀ x ∈ l, ¬ q <+: x.2.at names ∧ ¬ x.2.at names <+: q) → l.foldl (edit names vals) V q = V q
  | [], _, _ => rfl
  | x :: l, V, h => by
    rw [List.foldl_cons, edits_apart l _ (fun y hy => h y (.tail _ hy))]
    exact edit_apart x V (h x (.head _)).1 (h x (.head _)).2

/-- Host keys and users are apart. -/
theorem host_usr (e h u : Text) (x y : Path) : ¬ hostPath e h ++ x <+: usr e u ++ y ∧ ¬ usr e u ++ y <+: hostPath e h ++ x := by
  have hne : seg t!"server-identity" ≠ seg t!"client-authentication" := by decide
  have e1 : hostPath e h ++ x = (ep e ++ [seg t!"ssh", seg t!"ssh-server-parameters"]) ++ (seg t!"server-identity" :: (⟨t!"host-key", [(t!"name", h)]⟩ :: x)) := by
    simp [hostPath]
  have e2 : usr e u ++ y = (ep e ++ [seg t!"ssh", seg t!"ssh-server-parameters"]) ++
      (seg t!"client-authentication" :: (seg t!"users" :: ⟨t!"user", [(t!"name", u)]⟩ :: y)) := by
    simp [usr, ConfUserUse.usersPath]
  rw [e1, e2, List.prefix_append_right_inj, List.prefix_append_right_inj]
  exact ⟨fun c => hne (List.cons_prefix_cons.mp c).1, fun c => hne (List.cons_prefix_cons.mp c).1.symm⟩

/-! ## The nodes that count -/

def sPk : Seg := seg t!"public-key"
def sInl : Seg := seg t!"inline-definition"
def sRef : Seg := seg t!"central-keystore-reference"

/-- Their names. -/
inductive R where
  | host (h : Text)
  | inl (h : Text)
  | leaf (h : Text) (a : KL)
  | ref (h : Text)

def R.of : R → Text
  | .host h | .inl h | .leaf h _ | .ref h => h

def R.rel : R → Path
  | .host _ => []
  | .inl _ => [sPk, sInl]
  | .leaf _ a => [sPk, sInl, a.seg]
  | .ref _ => [sPk, sRef]

def R.path (e : Text) (r : R) : Path := hostPath e r.of ++ r.rel

/-- Which nodes are above which. -/
def R.le : R → R → Prop
  | .host h, r => h = r.of
  | .inl h, .inl h' | .inl h, .leaf h' _ | .ref h, .ref h' => h = h'
  | .leaf h a, .leaf h' a' => h = h' ∧ a = a'
  | _, _ => False

theorem host_prefix (e h h' : Text) (x y : Path) : hostPath e h ++ x <+: hostPath e h' ++ y ↔ h = h' ∧ x <+: y := by
  have : ∀ h x, hostPath e h ++ x = (ep e ++ [seg t!"ssh", seg t!"ssh-server-parameters", seg t!"server-identity"]) ++ (⟨t!"host-key", [(t!"name", h)]⟩ :: x) := by
    intro h x; simp [hostPath]
  rw [this, this, List.prefix_append_right_inj, List.cons_prefix_cons]
  simp

theorem R.prefix_iff (e : Text) (a b : R) : a.path e <+: b.path e ↔ a.le b := by
  have h1 : sInl ≠ sRef := by decide
  rw [R.path, R.path, host_prefix]
  cases a <;> cases b <;> simp [R.of, R.rel, R.le, List.cons_prefix_cons, h1, h1.symm, KL_inj]

theorem R.path_inj {e : Text} {a b : R} : a.path e = b.path e ↔ a.le b ∧ b.le a := by
  rw [← R.prefix_iff e, ← R.prefix_iff e]
  constructor
  · intro h; rw [h]; exact ⟨List.prefix_refl _, List.prefix_refl _⟩
  · rintro ⟨h1, h2⟩
    exact h1.eq_of_length (Nat.le_antisymm h1.length_le h2.length_le)

/-- The leaves of keys given there. -/
def leafText (pub sfmt priv : Text) : KL → Text
  | .pfmt => t!"ietf-crypto-types:ssh-public-key-format"
  | .pub => pub
  | .sfmt => sfmt
  | .priv => priv

/-- What is at them. -/
def img (m : Text → Option (Option Where)) : R → Option (Option Text)
  | .host h => (m h).map (fun _ => none)
  | .inl h => match m h with
    | some (some (.inline ..)) => some none
    | _ => none
  | .leaf h a => match m h with
    | some (some (.inline pub sfmt priv)) => some (some (leafText pub sfmt priv a))
    | _ => none
  | .ref h => match m h with
    | some (some (.keystore k)) => some (some k)
    | _ => none

/-- The nodes are as wanted. -/
def Is (e : Text) (W : View) (m : Text → Option (Option Where)) : Prop := ∀ r : R, W (r.path e) = img m r

/-- The edits of a call. -/
def Call.edits (e : Text) : Call → List E
  | .key h pub sfmt priv => [.put ((R.leaf h .pfmt).path e) (some t!"ietf-crypto-types:ssh-public-key-format"), .put ((R.leaf h .pub).path e) (some pub),
      .put ((R.leaf h .sfmt).path e) (some sfmt), .put ((R.leaf h .priv).path e) (some priv), .cut ((R.ref h).path e)]
  | .ref h k => [.put ((R.ref h).path e) (some k), .cut ((R.inl h).path e)]
  | .delKey h => [.cut ((R.host h).path e)]
  | .delRef h => [.cut ((R.ref h).path e)]

theorem put_at (e : Text) (s : R) (v : Option Text) (W : View) (r : R) : put (s.path e) v W (r.path e) =
    open Classical in if r.le s ∧ s.le r then some (if v.isSome then v else (W (r.path e)).join) else if r.le s then some (W (r.path e)).join
      else W (r.path e) := by
  classical
  unfold put
  simp only [R.path_inj, R.prefix_iff]

theorem cut_at (e : Text) (s : R) (W : View) (r : R) : cut (s.path e) W (r.path e) = open Classical in if s.le r then none else W (r.path e) := by
  classical
  unfold cut
  simp only [R.prefix_iff]

/-- What is wanted after one more call. -/
def next (m : Text → Option (Option Where)) (c : Call) : Text → Option (Option Where) := fun h => if c.host = h then c.apply (m h) else m h

set_option linter.unusedSimpArgs false in
theorem edits_img (e : Text) (c : Call) (m : Text → Option (Option Where)) (W : View) (h : Is e W m) : Is e ((c.edits e).foldl E.apply W) (next m c) := by
  intro r
  have h' : ∀ r : R, W (r.path e) = img m r := h
  cases c with
  | key n pub sfmt priv =>
    simp only [Call.edits, List.foldl_cons, List.foldl_nil, E.apply, cut_at, put_at, h']
    cases r with
    | leaf j a =>
      by_cases hj : j = n
      · subst hj
        cases a <;> rcases hm : m j with _ | _ | _ | _ <;> simp [R.le, R.of, img, next, Call.host, Call.apply, leafText, hm]
      · simp [R.le, R.of, img, next, Call.host, Call.apply, hj, Ne.symm hj]
    | _ j =>
      by_cases hj : j = n
      · subst hj
        rcases hm : m j with _ | _ | _ | _ <;> simp [R.le, R.of, img, next, Call.host, Call.apply, leafText, hm]
      · simp [R.le, R.of, img, next, Call.host, Call.apply, hj, Ne.symm hj]
  | ref n k =>
    simp only [Call.edits, List.foldl_cons, List.foldl_nil, E.apply, cut_at, put_at, h']
    cases r with
    | _ j =>
      by_cases hj : j = n
      · subst hj
        rcases hm : m j with _ | _ | _ | _ <;> simp [R.le, R.of, img, next, Call.host, Call.apply, leafText, hm]
      · simp [R.le, R.of, img, next, Call.host, Call.apply, hj, Ne.symm hj]
  | _ n =>
    simp only [Call.edits, List.foldl_cons, List.foldl_nil, E.apply, cut_at, put_at, h']
    cases r with
    | _ j =>
      by_cases hj : j = n
      · subst hj
        rcases hm : m j with _ | _ | _ | _ <;> simp [R.le, R.of, img, next, Call.host, Call.apply, leafText, hm]
      · simp [R.le, R.of, img, next, Call.host, Call.apply, hj, Ne.symm hj]

/-! ## What the functions do -/

def pHost : Place := [node t!"ietf-netconf-server:netconf-server", node t!"listen", node t!"endpoints", inst t!"endpoint" t!"name" 0, node t!"ssh",
  node t!"ssh-server-parameters", node t!"server-identity", inst t!"host-key" t!"name" 1]

/-- The places. -/
def Call.places : Call → List Place
  | .key .. => [pHost ++ [node t!"public-key", node t!"inline-definition", node t!"public-key-format"],
      pHost ++ [node t!"public-key", node t!"inline-definition", node t!"public-key"],
      pHost ++ [node t!"public-key", node t!"inline-definition", node t!"private-key-format"],
      pHost ++ [node t!"public-key", node t!"inline-definition", node t!"cleartext-private-key"],
      pHost ++ [node t!"public-key", node t!"central-keystore-reference"]]
  | .ref .. => [pHost ++ [node t!"public-key", node t!"central-keystore-reference"], pHost ++ [node t!"public-key", node t!"inline-definition"]]
  | .delKey _ => [pHost]
  | .delRef _ => [pHost ++ [node t!"public-key", node t!"central-keystore-reference"]]

def Call.fn : Call → Fn
  | .key .. => add_ssh_hostkey
  | .ref .. => add_ssh_keystore_ref
  | .delKey _ => del_ssh_hostkey
  | .delRef _ => del_ssh_keystore_ref

def Call.vals : Call → List (Option Text)
  | .key _ pub sfmt priv => [some pub, some sfmt, some priv]
  | .ref _ k => [some k]
  | _ => []

theorem run_eq (S : Schema) (e : Text) (cfg : Config) (c : Call) : c.run S e cfg = ConfUtil.run S [e, c.host] c.vals c.fn.ops cfg := by
  cases c <;> rfl

/-- What has to hold of each call of a function. -/
def fits (x : Op × Place) : Bool :=
  decide (x.1.place = some x.2) && decide (pHost <+: x.2) && decide (holes x.2 ≤ 2) && (match x.1 with | .create _ s => !s.isOpt | _ => true)

theorem fits_placed {e h : Text} (he : Plain e) (hh : Plain h) {l : List (Op × Place)} (hl : ∀ x ∈ l, fits x = true) : Placed [e, h] l := by
  intro x hx
  have := hl x hx
  simp only [fits, Bool.and_eq_true, decide_eq_true_eq] at this
  obtain ⟨⟨⟨h1, h2⟩, h3⟩, h4⟩ := this
  refine ⟨h1, ?_, ⟨h3, ?_⟩, ?_⟩
  · intro he
    rw [he] at h2
    exact absurd (List.prefix_nil.mp h2) (by simp [pHost])
  · intro t ht
    rcases List.mem_cons.mp ht with rfl | ht
    · exact he
    · rw [List.mem_singleton.mp ht]; exact hh
  · intro f s he
    rw [he] at h4
    simpa using h4

theorem fits_host {e h : Text} {x : Op × Place} (hx : fits x = true) : ∃ s, x.2.at [e, h] = hostPath e h ++ s := by
  simp only [fits, Bool.and_eq_true, decide_eq_true_eq] at hx
  obtain ⟨s, hs⟩ := hx.1.1.2
  refine ⟨Place.at s [e, h], ?_⟩
  rw [← hs, Place.at, List.map_append]
  rfl

theorem ops_fit (c : Call) : ∀ x ∈ c.fn.ops.zip c.places, fits x = true := by
  cases c <;> (simp only [Call.fn, Call.places]; decide +kernel)

theorem ops_zip (c : Call) : (c.fn.ops.zip c.places).map Prod.fst = c.fn.ops ∧ c.fn.ops.zip c.places ≠ [] := by
  cases c <;> exact ⟨rfl, List.cons_ne_nil _ _⟩

theorem ops_edits (e : Text) (c : Call) : (c.fn.ops.zip c.places).map (toE [e, c.host] c.vals) = c.edits e := by
  cases c <;> rfl

theorem call_view {S : Schema} {e : Text} {cfg cfg' : Config} {c : Call} (he : '\'' ∉ e) (hc : c.good) (hs : Sound (cfg.getD []))
    (h : c.run S e cfg = (true, cfg')) : ∃ t', cfg' = some t' ∧ Sound t' ∧ (∀ q, q ≠ [] → view t' q = (c.edits e).foldl E.apply (view (cfg.getD [])) q) ∧
      ∀ q, q ≠ [] → (∀ s, ¬ hostPath e c.host ++ s <+: q ∧ ¬ q <+: hostPath e c.host ++ s) → view t' q = view (cfg.getD []) q := by
  rw [run_eq, ← (ops_zip c).1] at h
  obtain ⟨t', h1, h2, h3⟩ := run_view _ (fits_placed he hc (ops_fit c)) (ops_zip c).2 hs h
  refine ⟨t', h1, h2, fun q hq => by rw [h3 q hq, edits_eq, ops_edits], fun q hq hp => ?_⟩
  rw [h3 q hq]
  refine edits_apart _ _ (fun x hx => ?_)
  obtain ⟨s, hs⟩ := fits_host (e := e) (h := c.host) (ops_fit c x hx)
  rw [hs]
  exact ⟨(hp s).2, (hp s).1⟩

theorem user_view {S : Schema} {e : Text} {cfg cfg' : Config} {c : ConfUserUse.Call} (he : '\'' ∉ e) (hc : c.good) (hs : Sound (cfg.getD []))
    (h : c.run S e cfg = (true, cfg')) : ∃ t', cfg' = some t' ∧ Sound t' ∧
      ∀ q, q ≠ [] → (∀ s, ¬ usr e c.user ++ s <+: q ∧ ¬ q <+: usr e c.user ++ s) → view t' q = view (cfg.getD []) q := by
  rw [ConfUserUse.run_eq, ← (ConfUserUse.ops_zip c).1] at h
  have hn : ∀ t ∈ e :: c.names, Plain t := by
    intro t ht
    rcases List.mem_cons.mp ht with rfl | ht
    · exact he
    · exact hc t ht
  obtain ⟨t', h1, h2, h3⟩ := run_view _ (ConfUserUse.fits_placed (by simp) hn (ConfUserUse.ops_fit c)) (ConfUserUse.ops_zip c).2 hs h
  refine ⟨t', h1, h2, fun q hq hp => ?_⟩
  rw [h3 q hq]
  refine edits_apart _ _ (fun x hx => ?_)
  obtain ⟨r, hr⟩ := ConfUserUse.names_user c
  obtain ⟨s, hs⟩ := ConfUserUse.fits_usr (e := e) (u := c.user) (r := r) (ConfUserUse.ops_fit c x hx)
  rw [hr, hs]
  exact ⟨(hp s).2, (hp s).1⟩

/-! ## What the data hold -/

theorem wanted_snoc (cs : List Call) (c : Call) : wanted (cs ++ [c]) = next (wanted cs) c := by
  funext h
  simp only [wanted, next, List.foldl_append, List.foldl_cons, List.foldl_nil]

/-- The data hold the host keys wanted. -/
structure Inv (e : Text) (t : List Node) (m : Text → Option (Option Where)) : Prop where
  sound : Sound t
  is : Is e (view t) m

theorem inv_nil (e : Text) : Inv e [] (wanted []) := ⟨⟨List.nodup_nil, fun _ hx => (by cases hx)⟩, fun r => by cases r <;> rfl⟩

theorem R.path_ne (e : Text) (r : R) : r.path e ≠ [] := by simp [R.path, hostPath]

/-- The data hold the host keys and the users wanted. -/
def Both (e : Text) (t : List Node) (pre : List (Call ⊕ ConfUserUse.Call)) : Prop :=
  Inv e t (wanted (forHosts pre)) ∧ ConfUserUse.Inv e t (ConfUserUse.wanted (forUsers pre))

theorem both_nil (e : Text) : Both e [] [] := ⟨inv_nil e, ConfUserUse.inv_nil e⟩

theorem both_call {S : Schema} {e : Text} (he : '\'' ∉ e) {cfg cfg' : Config} {c : Call ⊕ ConfUserUse.Call} {pre : List (Call ⊕ ConfUserUse.Call)}
    (hc : goodCall c) (hi : Both e (cfg.getD []) pre) (h : run S e cfg c = (true, cfg')) : ∃ t', cfg' = some t' ∧ Both e t' (pre ++ [c]) := by
  cases c with
  | inl c =>
    obtain ⟨t', rfl, h1, h2, h3⟩ := call_view he hc hi.1.sound h
    refine ⟨t', rfl, ⟨h1, fun r => ?_⟩, ⟨h1, fun u r => ?_⟩⟩
    · rw [show forHosts (pre ++ [.inl c]) = forHosts pre ++ [c] by simp [forHosts], wanted_snoc, h2 _ (r.path_ne e)]
      exact edits_img e c _ _ hi.1.is r
    · rw [show forUsers (pre ++ [.inl c]) = forUsers pre by simp [forUsers]]
      dsimp only
      rw [h3 _ (ConfUserUse.usr_ne _ _ _) (fun s => host_usr e c.host u s _)]
      exact hi.2.is u r
  | inr c =>
    obtain ⟨t', rfl, h1, h2⟩ := user_view he hc hi.1.sound h
    obtain ⟨t'', e1, h3⟩ := ConfUserUse.inv_call he hc hi.2 h
    cases e1
    refine ⟨t', rfl, ⟨h1, fun r => ?_⟩, ?_⟩
    · rw [show forHosts (pre ++ [.inr c]) = forHosts pre by simp [forHosts], h2 _ (r.path_ne e) (fun s => (host_usr e r.of c.user r.rel s).symm)]
      exact hi.1.is r
    · rw [show forUsers (pre ++ [.inr c]) = forUsers pre ++ [c] by simp [forUsers]]
      exact h3

theorem kept (S : Schema) (e : Text) (he : '\'' ∉ e) : Kept (run S e) goodCall (Both e) := by
  refine ⟨fun cfg cfg' c pre hg hi h => both_call he hg hi h, fun t t' pre hs hv hi => ⟨⟨hs, fun r => ?_⟩, ?_⟩⟩
  · have hh : (r.path e).head? = some (seg t!"ietf-netconf-server:netconf-server") := rfl
    rw [hv _ (r.path_ne e) (by rw [hh]; exact fun c => ConfStoreUse.net_ne.1 (Option.some.inj c))
      (by rw [hh]; exact fun c => ConfStoreUse.net_ne.2 (Option.some.inj c))]
    exact hi.1.is r
  · exact (ConfStoreUse.user_kept S e he).keep t t' _ hs hv hi.2

theorem off (S : Schema) (e : Text) (he : '\'' ∉ e) : Off (run S e) goodCall := by
  intro cfg cfg' c hc hs h
  cases c with
  | inl c =>
    obtain ⟨t', h1, h2, -, h3⟩ := call_view he hc hs h
    refine ⟨t', h1, h2, fun q hq hh => h3 q hq (fun s => ?_)⟩
    have ha : (hostPath e c.host ++ s).head? = some (seg t!"ietf-netconf-server:netconf-server") := rfl
    have hb : q.head? ≠ some (seg t!"ietf-netconf-server:netconf-server") := by
      rcases hh with hh | hh <;> rw [hh] <;> intro c
      · exact ConfStoreUse.net_ne.1 (Option.some.inj c).symm
      · exact ConfStoreUse.net_ne.2 (Option.some.inj c).symm
    cases q with
    | nil => exact absurd rfl hq
    | cons a q =>
      cases hp : hostPath e c.host ++ s with
      | nil => rw [hp] at ha; cases ha
      | cons b p =>
        rw [hp] at ha
        cases ha
        exact ⟨fun c => hb (by rw [(List.cons_prefix_cons.mp c).1]; rfl), fun c => hb (by rw [(List.cons_prefix_cons.mp c).1]; rfl)⟩
  | inr c => exact ConfStoreUse.user_off S e he cfg cfg' c hc hs h

theorem tops (S : Schema) (e : Text) (he : '\'' ∉ e) : Tops (run S e) goodCall := by
  intro cfg cfg' c hc ht h
  cases c with
  | inl c =>
    rw [run, run_eq, ← (ops_zip c).1] at h
    exact ConfStoreUse.run_top _ _ _ (fits_placed he hc (ops_fit c)) ht h
  | inr c => exact ConfStoreUse.user_tops S e he cfg cfg' c hc ht h

/-! ## Reading the data -/

open Verif.ConfStore (Tree Label Map Edit patchAll)
open Verif.ConfUsers (HostConf SshConf SshData hostData)
open Verif.ConfStoreUse (fmtNo pubFormats priv_no creates_map)

theorem hostName_some {e : Text} {p : Path} {n : Text} : hostName e p = some n ↔ p = hostPath e n := by
  constructor
  · intro h
    unfold hostName at h
    split at h
    · split at h
      · next hp => rw [Option.some.injEq] at h; subst h; exact hp
      · cases h
    · cases h
  · rintro rfl
    unfold hostName
    show (if hostPath e n = hostPath e n then some n else none) = some n
    rw [if_pos rfl]

theorem hosts_nodup {e : Text} {t : List Node} (h : (t.map Node.path).Nodup) : (hosts e t).Nodup := filterMap_nodup (fun _ _ => hostName_some) h

theorem Inv.host {e : Text} {t : List Node} {m : Text → Option (Option Where)} (hi : Inv e t m) (h : Text) : h ∈ hosts e t ↔ (m h).isSome := by
  rw [hosts, List.mem_filterMap]
  simp only [hostName_some]
  rw [← found_iff, view_found]
  have := hi.is (.host h)
  rw [show (R.host h).path e = hostPath e h from List.append_nil _] at this
  rw [this, img, Option.isSome_map]

/-- A host key as data. -/
def confOf (C : Text → Nat) : Where → HostConf
  | .inline pub sfmt priv => .inline (some 0) (some (C pub)) (fmtNo ConfTlsUse.privFormats sfmt) (C priv)
  | .keystore k => .ref (C k)

theorem leaf_at {e : Text} {t : List Node} {m : Text → Option (Option Where)} (hi : Inv e t m) (r : R) (l : Label) (f : Text → Nat) :
    ConfTlsUse.leafAt t l f (r.path e) = ((img m r).join.map (fun v => leafOf l (f v))).toList := by
  rw [ConfTlsUse.leafAt, view_value, hi.is]

theorem Inv.tree {e : Text} {t : List Node} {m : Text → Option (Option Where)} (hi : Inv e t m) (C : Text → Nat) {h : Text} {w : Where}
    (hw : m h = some (some w)) (hf : ∀ pub sfmt priv, w = .inline pub sfmt priv → sfmt ∈ ConfTlsUse.privFormats.map String.toList) :
    hostTreeOf C e t h = hostData (C h) (confOf C w) := by
  have e1 : inlineDef e h = (R.inl h).path e := rfl
  have e2 : ∀ a : KL, inlineDef e h ++ [a.seg] = (R.leaf h a).path e := fun a => by simp [inlineDef, R.path, R.rel, R.of, sPk, sInl]
  have e3 : hostPath e h ++ [seg t!"public-key", seg t!"central-keystore-reference"] = (R.ref h).path e := rfl
  have e4 := e2 .pfmt
  have e5 := e2 .pub
  have e6 := e2 .sfmt
  have e7 := e2 .priv
  simp only [KL.seg, ConfStoreUse.sFmt, ConfStoreUse.sDat, Bool.false_eq_true, if_false] at e4 e5 e6 e7
  unfold hostTreeOf hostData contentOf
  rw [view_found, e4, e5, e6, e7, e3, e1, hi.is, leaf_at hi, leaf_at hi, leaf_at hi, leaf_at hi, leaf_at hi]
  cases w with
  | inline pub sfmt priv =>
    have hp := (priv_no sfmt (hf _ _ _ rfl)).1
    simp only [img, hw, leafText, Option.isSome_some, if_true, Option.join_some, Option.map_some, Option.toList_some, Option.join_none, Option.map_none,
      Option.toList_none, List.append_nil, confOf, HostConf.trees, ConfUsers.pairTrees, hp]
    rfl
  | keystore k =>
    simp only [img, hw, Option.isSome_none, Bool.false_eq_true, if_false, List.nil_append, Option.join_some, Option.map_some, Option.toList_some, confOf,
      HostConf.trees]
    rfl

theorem wanted_files (spki : Nat → Bool) (C : Text → Nat) : ∀ (post pre : List Call), HostsFromFiles spki C post →
    (∀ h pub sfmt priv, wanted pre h = some (some (.inline pub sfmt priv)) → spki (C pub) = false ∧ sfmt ∈ ConfTlsUse.privFormats.map String.toList) →
    ∀ h pub sfmt priv, wanted (pre ++ post) h = some (some (.inline pub sfmt priv)) → spki (C pub) = false ∧ sfmt ∈ ConfTlsUse.privFormats.map String.toList
  | [], pre, _, h => by rwa [List.append_nil]
  | c :: post, pre, hk, h => by
    have := wanted_files spki C post (pre ++ [c]) (fun a b d f hm => hk a b d f (.tail _ hm)) (by
      intro j pub sfmt priv hj
      rw [wanted_snoc, next] at hj
      split at hj
      · cases c with
        | key a b d f =>
          simp only [Call.apply, Option.some.injEq, Where.inline.injEq] at hj
          obtain ⟨rfl, rfl, rfl⟩ := hj
          exact hk _ _ _ _ (.head _)
        | ref a b => simp [Call.apply] at hj
        | delKey a => simp [Call.apply] at hj
        | delRef a =>
          simp only [Call.apply] at hj
          rcases hm : wanted pre j with _ | _ | _ | _ <;> rw [hm] at hj <;> simp at hj
          obtain ⟨rfl, rfl, rfl⟩ := hj
          exact h _ _ _ _ hm
      · exact h _ _ _ _ hj)
    rwa [List.append_assoc] at this

/-- The host keys wanted, with numbers for texts. -/
def hostsConf (C : Text → Nat) (T : Nat → Text) (m : Text → Option (Option Where)) : Map HostConf := fun n => (m (T n)).bind (fun w => w.map (confOf C))

theorem Inv.conf {e : Text} {t : List Node} {cs : List Call} (hi : Inv e t (wanted cs)) {C : Text → Nat} {T : Nat → Text} (hT : ∀ t, T (C t) = t)
    (hC : ∀ n, C (T n) = n) {spki : Nat → Bool} (hk : HostsFromFiles spki C cs) (hids : ∀ h w, wanted cs h = some w → w.isSome) :
    ∃ l : List (Nat × HostConf), l.map (fun p => hostData p.1 p.2) = (hosts e t).map (hostTreeOf C e t) ∧
      (SshData.mk l []).conf spki = some ⟨hostsConf C T (wanted cs), fun _ => none⟩ := by
  have hfiles := wanted_files spki C cs [] hk (fun h pub sfmt priv hw => by cases hw)
  rw [List.nil_append] at hfiles
  have hw : ∀ h ∈ hosts e t, ∃ w, wanted cs h = some (some w) := by
    intro h hh
    obtain ⟨w, hw⟩ := Option.isSome_iff_exists.mp ((hi.host h).mp hh)
    obtain ⟨w', rfl⟩ := Option.isSome_iff_exists.mp (hids h w hw)
    exact ⟨w', hw⟩
  let f : Text → HostConf := fun h => confOf C (((wanted cs h).join).getD (.keystore []))
  refine ⟨(hosts e t).map (fun h => (C h, f h)), ?_, ?_⟩
  · rw [List.map_map]
    refine List.map_congr_left (fun h hh => ?_)
    obtain ⟨w, hw⟩ := hw h hh
    rw [hi.tree C hw (fun pub sfmt priv e => (hfiles h pub sfmt priv (e ▸ hw)).2)]
    simp only [Function.comp_apply, f, hw, Option.join_some, Option.getD_some]
  · unfold SshData.conf ConfUsers.patchSsh ConfUsers.patchHosts
    dsimp only
    rw [List.map_map]
    have := creates_map hT hC (fun c => if HostConf.valid spki c = true then some c else none) (HostConf.change spki) (hosts e t) (hosts_nodup hi.sound.nodup) f
      (fun h => (wanted cs h).bind (fun w => w.map (confOf C)))
      (by
        intro h
        rw [hi.host]
        cases hx : wanted cs h with
        | none => simp
        | some w =>
          obtain ⟨w', rfl⟩ := Option.isSome_iff_exists.mp (hids h w hx)
          simp)
      (by
        intro h hh
        obtain ⟨w, hw⟩ := hw h hh
        have : (confOf C w).valid spki = true := by
          cases w with
          | keystore k => rfl
          | inline pub sfmt priv =>
            obtain ⟨g1, g2⟩ := hfiles _ _ _ _ hw
            simp only [confOf, HostConf.valid, Option.all_some, g1, Bool.not_false, Bool.and_true]
            rw [show ConfStore.privOk (fmtNo ConfTlsUse.privFormats sfmt) = true from (priv_no sfmt g2).2]
            rfl
        simp only [f, hw, Option.join_some, Option.getD_some, this, if_true, Option.bind_some, Option.map_some])
    rw [show ((fun p : Nat × HostConf => Edit.create p.1 p.2) ∘ fun h => (C h, f h)) = fun n => (Edit.create (C n) (f n) : ConfUsers.HostEdit) from rfl, this]
    rfl

/-! ## Calls that succeed -/

open Verif.ConfUserUse (Takes Ready adds step_view found_top)

theorem host_top (e h : Text) (s : Path) : ConfUtil.top <+: hostPath e h ++ s := ⟨(hostPath e h).tail ++ s, rfl⟩

theorem free_top {t : List Node} {e h : Text} {s : Path} (hf : found t ConfUtil.top = true) : found (freeTree t (hostPath e h ++ s)) ConfUtil.top = true :=
  (found_freeTree _ _ _).mpr ⟨hf, fun c => by
    have := c.length_le
    rw [List.length_append] at this
    exact absurd (show 8 + s.length ≤ 1 from this) (by omega)⟩

theorem step_some {S : Schema} (hS : Takes S) {names : List Text} {vals : List (Option Text)} {cfg : Config} {o : Op} {P : Place} {e h : Text} {s : Path}
    (hP : o.place = some P) (hg : Good names P) (hat : P.at names = hostPath e h ++ s) (hc : Closed (cfg.getD []))
    (ho : Ready vals cfg (P.at names) o) : ∃ t', step S names vals cfg o = (true, some t') := by
  have hp := op_parse hP hg
  cases o with
  | create f src =>
    obtain ⟨v, hv⟩ := Option.isSome_iff_exists.mp ho
    obtain ⟨t, hnp⟩ : ∃ t, newPath S (cfg.getD []) (P.at names) v = some t := by
      unfold newPath; rw [if_pos (hS.1 _ _)]; exact ⟨_, rfl⟩
    have hf : found t ConfUtil.top = true := (newPath_found hnp _).mpr (.inr ⟨by simp [ConfUtil.top], hat ▸ host_top e h s⟩)
    refine ⟨t, ?_⟩
    rw [step_create, hv]
    unfold create
    rw [show parse (fill f names) = _ from hp]
    simp only [hnp, setTop_found hf]
  | checkDelete f =>
    cases cfg with
    | none => cases ho
    | some t =>
      have hp' : parse (fill f names) = some (P.at names) := hp
      simp only [step, checkDelete, hp', hS.2, Bool.not_true, Bool.false_eq_true, if_false]
      by_cases hf : found t (P.at names) = true
      · rw [if_pos hf]
        refine ⟨_, setTop_found ?_⟩
        rw [hat]
        exact free_top (found_top hc (hat ▸ host_top e h s) hf)
      · rw [if_neg hf]; exact ⟨t, rfl⟩
  | delete f =>
    cases cfg with
    | none => cases ho
    | some t =>
      have hp' : parse (fill f names) = some (P.at names) := hp
      have hf : found t (P.at names) = true := ho
      simp only [step, delete, hp', hf, if_true]
      refine ⟨_, setTop_found ?_⟩
      rw [hat]
      exact free_top (found_top hc (hat ▸ host_top e h s) hf)

theorem run_some {S : Schema} (hS : Takes S) {e h : Text} (he : Plain e) (hh : Plain h) {vals : List (Option Text)} : ∀ (l : List (Op × Place)) (cfg : Config),
    (∀ x ∈ l, fits x = true) → l.all (adds vals) = true → Sound (cfg.getD []) → cfg.isSome → ∃ t', ConfUtil.run S [e, h] vals (l.map Prod.fst) cfg = (true, some t')
  | [], cfg, _, _, _, hc => by
    obtain ⟨t, rfl⟩ := Option.isSome_iff_exists.mp hc
    exact ⟨t, rfl⟩
  | x :: l, cfg, hf, ha, hs, hc => by
    obtain ⟨s, hs'⟩ := fits_host (e := e) (h := h) (hf x (.head _))
    obtain ⟨g1, g2, g3, g4⟩ := fits_placed he hh hf x (.head _)
    rw [List.all_cons, Bool.and_eq_true] at ha
    have hax := ha.1
    obtain ⟨t1, h1⟩ : ∃ t1, step S [e, h] vals cfg x.1 = (true, some t1) := by
      refine step_some hS g1 g3 hs' hs.closed ?_
      unfold adds at hax
      cases hx : x.1 with
      | create f src => rw [hx] at hax; exact hax
      | checkDelete f => exact hc
      | delete f => rw [hx] at hax; cases hax
    obtain ⟨t', e', s', -⟩ := step_view g1 g2 g3 g4 hs h1
    cases e'
    obtain ⟨t2, h2⟩ := run_some hS he hh l (some t1) (fun y hy => hf y (.tail _ hy)) ha.2 s' rfl
    refine ⟨t2, ?_⟩
    rw [List.map_cons, ConfUtil.run, h1]
    simp only [if_true]
    exact h2

theorem run_first {S : Schema} (hS : Takes S) {e h : Text} (he : Plain e) (hh : Plain h) {vals : List (Option Text)} (x : Op × Place) (l : List (Op × Place))
    (cfg : Config) (hf : ∀ y ∈ x :: l, fits y = true) (ha : l.all (adds vals) = true) (hs : Sound (cfg.getD []))
    (ho : Ready vals cfg (x.2.at [e, h]) x.1) : ∃ t', ConfUtil.run S [e, h] vals ((x :: l).map Prod.fst) cfg = (true, some t') := by
  obtain ⟨s, hs'⟩ := fits_host (e := e) (h := h) (hf x (.head _))
  obtain ⟨g1, g2, g3, g4⟩ := fits_placed he hh hf x (.head _)
  obtain ⟨t1, h1⟩ : ∃ t1, step S [e, h] vals cfg x.1 = (true, some t1) := step_some hS g1 g3 hs' hs.closed ho
  obtain ⟨t', e', s', -⟩ := step_view g1 g2 g3 g4 hs h1
  cases e'
  obtain ⟨t2, h2⟩ := run_some hS he hh l (some t1) (fun y hy => hf y (.tail _ hy)) ha s' rfl
  refine ⟨t2, ?_⟩
  rw [List.map_cons, ConfUtil.run, h1]
  simp only [if_true]
  exact h2

/-- The node that a function deletes. -/
def Call.target : Call → Option R
  | .delKey h => some (.host h)
  | .delRef h => some (.ref h)
  | _ => none

theorem possible_img (c : Call) (m : Text → Option (Option Where)) : c.possible (m c.host) ↔ ∀ r, c.target = some r → (img m r).isSome := by
  cases c <;> simp only [Call.possible, Call.host, Call.target, Option.some.injEq, reduceCtorEq, false_imp_iff, implies_true, forall_eq']
  · cases h : m _ <;> simp [img, h]
  · rcases h : m _ with _ | _ | _ | _ <;> simp [img, h]

theorem call_iff {S : Schema} (hS : Takes S) {e : Text} {cfg : Config} {c : Call} {m : Text → Option (Option Where)} (he : '\'' ∉ e) (hc : c.good)
    (hi : Inv e (cfg.getD []) m) : (∃ t', c.run S e cfg = (true, some t')) ↔ c.possible (m c.host) := by
  rw [possible_img, run_eq, ← (ops_zip c).1]
  have hf := ops_fit c
  have hp := fits_placed he hc hf
  have key : ∀ r : R, ∀ f P l, c.target = some r → c.fn.ops.zip c.places = (.delete f, P) :: l → P.at [e, c.host] = r.path e → l = [] →
      ((∃ t', ConfUtil.run S [e, c.host] c.vals ((c.fn.ops.zip c.places).map Prod.fst) cfg = (true, some t')) ↔ ∀ r', c.target = some r' → (img m r').isSome) := by
    intro r f P l hr hz hat hl
    subst hl
    rw [hz] at hf hp ⊢
    obtain ⟨g1, -, g3, -⟩ := hp _ (.head _)
    have hfi : (img m r).isSome ↔ found (cfg.getD []) (r.path e) = true := by rw [view_found, hi.is r]
    constructor
    · rintro ⟨t', h⟩ r' e'
      rw [hr] at e'
      cases e'
      rw [hfi]
      obtain ⟨c1, h1, -⟩ := run_cons_ok h
      rcases step_ok g1 g3 h1 with ⟨_, _, _, _, e, _⟩ | ⟨_, _, e, _⟩ | ⟨t0, _, e, hf', _⟩ | ⟨_, _, e, _⟩
      · cases e
      · cases e
      · cases e; rw [← hat]; exact hf'
      · cases e
    · intro h
      exact run_first hS he hc _ _ cfg hf rfl hi.sound (show found _ _ = true by rw [hat]; exact hfi.mp (h r hr))
  cases c with
  | key h pub sfmt priv => exact ⟨fun _ r hr => (by cases hr), fun _ => run_first hS he hc _ _ cfg hf rfl hi.sound rfl⟩
  | ref h k => exact ⟨fun _ r hr => (by cases hr), fun _ => run_first hS he hc _ _ cfg hf rfl hi.sound rfl⟩
  | delKey h => exact key (.host h) _ _ _ rfl rfl (List.append_nil _).symm rfl
  | delRef h => exact key (.ref h) _ _ _ rfl rfl rfl rfl

end Verif.ConfHostUse
