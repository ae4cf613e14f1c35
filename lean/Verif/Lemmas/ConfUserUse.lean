import Verif.Lemmas.ConfUse
import Verif.Lemmas.Login
import Verif.Spec.ConfUserUse

/-!
# Lemmas: from the functions for SSH users to authentication
-/

namespace Verif.ConfUserUse
open Verif.ConfUtil
open Verif.ConfUse (seg ep valueAt leafOf newPath_nodup)

/-! ## What is at a path -/

/-- A map from paths to values: `none` is no node. -/
abbrev View := Path → Option (Option Text)

/-- What is at a path of the data. -/
def view (t : List Node) : View := fun p => (t.find? (fun n => n.path == p)).map Node.value

/-- A node is created. -/
def put (p : Path) (v : Option Text) (V : View) : View := fun q =>
  if q = p then some (if v.isSome then v else (V q).join) else if q <+: p then some (V q).join else V q

/-- A node is removed with all below. -/
def cut (p : Path) (V : View) : View := fun q => if p <+: q then none else V q

theorem view_found (t : List Node) (p : Path) : found t p = (view t p).isSome := by
  rw [view, Option.isSome_map, found, Bool.eq_iff_iff, List.find?_isSome, List.any_eq_true]

theorem view_value (t : List Node) (p : Path) : valueAt t p = (view t p).join := by
  rw [view, valueAt]
  cases t.find? (fun n => n.path == p) <;> rfl

theorem view_free (t : List Node) (p : Path) : view (freeTree t p) = cut p (view t) := by
  funext q
  unfold view cut freeTree
  rw [List.find?_filter]
  by_cases h : p <+: q
  · rw [if_pos h, Option.map_eq_none_iff, List.find?_eq_none]
    intro x _ hx
    simp only [Bool.not_eq_true', beq_iff_eq, decide_eq_true_eq] at hx
    rw [hx.2, List.isPrefixOf_iff_prefix.mpr h] at hx
    exact absurd hx.1 (by simp)
  · rw [if_neg h]
    congr 2
    funext x
    by_cases hx : x.path = q
    · have : p.isPrefixOf q = false := by
        rw [← Bool.not_eq_true, List.isPrefixOf_iff_prefix]; exact h
      simp [hx, this]
    · simp [hx]

theorem find_missing (t : List Node) (p q : Path) (hq : q ≠ []) (hf : found t q = false) :
    (missing t p).find? (fun n => n.path == q) = if q <+: p then some ⟨q, none⟩ else none := by
  cases h : (missing t p).find? (fun n => n.path == q) with
  | none =>
    rw [if_neg]
    intro hp
    have := List.find?_eq_none.mp h ⟨q, none⟩ ((mem_missing _ _ _).mpr ⟨hq, hp, hf, rfl⟩)
    simp at this
  | some x =>
    have h1 := (mem_missing _ _ _).mp (List.mem_of_find?_eq_some h)
    have h2 : x.path = q := by simpa using List.find?_some h
    obtain ⟨xp, xv⟩ := x
    dsimp only at h1 h2
    rw [h2] at h1
    rw [if_pos h1.2.1, h1.2.2.2, h2]

theorem view_new {S : Schema} {t t' : List Node} {p q : Path} {v : Option Text} (hq : q ≠ []) (h : newPath S t p v = some t') :
    view t' q = put p v (view t) q := by
  rw [(newPath_some h).2]
  unfold view put
  dsimp only
  rw [List.find?_map]
  have e : ((fun n : Node => n.path == q) ∘ fun n => if n.path = p ∧ v.isSome = true then { n with value := v } else n) = fun n => n.path == q := by
    funext n
    simp only [Function.comp_apply]
    split <;> rfl
  rw [e, List.find?_append]
  cases hf : t.find? (fun n => n.path == q) with
  | some x =>
    have hx : x.path = q := by simpa using List.find?_some hf
    simp only [Option.some_or, Option.map_some, Option.join_some]
    by_cases hqp : q = p
    · rw [if_pos hqp]
      by_cases hv : v.isSome = true
      · rw [if_pos ⟨hx.trans hqp, hv⟩, if_pos hv]
      · rw [if_neg (fun c => hv c.2), if_neg hv]
    · rw [if_neg hqp, if_neg (fun c => hqp (hx.symm.trans c.1))]
      split <;> rfl
  | none =>
    have hn : found t q = false := by
      rw [view_found, view, hf]; rfl
    rw [Option.none_or, find_missing t p q hq hn]
    simp only [Option.map_none, Option.join_none]
    by_cases hqp : q = p
    · subst hqp
      rw [if_pos (List.prefix_refl _), if_pos rfl]
      simp only [Option.map_some, true_and]
      by_cases hv : v.isSome = true
      · rw [if_pos hv, if_pos hv]
      · rw [if_neg hv, if_neg hv]
    · rw [if_neg hqp]
      by_cases hp : q <+: p
      · rw [if_pos hp, if_pos hp]
        simp only [Option.map_some, Option.some.injEq]
        rw [if_neg (fun c => hqp c.1)]
      · rw [if_neg hp, if_neg hp]
        rfl

theorem view_kept {t : List Node} (hc : Closed t) {p : Path} (hp : p ≠ []) (hf : found t p = false) : view t = cut p (view t) := by
  funext q
  unfold cut
  split
  · next h =>
    cases hv : view t q with
    | none => rfl
    | some x =>
      have : found t q = true := by rw [view_found, hv]; rfl
      obtain ⟨n, hn, e⟩ := (found_iff _ _).mp this
      rw [hc n hn p hp (e ▸ h)] at hf
      cases hf
  · rfl

/-! ## What a function does -/

/-- The edits of the calls of a function. -/
def edit (names : List Text) (vals : List (Option Text)) (V : View) : Op × Place → View
  | (.create _ s, P) => put (P.at names) ((srcVal vals s).getD none) V
  | (_, P) => cut (P.at names) V

/-- The data have no path twice, and the nodes above each node. -/
structure Sound (t : List Node) : Prop where
  nodup : (t.map Node.path).Nodup
  closed : Closed t

theorem step_view {S : Schema} {names : List Text} {vals : List (Option Text)} {cfg cfg' : Config} {o : Op} {P : Place} (hP : o.place = some P)
    (hne : P ≠ []) (hg : Good names P) (ho : ∀ f s, o = .create f s → s.isOpt = false) (hs : Sound (cfg.getD []))
    (h : step S names vals cfg o = (true, cfg')) :
    ∃ t', cfg' = some t' ∧ Sound t' ∧ ∀ q, q ≠ [] → view t' q = edit names vals (view (cfg.getD [])) (o, P) q := by
  rcases step_ok hP hg h with ⟨f, s, v, t', rfl, hv, rfl, hnp, _⟩ | ⟨f, s, he, ho', _⟩ | ⟨t, he, rfl, _, rfl, _⟩ | ⟨f, t, rfl, rfl, hf, rfl⟩
  · refine ⟨t', rfl, ⟨newPath_nodup hnp hs.nodup, newPath_closed hnp hs.closed⟩, fun q hq => ?_⟩
    rw [view_new hq hnp, edit, hv]
    rfl
  · rw [ho f s he] at ho'; cases ho'
  · refine ⟨_, rfl, ⟨((List.filter_sublist (l := t)).map Node.path).nodup hs.nodup, freeTree_closed _ hs.closed⟩, fun q _ => ?_⟩
    obtain ⟨f, rfl | rfl⟩ := he <;> rw [view_free] <;> rfl
  · refine ⟨t, rfl, hs, fun q _ => ?_⟩
    exact congrFun (view_kept hs.closed (at_ne_nil hne names) hf) q

theorem edit_congr {names : List Text} {vals : List (Option Text)} {V W : View} (h : ∀ q, q ≠ [] → V q = W q) (x : Op × Place) :
    ∀ q, q ≠ [] → edit names vals V x q = edit names vals W x q := by
  intro q hq
  obtain ⟨o, P⟩ := x
  cases o <;> simp only [edit, put, cut, h q hq]

theorem edits_congr {names : List Text} {vals : List (Option Text)} : ∀ (l : List (Op × Place)) {V W : View}, (∀ q, q ≠ [] → V q = W q) →
    ∀ q, q ≠ [] → l.foldl (edit names vals) V q = l.foldl (edit names vals) W q
  | [], _, _, h => h
  | x :: l, _, _, h => edits_congr l (edit_congr h x)

/-- The places of the calls are these. -/
def Placed (names : List Text) (l : List (Op × Place)) : Prop :=
  ∀ x ∈ l, x.1.place = some x.2 ∧ x.2 ≠ [] ∧ Good names x.2 ∧ ∀ f s, x.1 = .create f s → s.isOpt = false

theorem run_view {S : Schema} {names : List Text} {vals : List (Option Text)} : ∀ (l : List (Op × Place)) {cfg cfg' : Config}, Placed names l → l ≠ [] →
    Sound (cfg.getD []) → run S names vals (l.map Prod.fst) cfg = (true, cfg') →
    ∃ t', cfg' = some t' ∧ Sound t' ∧ ∀ q, q ≠ [] → view t' q = l.foldl (edit names vals) (view (cfg.getD [])) q
  | [], _, _, _, hne, _, _ => absurd rfl hne
  | x :: l, cfg, cfg', hl, _, hs, h => by
    obtain ⟨c, h1, h2⟩ := run_cons_ok h
    obtain ⟨g1, g2, g3, g4⟩ := hl x (.head _)
    obtain ⟨t1, rfl, s1, v1⟩ := step_view g1 g2 g3 g4 hs h1
    cases l with
    | nil =>
      simp only [List.map_nil, run, Prod.mk.injEq, true_and] at h2
      exact ⟨t1, h2.symm, s1, v1⟩
    | cons y l =>
      obtain ⟨t', e, s2, v2⟩ := run_view (y :: l) (cfg := some t1) (fun z hz => hl z (.tail _ hz)) (by simp) s1 h2
      refine ⟨t', e, s2, fun q hq => ?_⟩
      rw [v2 q hq]
      exact edits_congr (y :: l) v1 q hq

/-! ## Edits of a user -/

/-- An edit below a user. -/
inductive E where
  | put (s : Path) (v : Option Text)
  | cut (s : Path)

/-- What it does to the nodes below the user. -/
def E.apply (W : View) : E → View
  | .put s v => ConfUserUse.put s v W
  | .cut s => ConfUserUse.cut s W

/-- The edit of a call. -/
def toE (names : List Text) (vals : List (Option Text)) : Op × Place → E
  | (.create _ s, P) => .put ((P.at names).drop 9) ((srcVal vals s).getD none)
  | (_, P) => .cut ((P.at names).drop 9)

theorem usr_ne (e u : Text) (x : Path) : usr e u ++ x ≠ [] := by simp [usr]

theorem usr_prefix (e u u' : Text) (x y : Path) : usr e u ++ x <+: usr e u' ++ y ↔ u = u' ∧ x <+: y := by
  rw [usr, usr, List.append_assoc, List.append_assoc, List.prefix_append_right_inj]
  simp

theorem usr_eq (e u u' : Text) (x y : Path) : usr e u ++ x = usr e u' ++ y ↔ u = u' ∧ x = y := by
  rw [usr, usr, List.append_assoc, List.append_assoc, List.append_cancel_left_eq]
  simp

theorem edit_rel {e u : Text} {names : List Text} {vals : List (Option Text)} (x : Op × Place) (hx : ∃ s, x.2.at names = usr e u ++ s) (V : View)
    (u' : Text) (y : Path) : edit names vals V x (usr e u' ++ y) =
      if u' = u then (toE names vals x).apply (fun z => V (usr e u' ++ z)) y else V (usr e u' ++ y) := by
  obtain ⟨o, P⟩ := x
  obtain ⟨s, hs⟩ := hx
  dsimp only at hs
  have hd : (usr e u ++ s).drop 9 = s := rfl
  cases o with
  | create f src =>
    simp only [edit, toE, hd, E.apply, put, hs, usr_eq, usr_prefix]
    by_cases h : u' = u <;> simp [h]
  | delete f =>
    simp only [edit, toE, hd, E.apply, cut, hs, usr_prefix]
    by_cases h : u' = u
    · simp [h]
    · simp [h, Ne.symm h]
  | checkDelete f =>
    simp only [edit, toE, hd, E.apply, cut, hs, usr_prefix]
    by_cases h : u' = u
    · simp [h]
    · simp [h, Ne.symm h]

theorem edits_rel {e u : Text} {names : List Text} {vals : List (Option Text)} (u' : Text) : ∀ (l : List (Op × Place)),
    (∀ x ∈ l, ∃ s, x.2.at names = usr e u ++ s) → ∀ (V : View) (y : Path), l.foldl (edit names vals) V (usr e u' ++ y) =
      if u' = u then (l.map (toE names vals)).foldl E.apply (fun z => V (usr e u' ++ z)) y else V (usr e u' ++ y)
  | [], _, V, y => by simp
  | x :: l, h, V, y => by
    rw [List.foldl_cons, edits_rel u' l (fun z hz => h z (.tail _ hz))]
    have e1 := edit_rel (vals := vals) x (h x (.head _)) V u'
    by_cases hu : u' = u
    · rw [if_pos hu, if_pos hu, List.map_cons, List.foldl_cons]
      have : (fun z => edit names vals V x (usr e u' ++ z)) = (toE names vals x).apply (fun z => V (usr e u' ++ z)) := by
        funext z; rw [e1, if_pos hu]
      rw [this]
    · rw [if_neg hu, if_neg hu, e1, if_neg hu]

/-! ## The nodes of a user that count -/

/-- Their names. -/
def sPw : Seg := seg t!"password"
def sKbd : Seg := seg t!"libnetconf2-netconf-server:keyboard-interactive"
def sSys : Seg := seg t!"libnetconf2-netconf-server:use-system-keys"
def sTs : Seg := seg t!"central-truststore-reference"
def sInl : Seg := seg t!"inline-definition"
def sKey (k : Text) : Seg := ⟨t!"public-key", [(t!"name", k)]⟩
def sFmt : Seg := seg t!"public-key-format"
def sDat : Seg := seg t!"public-key"
def sAuth : Seg := seg t!"use-system-auth"
def fmtText : Text := t!"ietf-crypto-types:ssh-public-key-format"

/-- The nodes. -/
inductive R where
  | user | pw | kbd | sys | ts | inl
  | key (k : Text)
  | fmt (k : Text)
  | dat (k : Text)

/-- Their paths from the user on. -/
def R.path : R → Path
  | .user => []
  | .pw => [sPw]
  | .kbd => [sKbd]
  | .sys => [pubKeys, sSys]
  | .ts => [pubKeys, sTs]
  | .inl => [pubKeys, sInl]
  | .key k => [pubKeys, sInl, sKey k]
  | .fmt k => [pubKeys, sInl, sKey k, sFmt]
  | .dat k => [pubKeys, sInl, sKey k, sDat]

/-- What is wanted at them. -/
def img (w : Option Want) : R → Option (Option Text)
  | .user => w.map (fun _ => none)
  | .pw => w.bind (fun x => x.password.map some)
  | .kbd => w.bind (fun x => if x.kbdint then some none else none)
  | .sys => w.bind (fun x => match x.keys with | some .system => some none | _ => none)
  | .ts => w.bind (fun x => match x.keys with | some (.bag b) => some (some b) | _ => none)
  | .inl => w.bind (fun x => match x.keys with | some (.inline _) => some none | _ => none)
  | .key k => w.bind (fun x => match x.keys with | some (.inline m) => (m k).map (fun _ => none) | _ => none)
  | .fmt k => w.bind (fun x => match x.keys with | some (.inline m) => (m k).map (fun _ => some fmtText) | _ => none)
  | .dat k => w.bind (fun x => match x.keys with | some (.inline m) => (m k).map some | _ => none)

/-- The edits of each call. -/
def Call.edits : Call → List E
  | .pubkey _ k d => [.put (R.fmt k).path (some fmtText), .put (R.dat k).path (some d), .cut R.ts.path, .cut R.sys.path]
  | .authkey _ => [.put R.sys.path none, .cut R.inl.path, .cut R.ts.path]
  | .tsRef _ b => [.put R.ts.path (some b), .cut R.inl.path, .cut R.sys.path]
  | .password _ h => [.put R.pw.path (some h)]
  | .interactive _ => [.put [sKbd, sAuth] none]
  | .delPubkey _ k => [.cut (R.key k).path]
  | .delAuthkey _ => [.cut R.sys.path]
  | .delPassword _ => [.cut R.pw.path]
  | .delInteractive _ => [.cut R.kbd.path]
  | .delUser _ => [.cut R.user.path]

/-- The place of a user. -/
def pUsr : Place := lis ++ [node t!"ssh", node t!"ssh-server-parameters", node t!"client-authentication", node t!"users", inst t!"user" t!"name" 1]
def pPk : Place := pUsr ++ [node t!"public-keys"]
def pKey : Place := pPk ++ [node t!"inline-definition", inst t!"public-key" t!"name" 2]

/-- The calls of a function with their places. -/
def placed (f : Fn) (ps : List Place) : List (Op × Place) := f.ops.zip ps

/-- The places. -/
def Call.places : Call → List Place
  | .pubkey _ _ _ => [pKey ++ [node t!"public-key-format"], pKey ++ [node t!"public-key"], pPk ++ [node t!"central-truststore-reference"],
      pPk ++ [node t!"libnetconf2-netconf-server:use-system-keys"]]
  | .authkey _ => [pPk ++ [node t!"libnetconf2-netconf-server:use-system-keys"], pPk ++ [node t!"inline-definition"],
      pPk ++ [node t!"central-truststore-reference"]]
  | .tsRef _ _ => [pPk ++ [node t!"central-truststore-reference"], pPk ++ [node t!"inline-definition"],
      pPk ++ [node t!"libnetconf2-netconf-server:use-system-keys"]]
  | .password _ _ => [pUsr ++ [node t!"password"]]
  | .interactive _ => [pUsr ++ [node t!"libnetconf2-netconf-server:keyboard-interactive", node t!"use-system-auth"]]
  | .delPubkey _ _ => [pKey]
  | .delAuthkey _ => [pPk ++ [node t!"libnetconf2-netconf-server:use-system-keys"]]
  | .delPassword _ => [pUsr ++ [node t!"password"]]
  | .delInteractive _ => [pUsr ++ [node t!"libnetconf2-netconf-server:keyboard-interactive"]]
  | .delUser _ => [pUsr]

/-- The function called. -/
def Call.fn : Call → Fn
  | .pubkey _ _ _ => add_ssh_user_pubkey
  | .authkey _ => add_ssh_user_authkey
  | .tsRef _ _ => add_ssh_truststore_ref
  | .password _ _ => add_ssh_user_password
  | .interactive _ => add_ssh_user_interactive
  | .delPubkey _ _ => del_ssh_user_pubkey
  | .delAuthkey _ => del_ssh_user_authkey
  | .delPassword _ => del_ssh_user_password
  | .delInteractive _ => del_ssh_user_interactive
  | .delUser _ => del_ssh_user

/-- Its values. -/
def Call.vals : Call → List (Option Text)
  | .pubkey _ _ d => [some d]
  | .tsRef _ b => [some b]
  | .password _ h => [some h]
  | _ => []

theorem run_eq (S : Schema) (e : Text) (cfg : Config) (c : Call) : c.run S e cfg = run S (e :: c.names) c.vals c.fn.ops cfg := by
  cases c <;> rfl

/-- What has to hold of each call of a function. -/
def fits (n : Nat) (x : Op × Place) : Bool :=
  decide (x.1.place = some x.2) && decide (pUsr <+: x.2) && decide (holes x.2 ≤ n) && (match x.1 with | .create _ s => !s.isOpt | _ => true)

theorem fits_placed {n : Nat} {names : List Text} (hn : names.length = n) (hp : ∀ t ∈ names, Plain t) {l : List (Op × Place)}
    (h : ∀ x ∈ l, fits n x = true) : Placed names l := by
  intro x hx
  have := h x hx
  simp only [fits, Bool.and_eq_true, decide_eq_true_eq] at this
  obtain ⟨⟨⟨h1, h2⟩, h3⟩, h4⟩ := this
  refine ⟨h1, ?_, ⟨hn ▸ h3, hp⟩, ?_⟩
  · intro he
    rw [he] at h2
    exact absurd (List.prefix_nil.mp h2) (by simp [pUsr])
  · intro f s he
    rw [he] at h4
    simpa using h4

theorem fits_usr {n : Nat} {e u : Text} {r : List Text} {x : Op × Place} (h : fits n x = true) : ∃ s, x.2.at (e :: u :: r) = usr e u ++ s := by
  simp only [fits, Bool.and_eq_true, decide_eq_true_eq] at h
  obtain ⟨s, hs⟩ := h.1.1.2
  refine ⟨Place.at s (e :: u :: r), ?_⟩
  rw [← hs, Place.at, List.map_append]
  rfl

theorem ops_fit (c : Call) : ∀ x ∈ c.fn.ops.zip c.places, fits (c.names.length + 1) x = true := by
  cases c <;> (simp only [Call.fn, Call.places, Call.names, List.length_cons, List.length_nil]; decide +kernel)

theorem ops_zip (c : Call) : (c.fn.ops.zip c.places).map Prod.fst = c.fn.ops ∧ c.fn.ops.zip c.places ≠ [] := by
  cases c <;> exact ⟨rfl, List.cons_ne_nil _ _⟩

theorem names_user (c : Call) : ∃ r, c.names = c.user :: r := by
  cases c <;> exact ⟨_, rfl⟩

theorem ops_edits (e : Text) (c : Call) : (c.fn.ops.zip c.places).map (toE (e :: c.names) c.vals) = c.edits := by
  cases c <;> rfl

theorem call_view {S : Schema} {e : Text} {cfg cfg' : Config} {c : Call} (he : '\'' ∉ e) (hc : c.good) (hs : Sound (cfg.getD []))
    (h : c.run S e cfg = (true, cfg')) : ∃ t', cfg' = some t' ∧ Sound t' ∧ ∀ u y, view t' (usr e u ++ y) =
      if u = c.user then c.edits.foldl E.apply (fun z => view (cfg.getD []) (usr e u ++ z)) y else view (cfg.getD []) (usr e u ++ y) := by
  rw [run_eq, ← (ops_zip c).1] at h
  have hp : ∀ t ∈ e :: c.names, Plain t := by
    intro t ht
    rcases List.mem_cons.mp ht with rfl | ht
    · exact he
    · exact hc t ht
  obtain ⟨t', h1, h2, h3⟩ := run_view _ (fits_placed (by simp) hp (ops_fit c)) (ops_zip c).2 hs h
  refine ⟨t', h1, h2, fun u y => ?_⟩
  obtain ⟨r, hr⟩ := names_user c
  rw [h3 _ (usr_ne e u y), edits_rel (e := e) (u := c.user) u _ (fun x hx => by rw [hr]; exact fits_usr (ops_fit c x hx)), ops_edits]

/-! ## The nodes after a call -/

theorem seg_ne : sPw ≠ sKbd ∧ sPw ≠ pubKeys ∧ sKbd ≠ pubKeys ∧ sSys ≠ sTs ∧ sSys ≠ sInl ∧ sTs ≠ sInl ∧ sFmt ≠ sDat := by decide

theorem sKey_inj (a b : Text) : sKey a = sKey b ↔ a = b := by simp [sKey]

/-- Which nodes are above which. -/
def R.le : R → R → Prop
  | .user, _ => True
  | .pw, .pw | .kbd, .kbd | .sys, .sys | .ts, .ts | .inl, .inl | .inl, .key _ | .inl, .fmt _ | .inl, .dat _ => True
  | .key a, .key b | .key a, .fmt b | .key a, .dat b | .fmt a, .fmt b | .dat a, .dat b => a = b
  | _, _ => False

theorem R.prefix_iff (a b : R) : a.path <+: b.path ↔ a.le b := by
  obtain ⟨h1, h2, h3, h4, h5, h6, h7⟩ := seg_ne
  cases a <;> cases b <;>
    simp [R.path, R.le, List.cons_prefix_cons, h1, h2, h3, h4, h5, h6, h7, h1.symm, h2.symm, h3.symm, h4.symm, h5.symm, h6.symm, h7.symm, sKey_inj]

theorem R.path_inj {a b : R} : a.path = b.path ↔ a.le b ∧ b.le a := by
  rw [← R.prefix_iff, ← R.prefix_iff]
  constructor
  · intro h; rw [h]; exact ⟨List.prefix_refl _, List.prefix_refl _⟩
  · rintro ⟨h1, h2⟩
    exact h1.eq_of_length (Nat.le_antisymm h1.length_le h2.length_le)

theorem R.auth (a : R) : a.path ≠ [sKbd, sAuth] ∧ (a.path <+: [sKbd, sAuth] ↔ a = .user ∨ a = .kbd) := by
  obtain ⟨h1, h2, h3, h4, h5, h6, h7⟩ := seg_ne
  cases a <;> simp [R.path, List.cons_prefix_cons, h1, h3.symm]

/-- Below a user is what is wanted. -/
def Is (W : View) (w : Option Want) : Prop := ∀ r : R, W r.path = img w r

theorem put_at (s : R) (v : Option Text) (W : View) (r : R) : put s.path v W r.path =
    open Classical in if r.le s ∧ s.le r then some (if v.isSome then v else (W r.path).join) else if r.le s then some (W r.path).join else W r.path := by
  classical
  unfold put
  simp only [R.path_inj, R.prefix_iff]

theorem cut_at (s : R) (W : View) (r : R) : cut s.path W r.path = open Classical in if s.le r then none else W r.path := by
  classical
  unfold cut
  simp only [R.prefix_iff]

set_option linter.unusedSimpArgs false in
theorem edits_img (c : Call) (w : Option Want) (W : View) (h : Is W w) : Is (c.edits.foldl E.apply W) (c.apply w) := by
  intro r
  have h' : ∀ r : R, W r.path = img w r := h
  cases c with
  | pubkey u k d =>
    simp only [Call.edits, List.foldl_cons, List.foldl_nil, E.apply, cut_at, put_at, h']
    rcases w with _ | ⟨_ | _ | _ | _, pw, kb⟩ <;> cases r <;> first
      | (simp [R.le, img, Call.apply, Want.empty]; done)
      | (rename_i j; by_cases hj : j = k
         · subst hj; simp [R.le, img, Call.apply, Want.empty]; done
         · simp [R.le, img, Call.apply, Want.empty, hj, Ne.symm hj]; done)
      | (rename_i m j; by_cases hj : j = k
         · subst hj; cases hm : m j <;> simp [R.le, img, Call.apply, Want.empty, hm]
         · simp [R.le, img, Call.apply, Want.empty, hj, Ne.symm hj]; done)
  | authkey u =>
    simp only [Call.edits, List.foldl_cons, List.foldl_nil, E.apply, cut_at, put_at, h']
    rcases w with _ | ⟨_ | _ | _ | _, pw, kb⟩ <;> cases r <;> simp [R.le, img, Call.apply, Want.empty]
  | tsRef u b =>
    simp only [Call.edits, List.foldl_cons, List.foldl_nil, E.apply, cut_at, put_at, h']
    rcases w with _ | ⟨_ | _ | _ | _, pw, kb⟩ <;> cases r <;> simp [R.le, img, Call.apply, Want.empty]
  | password u p =>
    simp only [Call.edits, List.foldl_cons, List.foldl_nil, E.apply, cut_at, put_at, h']
    rcases w with _ | ⟨_ | _ | _ | _, pw, kb⟩ <;> cases r <;> simp [R.le, img, Call.apply, Want.empty]
  | interactive u =>
    simp only [Call.edits, List.foldl_cons, List.foldl_nil, E.apply]
    unfold put
    obtain ⟨a1, a2⟩ := R.auth r
    rw [if_neg a1]
    by_cases hp : r = .user ∨ r = .kbd
    · rw [if_pos (a2.mpr hp), h']
      rcases hp with rfl | rfl
      · rcases w with _ | w <;> simp [img, Call.apply, Want.empty]
      · rcases w with _ | ⟨kk, pw, kb⟩
        · simp [img, Call.apply, Want.empty]
        · cases kb <;> simp [img, Call.apply, Want.empty]
    · rw [if_neg (fun c => hp (a2.mp c)), h']
      rcases w with _ | ⟨_ | _ | _ | _, pw, kb⟩ <;> cases r <;> first | (exact absurd (.inl rfl) hp) | (exact absurd (.inr rfl) hp) | simp [img, Call.apply, Want.empty]
  | delPubkey u k =>
    simp only [Call.edits, List.foldl_cons, List.foldl_nil, E.apply, cut_at, put_at, h']
    rcases w with _ | ⟨_ | _ | _ | _, pw, kb⟩ <;> cases r <;> first
      | (simp [R.le, img, Call.apply, Want.empty]; done)
      | (rename_i j; by_cases hj : j = k
         · subst hj; simp [R.le, img, Call.apply, Want.empty]; done
         · simp [R.le, img, Call.apply, Want.empty, hj, Ne.symm hj]; done)
      | (rename_i m j; by_cases hj : j = k
         · subst hj; cases hm : m j <;> simp [R.le, img, Call.apply, Want.empty, hm]
         · simp [R.le, img, Call.apply, Want.empty, hj, Ne.symm hj]; done)
  | delAuthkey u =>
    simp only [Call.edits, List.foldl_cons, List.foldl_nil, E.apply, cut_at, put_at, h']
    rcases w with _ | ⟨_ | _ | _ | _, pw, kb⟩ <;> cases r <;> simp [R.le, img, Call.apply, Want.empty]
  | delPassword u =>
    simp only [Call.edits, List.foldl_cons, List.foldl_nil, E.apply, cut_at, put_at, h']
    rcases w with _ | ⟨_ | _ | _ | _, pw, kb⟩ <;> cases r <;> simp [R.le, img, Call.apply, Want.empty]
  | delInteractive u =>
    simp only [Call.edits, List.foldl_cons, List.foldl_nil, E.apply, cut_at, put_at, h']
    rcases w with _ | ⟨_ | _ | _ | _, pw, kb⟩ <;> cases r <;> simp [R.le, img, Call.apply, Want.empty]
  | delUser u =>
    simp only [Call.edits, List.foldl_cons, List.foldl_nil, E.apply, cut_at, put_at, h']
    rcases w with _ | ⟨_ | _ | _ | _, pw, kb⟩ <;> cases r <;> simp [R.le, img, Call.apply, Want.empty]

/-! ## All calls -/

theorem wanted_snoc (cs : List Call) (c : Call) (u : Text) : wanted (cs ++ [c]) u = if c.user = u then c.apply (wanted cs u) else wanted cs u := by
  simp only [wanted, List.foldl_append, List.foldl_cons, List.foldl_nil]

/-- The data hold what is wanted. -/
structure Inv (e : Text) (t : List Node) (m : Text → Option Want) : Prop where
  sound : Sound t
  is : ∀ u, Is (fun z => view t (usr e u ++ z)) (m u)

theorem inv_nil (e : Text) : Inv e [] (wanted []) :=
  ⟨⟨List.nodup_nil, fun _ hx => (by cases hx)⟩, fun u r => by cases r <;> rfl⟩

theorem inv_call {S : Schema} {e : Text} {cfg cfg' : Config} {c : Call} {pre : List Call} (he : '\'' ∉ e) (hc : c.good)
    (hi : Inv e (cfg.getD []) (wanted pre)) (h : c.run S e cfg = (true, cfg')) : ∃ t', cfg' = some t' ∧ Inv e t' (wanted (pre ++ [c])) := by
  obtain ⟨t', rfl, hs, hv⟩ := call_view he hc hi.sound h
  refine ⟨t', rfl, hs, fun u => ?_⟩
  rw [wanted_snoc]
  by_cases hu : u = c.user
  · rw [if_pos hu.symm]
    intro r
    have := edits_img c _ _ (hi.is u) r
    dsimp only
    rw [hv, if_pos hu]
    exact this
  · rw [if_neg (Ne.symm hu)]
    intro r
    dsimp only
    rw [hv, if_neg hu]
    exact hi.is u r

theorem inv_build (S : Schema) (e : Text) (he : '\'' ∉ e) : ∀ (post pre : List Call) (cfg cfg' : Config), (∀ c ∈ post, c.good) →
    Inv e (cfg.getD []) (wanted pre) → build S e post cfg = (true, cfg') → Inv e (cfg'.getD []) (wanted (pre ++ post))
  | [], pre, cfg, cfg', _, hi, h => by
    simp only [build, Prod.mk.injEq, true_and] at h
    subst h
    rwa [List.append_nil]
  | c :: post, pre, cfg, cfg', hg, hi, h => by
    rw [build] at h
    cases hr : c.run S e cfg with
    | mk b c1 =>
      rw [hr] at h
      cases b with
      | false => simp at h
      | true =>
        obtain ⟨t', rfl, hi'⟩ := inv_call he (hg c (.head _)) hi hr
        have := inv_build S e he post (pre ++ [c]) (some t') cfg' (fun x hx => hg x (.tail _ hx)) hi' h
        rwa [List.append_assoc] at this

/-! ## Reading the data -/

theorem userName_some {e : Text} {p : Path} {n : Text} : userName e p = some n ↔ p = usr e n := by
  constructor
  · intro h
    unfold userName at h
    split at h
    · split at h
      · next hp => rw [Option.some.injEq] at h; subst h; exact hp
      · cases h
    · cases h
  · rintro rfl
    unfold userName
    show (if usr e n = usr e n then some n else none) = some n
    rw [if_pos rfl]

theorem keyName_some {e u : Text} {p : Path} {n : Text} : keyName e u p = some n ↔ p = usr e u ++ keyPath n := by
  constructor
  · intro h
    unfold keyName at h
    split at h
    · split at h
      · next hp => rw [Option.some.injEq] at h; subst h; exact hp
      · cases h
    · cases h
  · rintro rfl
    unfold keyName
    show (if usr e u ++ keyPath n = usr e u ++ keyPath n then some n else none) = some n
    rw [if_pos rfl]

theorem mem_users {e : Text} {t : List Node} {n : Text} : n ∈ users e t ↔ found t (usr e n) = true := by
  rw [users, List.mem_filterMap, found_iff]
  simp only [userName_some]

theorem mem_keys {e u : Text} {t : List Node} {n : Text} : n ∈ keys e u t ↔ found t (usr e u ++ keyPath n) = true := by
  rw [keys, List.mem_filterMap, found_iff]
  simp only [keyName_some]

theorem filterMap_nodup {f : Path → Option Text} {g : Text → Path} (hf : ∀ p n, f p = some n ↔ p = g n) : ∀ {t : List Node}, (t.map Node.path).Nodup →
    (t.filterMap (fun n => f n.path)).Nodup
  | [], _ => List.nodup_nil
  | x :: t, h => by
    rw [List.map_cons, List.nodup_cons] at h
    rw [List.filterMap_cons]
    cases he : f x.path with
    | none => exact filterMap_nodup hf h.2
    | some n =>
      refine List.nodup_cons.mpr ⟨fun hm => ?_, filterMap_nodup hf h.2⟩
      obtain ⟨y, hy, e⟩ := List.mem_filterMap.mp hm
      exact h.1 (List.mem_map.mpr ⟨y, hy, by rw [(hf _ _).mp e, (hf _ _).mp he]⟩)

theorem users_nodup {e : Text} {t : List Node} (h : (t.map Node.path).Nodup) : (users e t).Nodup := filterMap_nodup (fun _ _ => userName_some) h
theorem keys_nodup {e u : Text} {t : List Node} (h : (t.map Node.path).Nodup) : (keys e u t).Nodup := filterMap_nodup (fun _ _ => keyName_some) h

theorem Inv.at {e : Text} {t : List Node} {m : Text → Option Want} (hi : Inv e t m) (u : Text) (r : R) : view t (usr e u ++ r.path) = img (m u) r := hi.is u r

theorem Inv.user {e : Text} {t : List Node} {m : Text → Option Want} (hi : Inv e t m) (u : Text) : u ∈ users e t ↔ (m u).isSome := by
  rw [mem_users, view_found]
  have := hi.at u .user
  rw [show usr e u ++ R.user.path = usr e u from List.append_nil _] at this
  rw [this, img, Option.isSome_map]

theorem Inv.key {e : Text} {t : List Node} {m : Text → Option Want} (hi : Inv e t m) {u : Text} {w : Want} {l : Text → Option Text} (hw : m u = some w)
    (hk : w.keys = some (.inline l)) (k : Text) : k ∈ keys e u t ↔ (l k).isSome := by
  rw [mem_keys, view_found]
  have := hi.at u (.key k)
  rw [show usr e u ++ keyPath k = usr e u ++ (R.key k).path from rfl, this, img, hw]
  simp [hk]

/-! ## The data of the server -/

open Verif.ConfUsers (KeysData UserData KeysConf UserConf)
open Verif.ConfStore (Tree Edit patchAll patch Map upd)

/-- The keys as data. -/
def keysData (C : Text → Nat) (e u : Text) (t : List Node) : Keys → KeysData
  | .inline l => .inline ((keys e u t).map (fun k => (C k, (0, C ((l k).getD [])))))
  | .bag b => .bag (C b)
  | .system => .system

/-- The user as data. -/
def dataOf (C : Text → Nat) (e u : Text) (t : List Node) (w : Want) : UserData :=
  ⟨w.keys.map (keysData C e u t), w.password.map C, false, w.kbdint⟩

theorem Inv.tree {e : Text} {t : List Node} {m : Text → Option Want} (hi : Inv e t m) (C : Text → Nat) {u : Text} {w : Want} (hw : m u = some w) :
    userTree C e t u = ConfUsers.userData (C u) (dataOf C e u t w) := by
  have hpw : (view t (usr e u ++ [seg t!"password"])).join = w.password := by
    have := hi.at u .pw
    rw [show usr e u ++ [seg t!"password"] = usr e u ++ R.pw.path from rfl, this, img, hw]
    cases h : w.password <;> simp [h]
  have hkb : (view t (usr e u ++ [seg t!"libnetconf2-netconf-server:keyboard-interactive"])).isSome = w.kbdint := by
    have := hi.at u .kbd
    rw [show usr e u ++ [seg t!"libnetconf2-netconf-server:keyboard-interactive"] = usr e u ++ R.kbd.path from rfl, this, img, hw]
    cases h : w.kbdint <;> simp [h]
  have hpk : pubKeysTrees C e u t = match (dataOf C e u t w).keys with
      | none => []
      | some k => [.node .publicKeys 0 .absent k.trees] := by
    have h1 := hi.at u .sys
    have h2 := hi.at u .ts
    have h3 := hi.at u .inl
    rw [hw] at h1 h2 h3
    unfold pubKeysTrees
    rw [view_found, view_found, view_value]
    rw [show usr e u ++ [pubKeys, seg t!"libnetconf2-netconf-server:use-system-keys"] = usr e u ++ R.sys.path from rfl,
      show usr e u ++ [pubKeys, seg t!"central-truststore-reference"] = usr e u ++ R.ts.path from rfl,
      show usr e u ++ inlinePath = usr e u ++ R.inl.path from rfl, h1, h2, h3, img, img, img]
    unfold dataOf
    cases hk : w.keys with
    | none => simp [hk]
    | some k =>
      cases k with
      | system => simp [hk, keysData, KeysData.trees]; rfl
      | bag b => simp [hk, keysData, KeysData.trees]; rfl
      | inline l =>
        simp only [hk, Option.bind_some, Option.isSome_none, Bool.false_eq_true, if_false, Option.join_none, Option.isSome_some, if_true, Option.map_some, keysData,
          KeysData.trees, ConfUsers.inlineTree, List.map_map]
        congr 2
        congr 2
        refine List.map_congr_left (fun k hkm => ?_)
        have hl := (hi.key hw hk k).mp hkm
        obtain ⟨d, hd⟩ := Option.isSome_iff_exists.mp hl
        have f1 := hi.at u (.fmt k)
        have f2 := hi.at u (.dat k)
        rw [hw] at f1 f2
        unfold keyTree
        rw [view_value, view_value, show usr e u ++ keyPath k ++ [seg t!"public-key-format"] = usr e u ++ (R.fmt k).path by rw [List.append_assoc]; rfl,
          show usr e u ++ keyPath k ++ [seg t!"public-key"] = usr e u ++ (R.dat k).path by rw [List.append_assoc]; rfl, f1, f2, img, img]
        have hf : fmtCode fmtText = 0 := if_pos rfl
        simp only [Option.bind_some, hk, hd, Option.map_some, Option.join_some, Option.getD_some, hf, Function.comp_apply]
        rfl
  unfold userTree ConfUsers.userData
  rw [hpk, view_found, view_value, hpw, hkb]
  show Tree.node _ _ _ _ = Tree.node _ _ _ _
  congr 2
  simp only [dataOf, Bool.false_eq_true, if_false, List.nil_append]
  congr 1
  cases w.password <;> rfl

/-! ## Their meaning -/

theorem patch_creates {ι ε α : Type} (mk : ι → Option α) (ch : α → ε → Option α) : ∀ (l : List (Nat × ι)) (m0 : Map α), (l.map Prod.fst).Nodup →
    (∀ q ∈ l, m0 q.1 = none ∧ (mk q.2).isSome) →
    ∃ m, patchAll mk ch m0 (l.map (fun q => Edit.create q.1 q.2)) = some m ∧ (∀ q ∈ l, m q.1 = mk q.2) ∧ ∀ k, (∀ q ∈ l, q.1 ≠ k) → m k = m0 k
  | [], m0, _, _ => ⟨m0, rfl, fun _ h => (by cases h), fun _ _ => rfl⟩
  | x :: l, m0, hd, h => by
    rw [List.map_cons, List.nodup_cons] at hd
    obtain ⟨h1, h2⟩ := h x (.head _)
    obtain ⟨y, hy⟩ := Option.isSome_iff_exists.mp h2
    have hp : patch mk ch m0 (Edit.create x.1 x.2) = some (upd m0 x.1 (some y)) := by
      simp only [patch, h1, hy, Option.map_some]
    have hne : ∀ q ∈ l, q.1 ≠ x.1 := fun q hq e => hd.1 (List.mem_map.mpr ⟨q, hq, e⟩)
    obtain ⟨m, g1, g2, g3⟩ := patch_creates mk ch l (upd m0 x.1 (some y)) hd.2 (fun q hq => ⟨by
      rw [upd, if_neg (hne q hq)]; exact (h q (.tail _ hq)).1, (h q (.tail _ hq)).2⟩)
    refine ⟨m, by rw [List.map_cons, patchAll, hp]; exact g1, ?_, ?_⟩
    · intro q hq
      rcases List.mem_cons.mp hq with rfl | hq
      · rw [g3 _ hne, upd, if_pos rfl, hy]
      · exact g2 q hq
    · intro k hk
      rw [g3 k (fun q hq => hk q (.tail _ hq)), upd, if_neg (fun e => hk x (.head _) e.symm)]

/-- The user wanted with numbers for texts: `T` is what they stand for. -/
def confOf (C : Text → Nat) (T : Nat → Text) (w : Want) : UserConf :=
  ⟨w.keys.map (fun
    | .inline m => KeysConf.inline (fun n => (m (T n)).map (fun d => (0, C d)))
    | .bag b => .bag (C b)
    | .system => .system), w.password.map C, false, w.kbdint⟩

theorem map_nodup {C : Text → Nat} {T : Nat → Text} (hT : ∀ t, T (C t) = t) {l : List Text} (h : l.Nodup) : (l.map C).Nodup := by
  rw [List.nodup_iff_pairwise_ne, List.pairwise_map]
  exact h.imp (fun {a b} h e => h (by rw [← hT a, e, hT b]))

theorem Inv.conf {e : Text} {t : List Node} {m : Text → Option Want} (hi : Inv e t m) {C : Text → Nat} {T : Nat → Text} (hT : ∀ t, T (C t) = t)
    (hC : ∀ n, C (T n) = n) (spki : Nat → Bool) {u : Text} {w : Want} (hw : m u = some w)
    (hs : ∀ l k d, w.keys = some (.inline l) → l k = some d → spki (C d) = false) : (dataOf C e u t w).conf spki = some (confOf C T w) := by
  unfold UserData.conf dataOf confOf
  cases hk : w.keys with
  | none => rfl
  | some k =>
    cases k with
    | bag b => rfl
    | system => rfl
    | inline l =>
      simp only [Option.map_some, keysData, KeysData.conf, List.map_map]
      obtain ⟨m', g1, g2, g3⟩ := patch_creates (ConfUsers.sshKeyOk spki)
        (fun p (c : ConfStore.PubChange) => ConfUsers.sshKeyOk spki (c.fmt.getD p.1, c.data.getD p.2))
        ((keys e u t).map (fun k => (C k, (0, C ((l k).getD []))))) (fun _ => none)
        (by rw [List.map_map]; exact map_nodup hT (keys_nodup hi.sound.nodup))
        (by
          intro q hq
          refine ⟨rfl, ?_⟩
          obtain ⟨k, hkm, rfl⟩ := List.mem_map.mp hq
          obtain ⟨d, hd⟩ := Option.isSome_iff_exists.mp ((hi.key hw hk k).mp hkm)
          simp [ConfUsers.sshKeyOk, hd, hs l k d hk hd, ConfStore.fmtOk])
      rw [List.map_map] at g1
      rw [ConfUsers.patchUserKeys, g1]
      simp only [Option.map_some, Option.some.injEq, UserConf.mk.injEq, KeysConf.inline.injEq, and_true]
      funext n
      cases hd : l (T n) with
      | none =>
        rw [g3 n]
        · rfl
        · rintro q hq rfl
          obtain ⟨k, hkm, rfl⟩ := List.mem_map.mp hq
          have := (hi.key hw hk k).mp hkm
          dsimp only at hd
          rw [hT] at hd
          rw [hd] at this
          cases this
      | some d =>
        have hkm : T n ∈ keys e u t := (hi.key hw hk _).mpr (by rw [hd]; rfl)
        have := g2 _ (List.mem_map.mpr ⟨T n, hkm, rfl⟩)
        dsimp only at this
        rw [hC, hd] at this
        rw [this]
        simp [ConfUsers.sshKeyOk, hs l _ d hk hd, ConfStore.fmtOk]

/-! ## Authentication -/

open Verif.Login (Vals SshSafe KeyIn UserConfIs)
open Verif.ConfStore (TsConf)
open Verif.ConfUsers (Ssh SshConf SshData HostConf hostData)
open Verif.SshAuth (Env AuthMsg Method)

theorem confOf_proves {v : Vals} {C : Text → Nat} (hT : ∀ t, v.text (C t) = t) (e : Env) (tc : TsConf) (w : Want) (m : AuthMsg) :
    Login.Proves v e tc (confOf C v.text w) m ↔ w.Proves v e tc C m := by
  unfold Login.Proves Want.Proves
  cases m.method with
  | none => simp [confOf]
  | password =>
    simp only [confOf]
    cases w.password <;> simp [hT]
  | publickey =>
    simp only [confOf]
    refine and_congr_left (fun _ => ?_)
    cases w.keys with
    | none => exact Iff.rfl
    | some k =>
      cases k with
      | inline l =>
        simp only [Option.map_some, Login.KeyConfigured, KeyOf, KeyIn]
        constructor
        · rintro ⟨n, f, d, h1, h2⟩
          obtain ⟨d', h3, h4⟩ := Option.map_eq_some_iff.mp h1
          cases h4
          exact ⟨_, d', h3, h2⟩
        · rintro ⟨k, d, h1, h2⟩
          exact ⟨C k, 0, C d, by rw [hT, h1]; rfl, h2⟩
      | bag b => exact Iff.rfl
      | system => exact Iff.rfl
  | interactive => exact Iff.rfl
  | other => exact Iff.rfl

theorem confOf_demands {C : Text → Nat} {T : Nat → Text} (hT : ∀ t, T (C t) = t) (w : Want) (meth : Method) :
    Login.Demands (confOf C T w) meth ↔ w.Demands meth := by
  cases meth with
  | none => simp [Login.Demands, Want.Demands, confOf]
  | password =>
    simp only [Login.Demands, Want.Demands, confOf]
    cases w.password <;> simp
  | publickey =>
    simp only [Login.Demands, Want.Demands, confOf]
    cases w.keys with
    | none => simp
    | some k =>
      cases k with
      | inline l =>
        simp only [Option.map_some, Option.some.injEq, exists_eq_left', KeysConf.inline.injEq, forall_eq', Keys.inline.injEq]
        constructor
        · rintro ⟨n, p, h⟩
          obtain ⟨d, h3, h4⟩ := Option.map_eq_some_iff.mp h
          exact ⟨_, d, h3⟩
        · rintro ⟨k, d, h⟩
          exact ⟨C k, _, by rw [hT, h]; rfl⟩
      | bag b => simp
      | system => simp
  | interactive => exact Iff.rfl
  | other => exact Iff.rfl

/-- Keys wanted were given in a call. -/
theorem wanted_keys : ∀ (cs : List Call) (u : Text) (w : Want) (l : Text → Option Text) (k d : Text), wanted cs u = some w →
    w.keys = some (.inline l) → l k = some d → ∃ u' k', Call.pubkey u' k' d ∈ cs := by
  intro cs
  rw [← List.reverse_reverse cs]
  induction cs.reverse with
  | nil => intro u w l k d h; cases h
  | cons c r ih =>
    rw [List.reverse_cons]
    revert ih
    generalize r.reverse = cs
    intro ih u w l k d h hk hd
    rw [wanted_snoc] at h
    have up : (∃ u' k', Call.pubkey u' k' d ∈ cs) → ∃ u' k', Call.pubkey u' k' d ∈ cs ++ [c] :=
      fun ⟨a, b, h⟩ => ⟨a, b, List.mem_append_left _ h⟩
    by_cases hu : c.user = u
    · rw [if_pos hu] at h
      cases c with
      | pubkey u' k' d' =>
        simp only [Call.apply, Option.some.injEq] at h
        subst h
        simp only [Option.some.injEq, Keys.inline.injEq] at hk
        subst hk
        dsimp only at hd
        split at hd
        · cases hd; exact ⟨u', k', by simp⟩
        · cases hw : wanted cs u with
          | none => simp [hw, Want.empty] at hd
          | some x =>
            rw [hw] at hd
            cases hx : x.keys with
            | none => simp [hx] at hd
            | some y =>
              cases y with
              | inline m => simp [hx] at hd; exact up (ih u x m k d hw hx hd)
              | bag b => simp [hx] at hd
              | system => simp [hx] at hd
      | authkey u' => simp only [Call.apply, Option.some.injEq] at h; subst h; cases hk
      | tsRef u' b => simp only [Call.apply, Option.some.injEq] at h; subst h; cases hk
      | password u' p =>
        simp only [Call.apply, Option.some.injEq] at h
        subst h
        cases hw : wanted cs u with
        | none => simp [hw, Want.empty] at hk
        | some x => simp [hw] at hk; exact up (ih u x l k d hw hk hd)
      | interactive u' =>
        simp only [Call.apply, Option.some.injEq] at h
        subst h
        cases hw : wanted cs u with
        | none => simp [hw, Want.empty] at hk
        | some x => simp [hw] at hk; exact up (ih u x l k d hw hk hd)
      | delPubkey u' k' =>
        obtain ⟨x, hw, rfl⟩ := Option.map_eq_some_iff.mp h
        cases hx : x.keys with
        | none => simp [hx] at hk
        | some y =>
          cases y with
          | inline m =>
            simp only [hx, Option.some.injEq, Keys.inline.injEq] at hk
            subst hk
            dsimp only at hd
            split at hd
            · cases hd
            · exact up (ih u x m k d hw hx hd)
          | bag b => simp [hx] at hk
          | system => simp [hx] at hk
      | delAuthkey u' =>
        obtain ⟨x, hw, rfl⟩ := Option.map_eq_some_iff.mp h
        cases hx : x.keys with
        | none => simp [hx] at hk
        | some y =>
          cases y with
          | inline m => simp [hx] at hk; subst hk; exact up (ih u x m k d hw hx hd)
          | bag b => simp [hx] at hk
          | system => simp [hx] at hk
      | delPassword u' =>
        obtain ⟨x, hw, rfl⟩ := Option.map_eq_some_iff.mp h
        exact up (ih u x l k d hw hk hd)
      | delInteractive u' =>
        obtain ⟨x, hw, rfl⟩ := Option.map_eq_some_iff.mp h
        exact up (ih u x l k d hw hk hd)
      | delUser u' => cases h
    · rw [if_neg hu] at h
      exact up (ih u w l k d h hk hd)

theorem setUp {v : Vals} {C : Text → Nat} (hT : ∀ t, v.text (C t) = t) (hC : ∀ n, C (v.text n) = n) {e : Text} {cs : List Call} {t : List Node}
    (hi : Inv e t (wanted cs)) (hk : SshKeys v C cs) (hosts : List (Nat × HostConf)) {hc : SshConf} (hh : (SshData.mk hosts []).conf v.spki = some hc) :
    ∃ s c, ConfUsers.run v.spki (sshTree C e (hosts.map (fun p => hostData p.1 p.2)) t) [] = .ok s ∧ SshSafe v s c ∧
      (∀ n, c.users n = (wanted cs (v.text n)).map (confOf C v.text)) ∧ c.hosts = hc.hosts := by
  have hkeys : ∀ u w, wanted cs u = some w → ∀ l k d, w.keys = some (.inline l) → l k = some d → v.spki (C d) = false := by
    intro u w hw l k d h1 h2
    obtain ⟨u', k', hm⟩ := wanted_keys cs u w l k d hw h1 h2
    exact hk _ _ _ hm
  let ud : Text → UserData := fun u => dataOf C e u t ((wanted cs u).getD .empty)
  let d : SshData := ⟨hosts, (users e t).map (fun u => (C u, ud u))⟩
  have hw : ∀ u ∈ users e t, ∃ w, wanted cs u = some w := fun u hu => Option.isSome_iff_exists.mp ((hi.user u).mp hu)
  have htree : d.tree = sshTree C e (hosts.map (fun p => hostData p.1 p.2)) t := by
    simp only [d, SshData.tree, sshTree, List.map_map]
    have : (users e t).map ((fun p => ConfUsers.userData p.1 p.2) ∘ fun u => (C u, ud u)) = (users e t).map (userTree C e t) := by
      refine List.map_congr_left (fun u hu => ?_)
      obtain ⟨w, hw⟩ := hw u hu
      simp only [Function.comp_apply, ud, hw, Option.getD_some]
      exact (hi.tree C hw).symm
    rw [this]
  obtain ⟨m, g1, g2, g3⟩ := patch_creates (UserData.conf v.spki) (UserConf.change v.spki) d.users (fun _ => none)
    (by simp only [d, List.map_map]; exact map_nodup hT (users_nodup hi.sound.nodup))
    (by
      intro q hq
      refine ⟨rfl, ?_⟩
      obtain ⟨u, hu, rfl⟩ := List.mem_map.mp hq
      obtain ⟨w, hw⟩ := hw u hu
      simp only [ud, hw, Option.getD_some]
      rw [hi.conf hT hC v.spki hw (hkeys u w hw)]
      rfl)
  have hconf : d.conf v.spki = some ⟨hc.hosts, m⟩ := by
    unfold SshData.conf ConfUsers.patchSsh at hh ⊢
    simp only [d, List.map_nil] at hh ⊢
    cases hp : ConfUsers.patchHosts v.spki (fun _ => none) (hosts.map (fun p => Edit.create p.1 p.2)) with
    | none => rw [hp] at hh; cases hh
    | some x =>
      rw [hp] at hh
      simp only [ConfUsers.patchUsers, patchAll, Option.some.injEq] at hh
      subst hh
      simp only [ConfUsers.patchUsers]
      rw [show patchAll (UserData.conf v.spki) (UserConf.change v.spki) (fun _ => none)
        (((users e t).map (fun u => (C u, ud u))).map (fun p => Edit.create p.1 p.2)) = some m from g1]
  obtain ⟨s, h1, -⟩ := Props.ssh_setup v.spki d _ hconf
  refine ⟨s, ⟨hc.hosts, m⟩, by rw [← htree]; exact h1, ⟨d, [], _, hconf, rfl, h1⟩, fun n => ?_, rfl⟩
  dsimp only
  cases hn : wanted cs (v.text n) with
  | none =>
    rw [g3 n]
    · rfl
    · rintro q hq rfl
      obtain ⟨u, hu, rfl⟩ := List.mem_map.mp hq
      obtain ⟨w, hw⟩ := hw u hu
      dsimp only at hn
      rw [hT, hw] at hn
      cases hn
  | some w =>
    have := g2 _ (List.mem_map.mpr ⟨v.text n, (hi.user _).mpr (by rw [hn]; rfl), rfl⟩)
    dsimp only at this
    rw [hC] at this
    rw [this]
    simp only [ud, hn, Option.getD_some]
    exact hi.conf hT hC v.spki hn (hkeys _ w hn)

/-! ## Calls that succeed -/

/-- libyang takes all names and values. -/
def Takes (S : Schema) : Prop := (∀ p v, S.valid p v = true) ∧ ∀ p, S.known p = true

theorem found_top {t : List Node} (hc : Closed t) {p : Path} (hp : ConfUtil.top <+: p) (h : found t p = true) : found t ConfUtil.top = true := by
  obtain ⟨x, hx, e⟩ := (found_iff _ _).mp h
  exact hc x hx _ (by simp [ConfUtil.top]) (e ▸ hp)

theorem usr_top (e u : Text) (s : Path) : ConfUtil.top <+: usr e u ++ s := ⟨(usr e u).tail ++ s, rfl⟩

theorem free_top {t : List Node} {e u : Text} {s : Path} (h : found t ConfUtil.top = true) : found (freeTree t (usr e u ++ s)) ConfUtil.top = true :=
  (found_freeTree _ _ _).mpr ⟨h, fun c => by
    have := c.length_le
    rw [List.length_append] at this
    exact absurd (show 9 + s.length ≤ 1 from this) (by omega)⟩

/-- The call has what it needs. -/
def Ready (vals : List (Option Text)) (cfg : Config) (p : Path) : Op → Prop
  | .create _ src => (srcVal vals src).isSome
  | .checkDelete _ => cfg.isSome
  | .delete _ => found (cfg.getD []) p = true

theorem step_some {S : Schema} (hS : Takes S) {names : List Text} {vals : List (Option Text)} {cfg : Config} {o : Op} {P : Place} {e u : Text} {s : Path}
    (hP : o.place = some P) (hg : Good names P) (hat : P.at names = usr e u ++ s) (hc : Closed (cfg.getD []))
    (ho : Ready vals cfg (P.at names) o) : ∃ t', step S names vals cfg o = (true, some t') := by
  have hp := op_parse hP hg
  cases o with
  | create f src =>
    obtain ⟨v, hv⟩ := Option.isSome_iff_exists.mp ho
    obtain ⟨t, hnp⟩ : ∃ t, newPath S (cfg.getD []) (P.at names) v = some t := by
      unfold newPath; rw [if_pos (hS.1 _ _)]; exact ⟨_, rfl⟩
    have hf : found t ConfUtil.top = true := (newPath_found hnp _).mpr (.inr ⟨by simp [ConfUtil.top], hat ▸ usr_top e u s⟩)
    refine ⟨t, ?_⟩
    rw [step_create, hv]
    unfold create
    rw [show parse (fill f names) = _ from hp]
    simp only [hnp, setTop_found hf]
  | checkDelete f =>
    cases cfg with
    | none => cases ho
    | some t =>
      have hp' : parse (fill f names) = some (P.at names) := hp
      simp only [step, checkDelete, hp', hS.2, Bool.not_true, Bool.false_eq_true, if_false]
      by_cases hf : found t (P.at names) = true
      · rw [if_pos hf]
        refine ⟨_, setTop_found ?_⟩
        rw [hat]
        exact free_top (found_top hc (hat ▸ usr_top e u s) hf)
      · rw [if_neg hf]; exact ⟨t, rfl⟩
  | delete f =>
    cases cfg with
    | none => cases ho
    | some t =>
      have hp' : parse (fill f names) = some (P.at names) := hp
      have hf : found t (P.at names) = true := ho
      simp only [step, delete, hp', hf, if_true]
      refine ⟨_, setTop_found ?_⟩
      rw [hat]
      exact free_top (found_top hc (hat ▸ usr_top e u s) hf)

/-- What the calls of a function that adds something look like. -/
def adds (vals : List (Option Text)) (x : Op × Place) : Bool :=
  match x.1 with
  | .create _ s => (srcVal vals s).isSome
  | .checkDelete _ => true
  | .delete _ => false

theorem run_some {S : Schema} (hS : Takes S) {n : Nat} {e u : Text} {r : List Text} {vals : List (Option Text)} (hn : (e :: u :: r).length = n)
    (hpl : ∀ t ∈ e :: u :: r, Plain t) : ∀ (l : List (Op × Place)) (cfg : Config), (∀ x ∈ l, fits n x = true) → l.all (adds vals) = true →
    Sound (cfg.getD []) → cfg.isSome → ∃ t', run S (e :: u :: r) vals (l.map Prod.fst) cfg = (true, some t')
  | [], cfg, _, _, _, hc => by
    obtain ⟨t, rfl⟩ := Option.isSome_iff_exists.mp hc
    exact ⟨t, rfl⟩
  | x :: l, cfg, hf, ha, hs, hc => by
    obtain ⟨s, hs'⟩ := fits_usr (e := e) (u := u) (r := r) (hf x (.head _))
    obtain ⟨g1, g2, g3, g4⟩ := fits_placed hn hpl hf x (.head _)
    rw [List.all_cons, Bool.and_eq_true] at ha
    have hax := ha.1
    obtain ⟨t1, h1⟩ : ∃ t1, step S (e :: u :: r) vals cfg x.1 = (true, some t1) := by
      refine step_some hS g1 g3 hs' hs.closed ?_
      unfold adds at hax
      cases hx : x.1 with
      | create f src => rw [hx] at hax; exact hax
      | checkDelete f => exact hc
      | delete f => rw [hx] at hax; cases hax
    obtain ⟨t', e', s', -⟩ := step_view g1 g2 g3 g4 hs h1
    cases e'
    obtain ⟨t2, h2⟩ := run_some hS hn hpl l (some t1) (fun y hy => hf y (.tail _ hy)) ha.2 s' rfl
    refine ⟨t2, ?_⟩
    rw [List.map_cons, run, h1]
    simp only [if_true]
    exact h2

theorem run_first {S : Schema} (hS : Takes S) {n : Nat} {e u : Text} {r : List Text} {vals : List (Option Text)} (hn : (e :: u :: r).length = n)
    (hpl : ∀ t ∈ e :: u :: r, Plain t) (x : Op × Place) (l : List (Op × Place)) (cfg : Config) (hf : ∀ y ∈ x :: l, fits n y = true)
    (ha : l.all (adds vals) = true) (hs : Sound (cfg.getD []))
    (ho : Ready vals cfg (x.2.at (e :: u :: r)) x.1) : ∃ t', run S (e :: u :: r) vals ((x :: l).map Prod.fst) cfg = (true, some t') := by
  obtain ⟨s, hs'⟩ := fits_usr (e := e) (u := u) (r := r) (hf x (.head _))
  obtain ⟨g1, g2, g3, g4⟩ := fits_placed hn hpl hf x (.head _)
  obtain ⟨t1, h1⟩ : ∃ t1, step S (e :: u :: r) vals cfg x.1 = (true, some t1) := step_some hS g1 g3 hs' hs.closed ho
  obtain ⟨t', e', s', -⟩ := step_view g1 g2 g3 g4 hs h1
  cases e'
  obtain ⟨t2, h2⟩ := run_some hS hn hpl l (some t1) (fun y hy => hf y (.tail _ hy)) ha s' rfl
  refine ⟨t2, ?_⟩
  rw [List.map_cons, run, h1]
  simp only [if_true]
  exact h2

/-- The node that a function deletes. -/
def Call.target : Call → Option R
  | .delPubkey _ k => some (.key k)
  | .delAuthkey _ => some .sys
  | .delPassword _ => some .pw
  | .delInteractive _ => some .kbd
  | .delUser _ => some .user
  | _ => none

theorem call_some {S : Schema} (hS : Takes S) {e : Text} {cfg : Config} {c : Call} (he : '\'' ∉ e) (hc : c.good) (hs : Sound (cfg.getD []))
    (ht : ∀ r, c.target = some r → found (cfg.getD []) (usr e c.user ++ r.path) = true) : ∃ t', c.run S e cfg = (true, some t') := by
  have hp : ∀ t ∈ e :: c.names, Plain t := by
    intro t ht
    rcases List.mem_cons.mp ht with rfl | ht
    · exact he
    · exact hc t ht
  have hf := ops_fit c
  rw [run_eq, ← (ops_zip c).1]
  cases c with
  | pubkey u k d => exact run_first hS rfl hp _ _ cfg hf rfl hs rfl
  | authkey u => exact run_first hS rfl hp _ _ cfg hf rfl hs rfl
  | tsRef u b => exact run_first hS rfl hp _ _ cfg hf rfl hs rfl
  | password u h => exact run_first hS rfl hp _ _ cfg hf rfl hs rfl
  | interactive u => exact run_first hS rfl hp _ _ cfg hf rfl hs rfl
  | delPubkey u k => exact run_first hS rfl hp _ _ cfg hf rfl hs (ht _ rfl)
  | delAuthkey u => exact run_first hS rfl hp _ _ cfg hf rfl hs (ht _ rfl)
  | delPassword u => exact run_first hS rfl hp _ _ cfg hf rfl hs (ht _ rfl)
  | delInteractive u => exact run_first hS rfl hp _ _ cfg hf rfl hs (ht _ rfl)
  | delUser u => exact run_first hS rfl hp _ _ cfg hf rfl hs (ht .user rfl)

theorem possible_img (c : Call) (w : Option Want) : c.possible w ↔ ∀ r, c.target = some r → (img w r).isSome := by
  cases c <;> simp only [Call.possible, Call.target, Option.some.injEq, reduceCtorEq, false_imp_iff, implies_true, forall_eq']
  · rcases w with _ | ⟨_ | _ | _ | _, pw, kb⟩ <;> simp [img]
    rename_i m
    cases m _ <;> simp
  · rcases w with _ | ⟨_ | _ | _ | _, pw, kb⟩ <;> simp [img]
  · rcases w with _ | ⟨kk, _ | pw, kb⟩ <;> simp [img]
  · rcases w with _ | ⟨kk, pw, _ | _⟩ <;> simp [img]
  · rcases w with _ | x <;> simp [img]

theorem call_found {S : Schema} {e : Text} {cfg cfg' : Config} {c : Call} (he : '\'' ∉ e) (hc : c.good) (h : c.run S e cfg = (true, cfg')) (r : R)
    (hr : c.target = some r) : found (cfg.getD []) (usr e c.user ++ r.path) = true := by
  have hp : ∀ t ∈ e :: c.names, Plain t := by
    intro t ht
    rcases List.mem_cons.mp ht with rfl | ht
    · exact he
    · exact hc t ht
  have hpl := fits_placed (by simp) hp (ops_fit c)
  have key : ∀ (f : Text) (P : Place) (l : List (Op × Place)), c.fn.ops.zip c.places = (.delete f, P) :: l → P.at (e :: c.names) = usr e c.user ++ r.path →
      found (cfg.getD []) (usr e c.user ++ r.path) = true := by
    intro f P l hz hat
    rw [run_eq, ← (ops_zip c).1, hz] at h
    rw [hz] at hpl
    obtain ⟨c1, h1, -⟩ := run_cons_ok h
    obtain ⟨g1, -, g3, -⟩ := hpl _ (.head _)
    rcases step_ok g1 g3 h1 with ⟨_, _, _, _, he, _⟩ | ⟨_, _, he, _⟩ | ⟨t, _, rfl, hf, _⟩ | ⟨_, _, he, _⟩
    · cases he
    · cases he
    · rw [← hat]; exact hf
    · cases he
  cases c <;> simp only [Call.target, Option.some.injEq, reduceCtorEq] at hr <;> subst hr <;> exact key _ _ _ rfl rfl

end Verif.ConfUserUse
