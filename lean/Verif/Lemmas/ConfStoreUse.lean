import Verif.Lemmas.ConfTlsUse
import Verif.Lemmas.ServerId
import Verif.Spec.ConfStoreUse

/-!
# Lemmas: from the functions for the keystore and the truststore to the stores of the server

As for SSH users (`Lemmas.ConfUserUse`), whose views of the data are used here.
-/

namespace Verif.ConfStoreUse
open Verif.ConfUtil
open Verif.ConfUse (seg ep valueAt leafOf)
open Verif.ConfUserUse (View view put cut view_found view_value edit Sound run_view Placed E E.apply filterMap_nodup patch_creates map_nodup)

/-! ## Edits -/

/-- The edit of a call. -/
def toE (names : List Text) (vals : List (Option Text)) : Op × Place → E
  | (.create _ s, P) => .put (P.at names) ((srcVal vals s).getD none)
  | (_, P) => .cut (P.at names)

theorem edits_eq {names : List Text} {vals : List (Option Text)} : ∀ (l : List (Op × Place)) (V : View),
    l.foldl (edit names vals) V = (l.map (toE names vals)).foldl E.apply V
  | [], _ => rfl
  | (o, P) :: l, V => by
    rw [List.foldl_cons, List.map_cons, List.foldl_cons, edits_eq l]
    cases o <;> rfl

/-- Edits elsewhere change nothing. -/
theorem edits_off {names : List Text} {vals : List (Option Text)} {q : Path} : ∀ (l : List (Op × Place)) (V : View),
    (∀ x ∈ l, x.2 ≠ [] ∧ (x.2.at names).head? ≠ q.head?) → q ≠ [] → l.foldl (edit names vals) V q = V q
  | [], _, _, _ => rfl
  | (o, P) :: l, V, h, hq => by
    rw [List.foldl_cons, edits_off l _ (fun x hx => h x (.tail _ hx)) hq]
    obtain ⟨h1, h2⟩ := h _ (.head _)
    dsimp only at h1 h2
    have hp : P.at names ≠ [] := ConfUtil.at_ne_nil h1 names
    have a1 : ¬ q <+: P.at names := by
      intro c
      obtain ⟨s, hs⟩ := c
      rw [← hs] at h2
      cases q with
      | nil => exact hq rfl
      | cons a q => exact h2 rfl
    have a2 : ¬ P.at names <+: q := by
      intro c
      obtain ⟨s, hs⟩ := c
      rw [← hs] at h2
      cases hc : P.at names with
      | nil => exact hp hc
      | cons a p => rw [hc] at h2; exact h2 rfl
    have a3 : q ≠ P.at names := fun c => a1 (c ▸ List.prefix_refl _)
    cases o <;> simp only [edit, put, cut, a1, a2, a3, if_false]

/-! ## The nodes that count -/

/-- Their names. -/
def sBags (g : Bool) : Seg := if g then seg t!"certificate-bags" else seg t!"public-key-bags"
def sBag (g : Bool) (b : Text) : Seg := ⟨if g then t!"certificate-bag" else t!"public-key-bag", [(t!"name", b)]⟩
def sEnt (g : Bool) (k : Text) : Seg := ⟨if g then t!"certificate" else t!"public-key", [(t!"name", k)]⟩
def sDat (g : Bool) : Seg := if g then seg t!"cert-data" else seg t!"public-key"
def sFmt : Seg := seg t!"public-key-format"
def sKeys : Seg := seg t!"asymmetric-keys"
def sKey (k : Text) : Seg := ⟨t!"asymmetric-key", [(t!"name", k)]⟩
def sCerts : Seg := seg t!"certificates"

/-- Leaves of a key. -/
inductive KL where
  | pfmt | pub | sfmt | priv
  deriving DecidableEq

def KL.seg : KL → Seg
  | .pfmt => sFmt
  | .pub => sDat false
  | .sfmt => ConfUse.seg t!"private-key-format"
  | .priv => ConfUse.seg t!"cleartext-private-key"

/-- The nodes. -/
inductive R where
  | bag (g : Bool) (b : Text)
  | ent (g : Bool) (b k : Text)
  | dat (g : Bool) (b k : Text)
  | fmt (b k : Text)
  | key (k : Text)
  | kl (k : Text) (a : KL)
  | kc (k c : Text)
  | kd (k c : Text)

/-- Their paths. -/
def R.path : R → Path
  | .bag g b => [tsSeg, sBags g, sBag g b]
  | .ent g b k => [tsSeg, sBags g, sBag g b, sEnt g k]
  | .dat g b k => [tsSeg, sBags g, sBag g b, sEnt g k, sDat g]
  | .fmt b k => [tsSeg, sBags false, sBag false b, sEnt false k, sFmt]
  | .key k => [ksSeg, sKeys, sKey k]
  | .kl k a => [ksSeg, sKeys, sKey k, a.seg]
  | .kc k c => [ksSeg, sKeys, sKey k, sCerts, sEnt true c]
  | .kd k c => [ksSeg, sKeys, sKey k, sCerts, sEnt true c, sDat true]

def sshFmt : Text := t!"ietf-crypto-types:ssh-public-key-format"

/-- The leaves of a pair. -/
def Pair.leaf (p : Pair) : KL → Text
  | .pfmt => p.pfmt
  | .pub => p.pub
  | .sfmt => p.sfmt
  | .priv => p.priv

/-- What is wanted at the nodes. -/
def img (s : Store) : R → Option (Option Text)
  | .bag g b => (s.bags g b).map (fun _ => none)
  | .ent g b k => (s.bags g b).bind (fun m => (m k).map (fun _ => none))
  | .dat g b k => (s.bags g b).bind (fun m => (m k).map some)
  | .fmt b k => (s.bags false b).bind (fun m => (m k).map (fun _ => some sshFmt))
  | .key k => (s.keys k).map (fun _ => none)
  | .kl k a => (s.keys k).bind (fun x => x.pair.map (fun p => some (p.leaf a)))
  | .kc k c => (s.keys k).bind (fun x => (x.certs c).map (fun _ => none))
  | .kd k c => (s.keys k).bind (fun x => (x.certs c).map some)

/-- The edits of each call. -/
def Call.edits : Call → List E
  | .key k pfmt pub sfmt priv => [.put (R.kl k .pfmt).path (some pfmt), .put (R.kl k .pub).path (some pub), .put (R.kl k .sfmt).path (some sfmt),
      .put (R.kl k .priv).path (some priv)]
  | .keyCert k c d => [.put (R.kd k c).path (some d)]
  | .entry true b k d => [.put (R.dat true b k).path (some d)]
  | .entry false b k d => [.put (R.fmt b k).path (some sshFmt), .put (R.dat false b k).path (some d)]
  | .delKey k => [.cut (R.key k).path]
  | .delKeyCert k c => [.cut (R.kc k c).path]
  | .delEntry g b k => [.cut (R.ent g b k).path]

def pKey : Place := [node t!"ietf-keystore:keystore", node t!"asymmetric-keys", inst t!"asymmetric-key" t!"name" 0]
def pKeyCert : Place := pKey ++ [node t!"certificates", inst t!"certificate" t!"name" 1]
def pEnt (g : Bool) : Place := [node t!"ietf-truststore:truststore", node (if g then t!"certificate-bags" else t!"public-key-bags"),
  inst (if g then t!"certificate-bag" else t!"public-key-bag") t!"name" 0, inst (if g then t!"certificate" else t!"public-key") t!"name" 1]

/-- The places. -/
def Call.places : Call → List Place
  | .key .. => [pKey ++ [node t!"public-key-format"], pKey ++ [node t!"public-key"], pKey ++ [node t!"private-key-format"], pKey ++ [node t!"cleartext-private-key"]]
  | .keyCert .. => [pKeyCert ++ [node t!"cert-data"]]
  | .entry true _ _ _ => [pEnt true ++ [node t!"cert-data"]]
  | .entry false _ _ _ => [pEnt false ++ [node t!"public-key-format"], pEnt false ++ [node t!"public-key"]]
  | .delKey _ => [pKey]
  | .delKeyCert .. => [pKeyCert]
  | .delEntry g _ _ => [pEnt g]

/-- The function called. -/
def Call.fn : Call → Fn
  | .key .. => add_keystore_asym_key
  | .keyCert .. => add_keystore_cert
  | .entry g _ _ _ => if g then add_truststore_cert else add_truststore_pubkey
  | .delKey _ => del_keystore_asym_key
  | .delKeyCert .. => del_keystore_cert
  | .delEntry g _ _ => if g then del_truststore_cert else del_truststore_pubkey

/-- The values. -/
def Call.vals : Call → List (Option Text)
  | .key _ pfmt pub sfmt priv => [some pfmt, some pub, some sfmt, some priv]
  | .keyCert _ _ d | .entry _ _ _ d => [some d]
  | _ => []

theorem run_eq (S : Schema) (cfg : Config) (c : Call) : c.run S cfg = run S c.names c.vals c.fn.ops cfg := by
  cases c with
  | entry g b k d => cases g <;> rfl
  | delEntry g b k => cases g <;> rfl
  | _ => rfl

/-- What has to hold of each call of a function. -/
def fits (n : Nat) (x : Op × Place) : Bool :=
  decide (x.1.place = some x.2) && decide (x.2.head? = some (node t!"ietf-keystore:keystore") ∨ x.2.head? = some (node t!"ietf-truststore:truststore")) &&
    decide (holes x.2 ≤ n) && (match x.1 with | .create _ s => !s.isOpt | _ => true)

theorem fits_ne {n : Nat} {x : Op × Place} (h : fits n x = true) : x.2 ≠ [] := by
  simp only [fits, Bool.and_eq_true, decide_eq_true_eq] at h
  intro he
  rw [he] at h
  simp at h

theorem fits_head {n : Nat} {x : Op × Place} (h : fits n x = true) (names : List Text) :
    (x.2.at names).head? = some ksSeg ∨ (x.2.at names).head? = some tsSeg := by
  simp only [fits, Bool.and_eq_true, decide_eq_true_eq] at h
  rw [Place.at, List.head?_map]
  rcases h.1.1.2 with h | h <;> rw [h]
  · exact .inl rfl
  · exact .inr rfl

theorem fits_placed {n : Nat} {names : List Text} (hn : names.length = n) (hp : ∀ t ∈ names, Plain t) {l : List (Op × Place)}
    (h : ∀ x ∈ l, fits n x = true) : Placed names l := by
  intro x hx
  have hf := h x hx
  have := hf
  simp only [fits, Bool.and_eq_true, decide_eq_true_eq] at this
  obtain ⟨⟨⟨h1, h2⟩, h3⟩, h4⟩ := this
  refine ⟨h1, fits_ne hf, ⟨hn ▸ h3, hp⟩, ?_⟩
  intro f s he
  rw [he] at h4
  simpa using h4

theorem ops_fit (c : Call) : ∀ x ∈ c.fn.ops.zip c.places, fits c.names.length x = true := by
  cases c with
  | entry g b k d => cases g <;> (simp only [Call.fn, Call.places, Call.names, List.length_cons, List.length_nil]; decide +kernel)
  | delEntry g b k => cases g <;> (simp only [Call.fn, Call.places, Call.names, List.length_cons, List.length_nil]; decide +kernel)
  | _ => simp only [Call.fn, Call.places, Call.names, List.length_cons, List.length_nil]; decide +kernel

theorem ops_zip (c : Call) : (c.fn.ops.zip c.places).map Prod.fst = c.fn.ops ∧ c.fn.ops.zip c.places ≠ [] := by
  cases c with
  | entry g b k d => cases g <;> exact ⟨rfl, List.cons_ne_nil _ _⟩
  | delEntry g b k => cases g <;> exact ⟨rfl, List.cons_ne_nil _ _⟩
  | _ => exact ⟨rfl, List.cons_ne_nil _ _⟩

theorem ops_edits (c : Call) : (c.fn.ops.zip c.places).map (toE c.names c.vals) = c.edits := by
  cases c with
  | entry g b k d => cases g <;> rfl
  | delEntry g b k => cases g <;> rfl
  | _ => rfl

theorem call_view {S : Schema} {cfg cfg' : Config} {c : Call} (hc : c.good) (hs : Sound (cfg.getD [])) (h : c.run S cfg = (true, cfg')) :
    ∃ t', cfg' = some t' ∧ Sound t' ∧ (∀ q, q ≠ [] → view t' q = c.edits.foldl E.apply (view (cfg.getD [])) q) ∧
      ∀ q, q ≠ [] → q.head? ≠ some ksSeg → q.head? ≠ some tsSeg → view t' q = view (cfg.getD []) q := by
  rw [run_eq, ← (ops_zip c).1] at h
  obtain ⟨t', h1, h2, h3⟩ := run_view _ (fits_placed rfl hc (ops_fit c)) (ops_zip c).2 hs h
  refine ⟨t', h1, h2, fun q hq => by rw [h3 q hq, edits_eq, ops_edits], fun q hq q1 q2 => ?_⟩
  rw [h3 q hq]
  refine edits_off _ _ (fun x hx => ⟨fits_ne (ops_fit c x hx), fun e => ?_⟩) hq
  rcases fits_head (ops_fit c x hx) c.names with e' | e' <;> rw [e'] at e
  · exact q1 e.symm
  · exact q2 e.symm

/-! ## The nodes after a call -/

theorem seg_ne : tsSeg ≠ ksSeg ∧ (∀ g, sDat g ≠ sFmt) ∧ (∀ a : KL, a.seg ≠ sCerts) := by
  refine ⟨by decide, by decide, ?_⟩
  intro a; cases a <;> decide

theorem sBags_inj (a b : Bool) : sBags a = sBags b ↔ a = b := by revert a b; decide
theorem sBag_inj (g g' : Bool) (a b : Text) : sBag g a = sBag g' b ↔ g = g' ∧ a = b := by
  cases g <;> cases g' <;> simp [sBag]
theorem sEnt_inj (g g' : Bool) (a b : Text) : sEnt g a = sEnt g' b ↔ g = g' ∧ a = b := by
  cases g <;> cases g' <;> simp [sEnt]
theorem sDat_inj (a b : Bool) : sDat a = sDat b ↔ a = b := by revert a b; decide
theorem sKey_inj (a b : Text) : sKey a = sKey b ↔ a = b := by simp [sKey]
theorem KL_inj (a b : KL) : a.seg = b.seg ↔ a = b := by cases a <;> cases b <;> decide

/-- Which nodes are above which. -/
def R.le : R → R → Prop
  | .bag g b, .bag g' b' | .bag g b, .ent g' b' _ | .bag g b, .dat g' b' _ => g = g' ∧ b = b'
  | .bag g b, .fmt b' _ => g = false ∧ b = b'
  | .ent g b k, .ent g' b' k' | .ent g b k, .dat g' b' k' | .dat g b k, .dat g' b' k' => g = g' ∧ b = b' ∧ k = k'
  | .ent g b k, .fmt b' k' => g = false ∧ b = b' ∧ k = k'
  | .fmt b k, .fmt b' k' => b = b' ∧ k = k'
  | .key k, .key k' | .key k, .kl k' _ | .key k, .kc k' _ | .key k, .kd k' _ => k = k'
  | .kl k a, .kl k' a' => k = k' ∧ a = a'
  | .kc k c, .kc k' c' | .kc k c, .kd k' c' | .kd k c, .kd k' c' => k = k' ∧ c = c'
  | _, _ => False

theorem R.prefix_iff (a b : R) : a.path <+: b.path ↔ a.le b := by
  obtain ⟨h1, h2, h3⟩ := seg_ne
  have h4 := fun g => (h2 g).symm
  have h5 := fun g => (h3 g).symm
  cases a <;> cases b <;>
    simp [R.path, R.le, List.cons_prefix_cons, h1, h2, h3, h4, h5, h1.symm, sBag_inj, sEnt_inj, sKey_inj, KL_inj, sBags_inj, sDat_inj] <;> grind

theorem R.path_inj {a b : R} : a.path = b.path ↔ a.le b ∧ b.le a := by
  rw [← R.prefix_iff, ← R.prefix_iff]
  constructor
  · intro h; rw [h]; exact ⟨List.prefix_refl _, List.prefix_refl _⟩
  · rintro ⟨h1, h2⟩
    exact h1.eq_of_length (Nat.le_antisymm h1.length_le h2.length_le)

/-- The nodes are as wanted. -/
def Is (W : View) (s : Store) : Prop := ∀ r : R, W r.path = img s r

theorem put_at (s : R) (v : Option Text) (W : View) (r : R) : put s.path v W r.path =
    open Classical in if r.le s ∧ s.le r then some (if v.isSome then v else (W r.path).join) else if r.le s then some (W r.path).join else W r.path := by
  classical
  unfold put
  simp only [R.path_inj, R.prefix_iff]

theorem cut_at (s : R) (W : View) (r : R) : cut s.path W r.path = open Classical in if s.le r then none else W r.path := by
  classical
  unfold cut
  simp only [R.prefix_iff]

set_option linter.unusedSimpArgs false in
theorem edits_img (c : Call) (s : Store) (W : View) (h : Is W s) : Is (c.edits.foldl E.apply W) (s.apply c) := by
  intro r
  have h' : ∀ r : R, W r.path = img s r := h
  cases c with
  | key k pfmt pub sfmt priv =>
    simp only [Call.edits, List.foldl_cons, List.foldl_nil, E.apply, cut_at, put_at, h']
    cases r with
    | key j =>
      by_cases hj : j = k
      · subst hj; rcases hs : s.keys j with _ | ⟨_ | _, certs⟩ <;> simp [R.le, img, Store.apply, Store.setKey, Store.setBag, set, hs]
      · simp [R.le, img, Store.apply, Store.setKey, Store.setBag, set, hj, Ne.symm hj]
    | kl j a =>
      by_cases hj : j = k
      · subst hj; rcases hs : s.keys j with _ | ⟨_ | _, certs⟩ <;> cases a <;> simp [R.le, img, Store.apply, Store.setKey, Store.setBag, set, hs, Pair.leaf]
      · simp [R.le, img, Store.apply, Store.setKey, Store.setBag, set, hj, Ne.symm hj]
    | kc j x =>
      by_cases hj : j = k
      · subst hj
        rcases hs : s.keys j with _ | ⟨_ | _, certs⟩ <;> simp [R.le, img, Store.apply, Store.setKey, Store.setBag, set, hs]
      · simp [R.le, img, Store.apply, Store.setKey, Store.setBag, set, hj, Ne.symm hj]
    | kd j x =>
      by_cases hj : j = k
      · subst hj
        rcases hs : s.keys j with _ | ⟨_ | _, certs⟩ <;> simp [R.le, img, Store.apply, Store.setKey, Store.setBag, set, hs]
      · simp [R.le, img, Store.apply, Store.setKey, Store.setBag, set, hj, Ne.symm hj]
    | _ => simp [R.le, img, Store.apply, Store.setKey, Store.setBag, set]
  | keyCert k c d =>
    simp only [Call.edits, List.foldl_cons, List.foldl_nil, E.apply, cut_at, put_at, h']
    cases r with
    | key j =>
      by_cases hj : j = k
      · subst hj; rcases hs : s.keys j with _ | ⟨_ | _, certs⟩ <;> simp [R.le, img, Store.apply, Store.setKey, Store.setBag, set, hs]
      · simp [R.le, img, Store.apply, Store.setKey, Store.setBag, set, hj, Ne.symm hj]
    | kl j a =>
      by_cases hj : j = k
      · subst hj; rcases hs : s.keys j with _ | ⟨_ | _, certs⟩ <;> cases a <;> simp [R.le, img, Store.apply, Store.setKey, Store.setBag, set, hs, Pair.leaf]
      · simp [R.le, img, Store.apply, Store.setKey, Store.setBag, set, hj, Ne.symm hj]
    | kc j x =>
      by_cases hj : j = k
      · subst hj
        by_cases hx : x = c
        · subst hx; rcases hs : s.keys j with _ | ⟨_ | _, certs⟩
          · simp [R.le, img, Store.apply, Store.setKey, Store.setBag, set, hs]
          all_goals cases hc : certs x <;> simp [R.le, img, Store.apply, Store.setKey, Store.setBag, set, hs, hc]
        · rcases hs : s.keys j with _ | ⟨_ | _, certs⟩ <;> simp [R.le, img, Store.apply, Store.setKey, Store.setBag, set, hs, hx, Ne.symm hx]
      · simp [R.le, img, Store.apply, Store.setKey, Store.setBag, set, hj, Ne.symm hj]
    | kd j x =>
      by_cases hj : j = k
      · subst hj
        by_cases hx : x = c
        · subst hx; rcases hs : s.keys j with _ | ⟨_ | _, certs⟩
          · simp [R.le, img, Store.apply, Store.setKey, Store.setBag, set, hs]
          all_goals cases hc : certs x <;> simp [R.le, img, Store.apply, Store.setKey, Store.setBag, set, hs, hc]
        · rcases hs : s.keys j with _ | ⟨_ | _, certs⟩ <;> simp [R.le, img, Store.apply, Store.setKey, Store.setBag, set, hs, hx, Ne.symm hx]
      · simp [R.le, img, Store.apply, Store.setKey, Store.setBag, set, hj, Ne.symm hj]
    | _ => simp [R.le, img, Store.apply, Store.setKey, Store.setBag, set]
  | entry g b k d =>
    cases g
    · simp only [Call.edits, List.foldl_cons, List.foldl_nil, E.apply, cut_at, put_at, h']
      cases r with
      | bag g' x =>
        by_cases hg : g' = false
        · subst hg
          by_cases hb : x = b
          · subst hb
            cases hs : s.bags false x <;> simp [R.le, img, Store.apply, Store.setKey, Store.setBag, set, hs]
          · simp [R.le, img, Store.apply, Store.setKey, Store.setBag, set, hb, Ne.symm hb]
        · simp [R.le, img, Store.apply, Store.setKey, Store.setBag, set, hg, Ne.symm hg]
      | ent g' x y =>
        by_cases hg : g' = false
        · subst hg
          by_cases hb : x = b
          · subst hb
            by_cases hy : y = k
            · subst hy
              cases hs : s.bags false x with
              | none => simp [R.le, img, Store.apply, Store.setKey, Store.setBag, set, hs]
              | some m => cases hm : m y <;> simp [R.le, img, Store.apply, Store.setKey, Store.setBag, set, hs, hm]
            · cases hs : s.bags false x <;> simp [R.le, img, Store.apply, Store.setKey, Store.setBag, set, hs, hy, Ne.symm hy]
          · simp [R.le, img, Store.apply, Store.setKey, Store.setBag, set, hb, Ne.symm hb]
        · simp [R.le, img, Store.apply, Store.setKey, Store.setBag, set, hg, Ne.symm hg]
      | dat g' x y =>
        by_cases hg : g' = false
        · subst hg
          by_cases hb : x = b
          · subst hb
            by_cases hy : y = k
            · subst hy
              cases hs : s.bags false x with
              | none => simp [R.le, img, Store.apply, Store.setKey, Store.setBag, set, hs]
              | some m => cases hm : m y <;> simp [R.le, img, Store.apply, Store.setKey, Store.setBag, set, hs, hm]
            · cases hs : s.bags false x <;> simp [R.le, img, Store.apply, Store.setKey, Store.setBag, set, hs, hy, Ne.symm hy]
          · simp [R.le, img, Store.apply, Store.setKey, Store.setBag, set, hb, Ne.symm hb]
        · simp [R.le, img, Store.apply, Store.setKey, Store.setBag, set, hg, Ne.symm hg]
      | fmt x y =>
        by_cases hb : x = b
        · subst hb
          by_cases hy : y = k
          · subst hy
            cases hs : s.bags false x with
            | none => simp [R.le, img, Store.apply, Store.setKey, Store.setBag, set, hs]
            | some m => cases hm : m y <;> simp [R.le, img, Store.apply, Store.setKey, Store.setBag, set, hs, hm]
          · cases hs : s.bags false x <;> simp [R.le, img, Store.apply, Store.setKey, Store.setBag, set, hs, hy, Ne.symm hy]
        · simp [R.le, img, Store.apply, Store.setKey, Store.setBag, set, hb, Ne.symm hb]
      | _ => simp [R.le, img, Store.apply, Store.setKey, Store.setBag, set]
    · simp only [Call.edits, List.foldl_cons, List.foldl_nil, E.apply, cut_at, put_at, h']
      cases r with
      | bag g' x =>
        by_cases hg : g' = true
        · subst hg
          by_cases hb : x = b
          · subst hb
            cases hs : s.bags true x <;> simp [R.le, img, Store.apply, Store.setKey, Store.setBag, set, hs]
          · simp [R.le, img, Store.apply, Store.setKey, Store.setBag, set, hb, Ne.symm hb]
        · simp [R.le, img, Store.apply, Store.setKey, Store.setBag, set, hg, Ne.symm hg]
      | ent g' x y =>
        by_cases hg : g' = true
        · subst hg
          by_cases hb : x = b
          · subst hb
            by_cases hy : y = k
            · subst hy
              cases hs : s.bags true x with
              | none => simp [R.le, img, Store.apply, Store.setKey, Store.setBag, set, hs]
              | some m => cases hm : m y <;> simp [R.le, img, Store.apply, Store.setKey, Store.setBag, set, hs, hm]
            · cases hs : s.bags true x <;> simp [R.le, img, Store.apply, Store.setKey, Store.setBag, set, hs, hy, Ne.symm hy]
          · simp [R.le, img, Store.apply, Store.setKey, Store.setBag, set, hb, Ne.symm hb]
        · simp [R.le, img, Store.apply, Store.setKey, Store.setBag, set, hg, Ne.symm hg]
      | dat g' x y =>
        by_cases hg : g' = true
        · subst hg
          by_cases hb : x = b
          · subst hb
            by_cases hy : y = k
            · subst hy
              cases hs : s.bags true x with
              | none => simp [R.le, img, Store.apply, Store.setKey, Store.setBag, set, hs]
              | some m => cases hm : m y <;> simp [R.le, img, Store.apply, Store.setKey, Store.setBag, set, hs, hm]
            · cases hs : s.bags true x <;> simp [R.le, img, Store.apply, Store.setKey, Store.setBag, set, hs, hy, Ne.symm hy]
          · simp [R.le, img, Store.apply, Store.setKey, Store.setBag, set, hb, Ne.symm hb]
        · simp [R.le, img, Store.apply, Store.setKey, Store.setBag, set, hg, Ne.symm hg]
      | fmt x y =>
        simp [R.le, img, Store.apply, Store.setKey, Store.setBag, set]
      | _ => simp [R.le, img, Store.apply, Store.setKey, Store.setBag, set]
  | delKey k =>
    simp only [Call.edits, List.foldl_cons, List.foldl_nil, E.apply, cut_at, put_at, h']
    cases r with
    | key j =>
      by_cases hj : j = k
      · subst hj; rcases hs : s.keys j with _ | ⟨_ | _, certs⟩ <;> simp [R.le, img, Store.apply, Store.setKey, Store.setBag, set, hs]
      · simp [R.le, img, Store.apply, Store.setKey, Store.setBag, set, hj, Ne.symm hj]
    | kl j a =>
      by_cases hj : j = k
      · subst hj; rcases hs : s.keys j with _ | ⟨_ | _, certs⟩ <;> cases a <;> simp [R.le, img, Store.apply, Store.setKey, Store.setBag, set, hs, Pair.leaf]
      · simp [R.le, img, Store.apply, Store.setKey, Store.setBag, set, hj, Ne.symm hj]
    | kc j x =>
      by_cases hj : j = k
      · subst hj
        rcases hs : s.keys j with _ | ⟨_ | _, certs⟩ <;> simp [R.le, img, Store.apply, Store.setKey, Store.setBag, set, hs]
      · simp [R.le, img, Store.apply, Store.setKey, Store.setBag, set, hj, Ne.symm hj]
    | kd j x =>
      by_cases hj : j = k
      · subst hj
        rcases hs : s.keys j with _ | ⟨_ | _, certs⟩ <;> simp [R.le, img, Store.apply, Store.setKey, Store.setBag, set, hs]
      · simp [R.le, img, Store.apply, Store.setKey, Store.setBag, set, hj, Ne.symm hj]
    | _ => simp [R.le, img, Store.apply, Store.setKey, Store.setBag, set]
  | delKeyCert k c =>
    simp only [Call.edits, List.foldl_cons, List.foldl_nil, E.apply, cut_at, put_at, h']
    cases r with
    | key j =>
      by_cases hj : j = k
      · subst hj; rcases hs : s.keys j with _ | ⟨_ | _, certs⟩ <;> simp [R.le, img, Store.apply, Store.setKey, Store.setBag, set, hs]
      · simp [R.le, img, Store.apply, Store.setKey, Store.setBag, set, hj, Ne.symm hj]
    | kl j a =>
      by_cases hj : j = k
      · subst hj; rcases hs : s.keys j with _ | ⟨_ | _, certs⟩ <;> cases a <;> simp [R.le, img, Store.apply, Store.setKey, Store.setBag, set, hs, Pair.leaf]
      · simp [R.le, img, Store.apply, Store.setKey, Store.setBag, set, hj, Ne.symm hj]
    | kc j x =>
      by_cases hj : j = k
      · subst hj
        by_cases hx : x = c
        · subst hx; rcases hs : s.keys j with _ | ⟨_ | _, certs⟩
          · simp [R.le, img, Store.apply, Store.setKey, Store.setBag, set, hs]
          all_goals cases hc : certs x <;> simp [R.le, img, Store.apply, Store.setKey, Store.setBag, set, hs, hc]
        · rcases hs : s.keys j with _ | ⟨_ | _, certs⟩ <;> simp [R.le, img, Store.apply, Store.setKey, Store.setBag, set, hs, hx, Ne.symm hx]
      · simp [R.le, img, Store.apply, Store.setKey, Store.setBag, set, hj, Ne.symm hj]
    | kd j x =>
      by_cases hj : j = k
      · subst hj
        by_cases hx : x = c
        · subst hx; rcases hs : s.keys j with _ | ⟨_ | _, certs⟩
          · simp [R.le, img, Store.apply, Store.setKey, Store.setBag, set, hs]
          all_goals cases hc : certs x <;> simp [R.le, img, Store.apply, Store.setKey, Store.setBag, set, hs, hc]
        · rcases hs : s.keys j with _ | ⟨_ | _, certs⟩ <;> simp [R.le, img, Store.apply, Store.setKey, Store.setBag, set, hs, hx, Ne.symm hx]
      · simp [R.le, img, Store.apply, Store.setKey, Store.setBag, set, hj, Ne.symm hj]
    | _ => simp [R.le, img, Store.apply, Store.setKey, Store.setBag, set]
  | delEntry g b k =>
    simp only [Call.edits, List.foldl_cons, List.foldl_nil, E.apply, cut_at, put_at, h']
    cases r with
    | bag g' x =>
      by_cases hg : g' = g
      · subst hg
        by_cases hb : x = b
        · subst hb
          cases hs : s.bags g' x <;> simp [R.le, img, Store.apply, Store.setKey, Store.setBag, set, hs]
        · simp [R.le, img, Store.apply, Store.setKey, Store.setBag, set, hb, Ne.symm hb]
      · simp [R.le, img, Store.apply, Store.setKey, Store.setBag, set, hg, Ne.symm hg]
    | ent g' x y =>
      by_cases hg : g' = g
      · subst hg
        by_cases hb : x = b
        · subst hb
          by_cases hy : y = k
          · subst hy
            cases hs : s.bags g' x with
            | none => simp [R.le, img, Store.apply, Store.setKey, Store.setBag, set, hs]
            | some m => cases hm : m y <;> simp [R.le, img, Store.apply, Store.setKey, Store.setBag, set, hs, hm]
          · cases hs : s.bags g' x <;> simp [R.le, img, Store.apply, Store.setKey, Store.setBag, set, hs, hy, Ne.symm hy]
        · simp [R.le, img, Store.apply, Store.setKey, Store.setBag, set, hb, Ne.symm hb]
      · simp [R.le, img, Store.apply, Store.setKey, Store.setBag, set, hg, Ne.symm hg]
    | dat g' x y =>
      by_cases hg : g' = g
      · subst hg
        by_cases hb : x = b
        · subst hb
          by_cases hy : y = k
          · subst hy
            cases hs : s.bags g' x with
            | none => simp [R.le, img, Store.apply, Store.setKey, Store.setBag, set, hs]
            | some m => cases hm : m y <;> simp [R.le, img, Store.apply, Store.setKey, Store.setBag, set, hs, hm]
          · cases hs : s.bags g' x <;> simp [R.le, img, Store.apply, Store.setKey, Store.setBag, set, hs, hy, Ne.symm hy]
        · simp [R.le, img, Store.apply, Store.setKey, Store.setBag, set, hb, Ne.symm hb]
      · simp [R.le, img, Store.apply, Store.setKey, Store.setBag, set, hg, Ne.symm hg]
    | fmt x y =>
      by_cases hg : g = false
      · subst hg
        by_cases hb : x = b
        · subst hb
          by_cases hy : y = k
          · subst hy
            cases hs : s.bags false x with
            | none => simp [R.le, img, Store.apply, Store.setKey, Store.setBag, set, hs]
            | some m => cases hm : m y <;> simp [R.le, img, Store.apply, Store.setKey, Store.setBag, set, hs, hm]
          · cases hs : s.bags false x <;> simp [R.le, img, Store.apply, Store.setKey, Store.setBag, set, hs, hy, Ne.symm hy]
        · simp [R.le, img, Store.apply, Store.setKey, Store.setBag, set, hb, Ne.symm hb]
      · simp [R.le, img, Store.apply, Store.setKey, Store.setBag, set, hg, Ne.symm hg]
    | _ => simp [R.le, img, Store.apply, Store.setKey, Store.setBag, set]

/-! ## All calls -/

theorem wanted_snoc (cs : List Call) (c : Call) : wanted (cs ++ [c]) = (wanted cs).apply c := by
  simp only [wanted, List.foldl_append, List.foldl_cons, List.foldl_nil]

/-- The data hold the stores wanted. -/
structure Inv (t : List Node) (s : Store) : Prop where
  sound : Sound t
  is : Is (view t) s

theorem inv_nil : Inv [] (wanted []) := ⟨⟨List.nodup_nil, fun _ hx => (by cases hx)⟩, fun r => by cases r <;> rfl⟩

theorem R.path_ne (r : R) : r.path ≠ [] := by cases r <;> exact List.cons_ne_nil _ _

theorem R.path_head (r : R) : r.path.head? = some ksSeg ∨ r.path.head? = some tsSeg := by
  cases r <;> first | exact .inl rfl | exact .inr rfl

theorem inv_call {S : Schema} {cfg cfg' : Config} {c : Call} {s : Store} (hc : c.good) (hi : Inv (cfg.getD []) s) (h : c.run S cfg = (true, cfg')) :
    ∃ t', cfg' = some t' ∧ Inv t' (s.apply c) ∧
      ∀ q, q ≠ [] → q.head? ≠ some ksSeg → q.head? ≠ some tsSeg → view t' q = view (cfg.getD []) q := by
  obtain ⟨t', rfl, hs, hv, ho⟩ := call_view hc hi.sound h
  refine ⟨t', rfl, ⟨hs, fun r => ?_⟩, ho⟩
  rw [hv _ r.path_ne]
  exact edits_img c s _ hi.is r

/-- The other functions leave the stores alone. -/
def Off {α : Type} (run : Config → α → Bool × Config) (good : α → Prop) : Prop :=
  ∀ cfg cfg' a, good a → Sound (cfg.getD []) → run cfg a = (true, cfg') →
    ∃ t', cfg' = some t' ∧ Sound t' ∧ ∀ q, q ≠ [] → q.head? = some ksSeg ∨ q.head? = some tsSeg → view t' q = view (cfg.getD []) q

/-- Something that the other functions keep up and that is not about the stores. -/
structure Kept {α : Type} (run : Config → α → Bool × Config) (good : α → Prop) (J : List Node → List α → Prop) : Prop where
  step : ∀ cfg cfg' a pre, good a → J (cfg.getD []) pre → run cfg a = (true, cfg') → ∃ t', cfg' = some t' ∧ J t' (pre ++ [a])
  keep : ∀ t t' pre, Sound t' → (∀ q, q ≠ [] → q.head? ≠ some ksSeg → q.head? ≠ some tsSeg → view t' q = view t q) → J t pre → J t' pre

theorem inv_build {α : Type} {run : Config → α → Bool × Config} {good : α → Prop} {J : List Node → List α → Prop} (hoff : Off run good) (hJ : Kept run good J)
    (S : Schema) : ∀ (post : List (Call ⊕ α)) (preS : List Call) (preO : List α) (cfg cfg' : Config), (∀ c ∈ stores post, c.good) → (∀ c ∈ others post, good c) →
    Inv (cfg.getD []) (wanted preS) → J (cfg.getD []) preO → build run S post cfg = (true, cfg') →
    Inv (cfg'.getD []) (wanted (preS ++ stores post)) ∧ J (cfg'.getD []) (preO ++ others post)
  | [], preS, preO, cfg, cfg', _, _, hi, hj, h => by
    simp only [build, Prod.mk.injEq, true_and] at h
    subst h
    simp only [stores, others, List.filterMap_nil, List.append_nil]
    exact ⟨hi, hj⟩
  | .inl c :: post, preS, preO, cfg, cfg', hg, hg', hi, hj, h => by
    rw [build] at h
    cases hr : c.run S cfg with
    | mk b c1 =>
      rw [hr] at h
      cases b with
      | false => simp at h
      | true =>
        obtain ⟨t', rfl, hi', ho⟩ := inv_call (hg c (.head _)) hi hr
        rw [← wanted_snoc] at hi'
        have := inv_build hoff hJ S post (preS ++ [c]) preO (some t') cfg' (fun x hx => hg x (.tail _ hx)) hg' hi' (hJ.keep _ _ _ hi'.sound ho hj) h
        rwa [List.append_assoc] at this
  | .inr c :: post, preS, preO, cfg, cfg', hg, hg', hi, hj, h => by
    rw [build] at h
    cases hr : run cfg c with
    | mk b c1 =>
      rw [hr] at h
      cases b with
      | false => simp at h
      | true =>
        obtain ⟨t', rfl, hs, ho⟩ := hoff _ _ _ (hg' c (.head _)) hi.sound hr
        obtain ⟨t'', e, hj'⟩ := hJ.step _ _ _ _ (hg' c (.head _)) hj hr
        cases e
        have := inv_build hoff hJ S post preS (preO ++ [c]) (some t') cfg' hg (fun x hx => hg' x (.tail _ hx))
          ⟨hs, fun r => (ho _ r.path_ne r.path_head).trans (hi.is r)⟩ hj' h
        rwa [List.append_assoc] at this

/-! ## Functions for endpoints -/

theorem ep_head (e : Text) (y : Path) : (ep e ++ y).head? = some (seg t!"ietf-netconf-server:netconf-server") := rfl

theorem net_ne : seg t!"ietf-netconf-server:netconf-server" ≠ ksSeg ∧ seg t!"ietf-netconf-server:netconf-server" ≠ tsSeg := by decide

theorem off_ep {names : List Text} {vals : List (Option Text)} {l : List (Op × Place)} (hl : ∀ x ∈ l, x.2 ≠ [] ∧ ∃ e s, x.2.at names = ep e ++ s) (V : View)
    {q : Path} (hq : q ≠ []) (hh : q.head? = some ksSeg ∨ q.head? = some tsSeg) : l.foldl (edit names vals) V q = V q := by
  refine edits_off _ _ (fun x hx => ⟨(hl x hx).1, fun e => ?_⟩) hq
  obtain ⟨-, a, b, h⟩ := hl x hx
  rw [h, ep_head] at e
  rcases hh with hh | hh <;> rw [hh] at e
  · exact net_ne.1 (Option.some.inj e)
  · exact net_ne.2 (Option.some.inj e)

theorem tls_off (S : Schema) : Off (fun cfg c => ConfTlsUse.Call.run S cfg c) ConfTlsUse.Call.good := by
  intro cfg cfg' c hc hs h
  dsimp only at h
  rw [ConfTlsUse.run_eq] at h
  split at h
  · cases h
  · rw [← (ConfTlsUse.ops_zip c.act).1] at h
    have hp := ConfTlsUse.fits_placed (by simp) (ConfTlsUse.names_plain c hc) (ConfTlsUse.ops_fit c.act)
    obtain ⟨t', h1, h2, h3⟩ := run_view _ hp (ConfTlsUse.ops_zip c.act).2 hs h
    refine ⟨t', h1, h2, fun q hq hh => ?_⟩
    rw [h3 q hq]
    exact off_ep (fun x hx => ⟨(hp x hx).2.1, c.endpt, ConfTlsUse.fits_ep (ConfTlsUse.ops_fit c.act x hx)⟩) _ hq hh

theorem user_off (S : Schema) (e : Text) (he : '\'' ∉ e) : Off (fun cfg c => ConfUserUse.Call.run S e cfg c) ConfUserUse.Call.good := by
  intro cfg cfg' c hc hs h
  dsimp only at h
  rw [ConfUserUse.run_eq, ← (ConfUserUse.ops_zip c).1] at h
  have hn : ∀ t ∈ e :: c.names, Plain t := by
    intro t ht
    rcases List.mem_cons.mp ht with rfl | ht
    · exact he
    · exact hc t ht
  have hp := ConfUserUse.fits_placed (by simp) hn (ConfUserUse.ops_fit c)
  obtain ⟨t', h1, h2, h3⟩ := run_view _ hp (ConfUserUse.ops_zip c).2 hs h
  refine ⟨t', h1, h2, fun q hq hh => ?_⟩
  rw [h3 q hq]
  obtain ⟨r, hr⟩ := ConfUserUse.names_user c
  refine off_ep (fun x hx => ⟨(hp x hx).2.1, e, ?_⟩) _ hq hh
  rw [hr]
  obtain ⟨s, hs⟩ := ConfUserUse.fits_usr (e := e) (u := c.user) (r := r) (ConfUserUse.ops_fit c x hx)
  exact ⟨_, hs.trans (by rw [ConfUserUse.usr, ConfUserUse.usersPath, List.append_assoc, List.append_assoc])⟩

theorem tls_kept (S : Schema) : Kept (fun cfg c => ConfTlsUse.Call.run S cfg c) ConfTlsUse.Call.good (fun t pre => ConfTlsUse.Inv t (ConfTlsUse.wanted pre)) := by
  refine ⟨fun cfg cfg' a pre hg hi h => ConfTlsUse.inv_call hg hi h, fun t t' pre hs hv hi => ⟨hs, fun e r => ?_, hi.types⟩⟩
  have hh : (ep e ++ r.path).head? = some (seg t!"ietf-netconf-server:netconf-server") := ep_head e _
  dsimp only
  rw [hv _ (by simp [ep]) (by rw [hh]; exact fun c => net_ne.1 (Option.some.inj c)) (by rw [hh]; exact fun c => net_ne.2 (Option.some.inj c))]
  exact hi.is e r

theorem user_kept (S : Schema) (e : Text) (he : '\'' ∉ e) :
    Kept (fun cfg c => ConfUserUse.Call.run S e cfg c) ConfUserUse.Call.good (fun t pre => ConfUserUse.Inv e t (ConfUserUse.wanted pre)) := by
  refine ⟨fun cfg cfg' a pre hg hi h => ConfUserUse.inv_call he hg hi h, fun t t' pre hs hv hi => ⟨hs, fun u r => ?_⟩⟩
  have hh : (ConfUserUse.usr e u ++ r.path).head? = some (seg t!"ietf-netconf-server:netconf-server") := rfl
  dsimp only
  rw [hv _ (ConfUserUse.usr_ne _ _ _) (by rw [hh]; exact fun c => net_ne.1 (Option.some.inj c)) (by rw [hh]; exact fun c => net_ne.2 (Option.some.inj c))]
  exact hi.is u r

/-! ## Reading the data -/

open Verif.ConfStore (Tree Label Map Edit patchAll TsData TsConf KeyConf KeyData Ts Ks)

theorem bagName_some {g : Bool} {p : Path} {n : Text} : bagName g p = some n ↔ p = (R.bag g n).path := by
  constructor
  · intro h
    unfold bagName at h
    split at h
    · split at h
      · next hp => rw [Option.some.injEq] at h; subst h; exact hp
      · cases h
    · cases h
  · rintro rfl
    unfold bagName
    show (if (R.bag g n).path = (R.bag g n).path then some n else none) = some n
    rw [if_pos rfl]

theorem entryName_some {g : Bool} {b : Text} {p : Path} {n : Text} : entryName g b p = some n ↔ p = (R.ent g b n).path := by
  constructor
  · intro h
    unfold entryName at h
    split at h
    · split at h
      · next hp => rw [Option.some.injEq] at h; subst h; exact hp
      · cases h
    · cases h
  · rintro rfl
    unfold entryName
    show (if (R.ent g b n).path = (R.ent g b n).path then some n else none) = some n
    rw [if_pos rfl]

theorem keyName_some {p : Path} {n : Text} : keyName p = some n ↔ p = (R.key n).path := by
  constructor
  · intro h
    unfold keyName at h
    split at h
    · split at h
      · next hp => rw [Option.some.injEq] at h; subst h; exact hp
      · cases h
    · cases h
  · rintro rfl
    unfold keyName
    show (if (R.key n).path = (R.key n).path then some n else none) = some n
    rw [if_pos rfl]

theorem keyCertName_some {k : Text} {p : Path} {n : Text} : keyCertName k p = some n ↔ p = (R.kc k n).path := by
  constructor
  · intro h
    unfold keyCertName at h
    split at h
    · split at h
      · next hp => rw [Option.some.injEq] at h; subst h; exact hp
      · cases h
    · cases h
  · rintro rfl
    unfold keyCertName
    show (if (R.kc k n).path = (R.kc k n).path then some n else none) = some n
    rw [if_pos rfl]

theorem Inv.mem {t : List Node} {s : Store} (hi : Inv t s) {f : Path → Option Text} {g : Text → R} (hf : ∀ p n, f p = some n ↔ p = (g n).path) (n : Text) :
    n ∈ t.filterMap (fun x => f x.path) ↔ (img s (g n)).isSome := by
  rw [List.mem_filterMap]
  simp only [hf]
  rw [← found_iff, view_found, hi.is]

theorem leaf_at {t : List Node} {s : Store} (hi : Inv t s) (r : R) (l : Label) (f : Text → Nat) {v : Text} (h : (img s r).join = some v) :
    ConfTlsUse.leafAt t l f r.path = [leafOf l (f v)] := by
  rw [ConfTlsUse.leafAt, view_value, hi.is, h]
  rfl

/-- Lists of entries in data mean the map wanted. -/
theorem creates_map {ι ε α : Type} {C : Text → Nat} {T : Nat → Text} (hT : ∀ t, T (C t) = t) (hC : ∀ n, C (T n) = n) (mk : ι → Option α)
    (ch : α → ε → Option α) (l : List Text) (hl : l.Nodup) (f : Text → ι) (g : Text → Option α) (hm : ∀ n, n ∈ l ↔ (g n).isSome)
    (hg : ∀ n ∈ l, mk (f n) = g n) : patchAll mk ch (fun _ => none) (l.map (fun n => Edit.create (C n) (f n))) = some (fun n => g (T n)) := by
  obtain ⟨m', g1, g2, g3⟩ := patch_creates mk ch (l.map (fun n => (C n, f n))) (fun _ => none) (by rw [List.map_map]; exact map_nodup hT hl)
    (fun q hq => by
      obtain ⟨n, hn, rfl⟩ := List.mem_map.mp hq
      exact ⟨rfl, by dsimp only; rw [hg n hn]; exact (hm n).mp hn⟩)
  rw [List.map_map] at g1
  have e : ((fun q : Nat × ι => Edit.create q.1 q.2) ∘ fun n => (C n, f n)) = fun n => (Edit.create (C n) (f n) : Edit ι ε) := rfl
  rw [e] at g1
  rw [g1, Option.some.injEq]
  funext n
  by_cases hn : T n ∈ l
  · have := g2 _ (List.mem_map.mpr ⟨T n, hn, rfl⟩)
    dsimp only at this
    rw [hC, hg _ hn] at this
    exact this
  · rw [g3 n]
    · cases hx : g (T n) with
      | none => rfl
      | some x => exact absurd ((hm _).mpr (by rw [hx]; rfl)) hn
    · rintro q hq rfl
      obtain ⟨k, hk, rfl⟩ := List.mem_map.mp hq
      dsimp only at hn
      rw [hT] at hn
      exact hn hk

/-! ### Truststore -/

theorem Inv.bag {t : List Node} {s : Store} (hi : Inv t s) (g : Bool) (b : Text) : b ∈ bags g t ↔ (s.bags g b).isSome := by
  rw [bags, hi.mem (g := R.bag g) (fun _ _ => bagName_some), img, Option.isSome_map]

theorem Inv.entry {t : List Node} {s : Store} (hi : Inv t s) {g : Bool} {b : Text} {m : Text → Option Text} (hb : s.bags g b = some m) (k : Text) :
    k ∈ entries g b t ↔ (m k).isSome := by
  rw [entries, hi.mem (g := R.ent g b) (fun _ _ => entryName_some), img, hb, Option.bind_some, Option.isSome_map]

theorem bags_nodup {g : Bool} {t : List Node} (h : (t.map Node.path).Nodup) : (bags g t).Nodup := filterMap_nodup (fun _ _ => bagName_some) h
theorem entries_nodup {g : Bool} {b : Text} {t : List Node} (h : (t.map Node.path).Nodup) : (entries g b t).Nodup := filterMap_nodup (fun _ _ => entryName_some) h

/-- What is in the truststore under these names. -/
def Store.entry (s : Store) (g : Bool) (b k : Text) : Text := ((s.bags g b).bind (fun m => m k)).getD []

/-- The truststore as data. -/
def tsData (C : Text → Nat) (t : List Node) (s : Store) : TsData :=
  ⟨(bags true t).map (fun b => (C b, (entries true b t).map (fun k => (C k, C (s.entry true b k))))),
    (bags false t).map (fun b => (C b, (entries false b t).map (fun k => (C k, (0, C (s.entry false b k))))))⟩

theorem Inv.tsTree {t : List Node} {s : Store} (hi : Inv t s) (C : Text → Nat) : tsTreeOf C t = if found t [tsSeg] then some (tsData C t s).tree else none := by
  unfold tsTreeOf
  congr 2
  have hm : ∀ g b, b ∈ bags g t → ∃ m, s.bags g b = some m := fun g b hb => Option.isSome_iff_exists.mp ((hi.bag g b).mp hb)
  have h1 : (bags true t).map (certBagOf C t) =
      (tsData C t s).certBags.map (fun b => ConfStore.certBagData b.1 b.2) := by
    simp only [tsData, List.map_map]
    refine List.map_congr_left (fun b hb => ?_)
    obtain ⟨m, hm⟩ := hm _ _ hb
    simp only [Function.comp_apply, certBagOf, ConfStore.certBagData, List.map_map]
    congr 2
    refine List.map_congr_left (fun k hk => ?_)
    obtain ⟨d, hd⟩ := Option.isSome_iff_exists.mp ((hi.entry hm k).mp hk)
    simp only [Function.comp_apply, certTreeOf, Store.entry, hm, hd, Option.bind_some, Option.getD_some]
    rw [show entryPath true b k ++ [seg t!"cert-data"] = (R.dat true b k).path from rfl, leaf_at hi (.dat true b k) _ _ (v := d) (by simp [img, hm, hd])]
    rfl
  have h2 : (bags false t).map (pubBagOf C t) =
      (tsData C t s).pubBags.map (fun b => ConfStore.pubBagData b.1 b.2) := by
    simp only [tsData, List.map_map]
    refine List.map_congr_left (fun b hb => ?_)
    obtain ⟨m, hm⟩ := hm _ _ hb
    simp only [Function.comp_apply, pubBagOf, ConfStore.pubBagData, List.map_map]
    congr 2
    refine List.map_congr_left (fun k hk => ?_)
    obtain ⟨d, hd⟩ := Option.isSome_iff_exists.mp ((hi.entry hm k).mp hk)
    simp only [Function.comp_apply, pubTreeOf, Store.entry, hm, hd, Option.bind_some, Option.getD_some]
    rw [show entryPath false b k ++ [seg t!"public-key-format"] = (R.fmt b k).path from rfl,
      show entryPath false b k ++ [seg t!"public-key"] = (R.dat false b k).path from rfl,
      leaf_at hi (.fmt b k) _ _ (v := sshFmt) (by simp [img, hm, hd]), leaf_at hi (.dat false b k) _ _ (v := d) (by simp [img, hm, hd])]
    have : ConfUserUse.fmtCode sshFmt = 0 := by decide +kernel
    rw [this]
    rfl
  rw [h1, h2]
  rfl

theorem Inv.tsConf {t : List Node} {s : Store} (hi : Inv t s) {C : Text → Nat} {T : Nat → Text} (hT : ∀ t, T (C t) = t) (hC : ∀ n, C (T n) = n) :
    (tsData C t s).conf = some (s.ts C T) := by
  have hm : ∀ g b, b ∈ bags g t → ∃ m, s.bags g b = some m := fun g b hb => Option.isSome_iff_exists.mp ((hi.bag g b).mp hb)
  unfold TsData.conf
  simp only [ConfStore.patchTs, tsData, List.map_map]
  have h1 := creates_map (ε := List ConfStore.CertEdit) hT hC ConfStore.certMap ConfStore.patchCerts (bags true t) (bags_nodup hi.sound.nodup)
    (fun b => (entries true b t).map (fun k => (C k, C (s.entry true b k)))) (fun b => (s.bags true b).map (fun m k => (m (T k)).map C))
    (fun b => by rw [hi.bag, Option.isSome_map]) (fun b hb => by
      obtain ⟨m, hm⟩ := hm _ _ hb
      rw [ConfStore.certMap, List.map_map, hm, Option.map_some]
      exact creates_map hT hC some _ _ (entries_nodup hi.sound.nodup) (fun k => C (s.entry true b k)) (fun k => (m k).map C)
        (fun k => by rw [hi.entry hm, Option.isSome_map]) (fun k hk => by
          obtain ⟨d, hd⟩ := Option.isSome_iff_exists.mp ((hi.entry hm k).mp hk)
          simp [Store.entry, hm, hd]))
  have h2 := creates_map (ε := List ConfStore.PubEdit) hT hC ConfStore.pubMap ConfStore.patchPubs (bags false t) (bags_nodup hi.sound.nodup)
    (fun b => (entries false b t).map (fun k => (C k, (0, C (s.entry false b k))))) (fun b => (s.bags false b).map (fun m k => (m (T k)).map (fun d => (0, C d))))
    (fun b => by rw [hi.bag, Option.isSome_map]) (fun b hb => by
      obtain ⟨m, hm⟩ := hm _ _ hb
      rw [ConfStore.pubMap, List.map_map, hm, Option.map_some]
      exact creates_map hT hC _ _ _ (entries_nodup hi.sound.nodup) (fun k => (0, C (s.entry false b k))) (fun k => (m k).map (fun d => (0, C d)))
        (fun k => by rw [hi.entry hm, Option.isSome_map]) (fun k hk => by
          obtain ⟨d, hd⟩ := Option.isSome_iff_exists.mp ((hi.entry hm k).mp hk)
          simp [Store.entry, hm, hd, ConfStore.fmtOk]))
  rw [ConfStore.patchCertBags, ConfStore.patchPubBags]
  simp only [Function.comp_def, TsConf.empty]
  rw [h1, h2]
  rfl

theorem Inv.tsSetUp {t : List Node} {s : Store} (hi : Inv t s) {C : Text → Nat} {T : Nat → Text} (hT : ∀ t, T (C t) = t) (hC : ∀ n, C (T n) = n) (s0 : Ts) :
    ∃ ts, ConfStore.setupTs (tsTreeOf C t) s0 = .ok ts ∧ Login.TsSetUp ts (s.ts C T) := by
  have hd := hi.tsConf hT hC
  obtain ⟨s', h1, -⟩ : ∃ s', ConfStore.setupTs (some (tsData C t s).tree) s0 = .ok s' ∧ ConfStore.HoldsTs s' _ := ConfStore.ts_data_ok _ _ hd
  refine ⟨s', ?_, s0, s', tsData C t s, [], _, hd, rfl, h1, rfl⟩
  rw [hi.tsTree C]
  by_cases hf : found t [tsSeg] = true
  · rw [if_pos hf]; exact h1
  · rw [if_neg hf]
    have hn : ∀ g, bags g t = [] := by
      intro g
      rw [List.eq_nil_iff_forall_not_mem]
      intro b hb
      rw [bags, List.mem_filterMap] at hb
      obtain ⟨n, hn, e⟩ := hb
      have := hi.sound.closed n hn [tsSeg] (by simp) (by rw [bagName_some.mp e]; exact ⟨[sBags g, sBag g b], rfl⟩)
      exact hf this
    rw [← h1]
    simp only [tsData, hn, List.map_nil]
    rfl

/-! ### Keystore -/

theorem Inv.key {t : List Node} {s : Store} (hi : Inv t s) (k : Text) : k ∈ keys t ↔ (s.keys k).isSome := by
  rw [keys, hi.mem (g := R.key) (fun _ _ => keyName_some), img, Option.isSome_map]

theorem Inv.keyCert {t : List Node} {s : Store} (hi : Inv t s) {k : Text} {x : Key} (hk : s.keys k = some x) (c : Text) :
    c ∈ keyCerts k t ↔ (x.certs c).isSome := by
  rw [keyCerts, hi.mem (g := R.kc k) (fun _ _ => keyCertName_some), img, hk, Option.bind_some, Option.isSome_map]

theorem keys_nodup {t : List Node} (h : (t.map Node.path).Nodup) : (keys t).Nodup := filterMap_nodup (fun _ _ => keyName_some) h
theorem keyCerts_nodup {k : Text} {t : List Node} (h : (t.map Node.path).Nodup) : (keyCerts k t).Nodup := filterMap_nodup (fun _ _ => keyCertName_some) h

/-- The keys of every entry have known formats. -/
def Store.known (s : Store) : Prop := ∀ k x p, s.keys k = some x → x.pair = some p →
  p.pfmt ∈ pubFormats.map String.toList ∧ p.sfmt ∈ ConfTlsUse.privFormats.map String.toList

theorem pub_no : ∀ f ∈ pubFormats.map String.toList, ConfUserUse.fmtCode f = fmtNo pubFormats f ∧ ConfStore.fmtOk (fmtNo pubFormats f) = true := by
  decide +kernel

theorem priv_no : ∀ f ∈ ConfTlsUse.privFormats.map String.toList,
    ConfTlsUse.privCode f = fmtNo ConfTlsUse.privFormats f ∧ ConfStore.privOk (fmtNo ConfTlsUse.privFormats f) = true := by
  decide +kernel

/-- A key as data. -/
def keyData (C : Text → Nat) (t : List Node) (s : Store) (k : Text) : KeyData :=
  let x := (s.keys k).getD ⟨none, fun _ => none⟩
  let p := x.pair.getD ⟨[], [], [], []⟩
  ⟨some (fmtNo pubFormats p.pfmt), some (C p.pub), fmtNo ConfTlsUse.privFormats p.sfmt, C p.priv,
    (keyCerts k t).map (fun c => (C c, C ((x.certs c).getD [])))⟩

/-- The keystore as data. -/
def ksData (C : Text → Nat) (t : List Node) (s : Store) : List (Nat × KeyData) := (keys t).map (fun k => (C k, keyData C t s k))

theorem Inv.ksTree {t : List Node} {s : Store} (hi : Inv t s) (hp : s.paired) (hf : s.known) (C : Text → Nat) :
    ksTreeOf C t = if found t [ksSeg] then some (ConfStore.ksDataTree (ksData C t s)) else none := by
  unfold ksTreeOf
  congr 2
  have h1 : (keys t).map (keyTreeOf C t) = (ksData C t s).map (fun k => ConfStore.keyData k.1 k.2) := by
    simp only [ksData, List.map_map]
    refine List.map_congr_left (fun k hk => ?_)
    obtain ⟨x, hx⟩ := Option.isSome_iff_exists.mp ((hi.key k).mp hk)
    obtain ⟨p, hpx⟩ := Option.isSome_iff_exists.mp (hp k x hx)
    obtain ⟨f1, f2⟩ := hf k x p hx hpx
    have lf : ∀ a, (img s (.kl k a)).join = some (p.leaf a) := by
      intro a
      simp [img, hx, hpx]
    simp only [Function.comp_apply, keyTreeOf, keyData, hx, hpx, Option.getD_some]
    rw [show keyPath k ++ [seg t!"public-key-format"] = (R.kl k .pfmt).path from rfl,
      show keyPath k ++ [seg t!"public-key"] = (R.kl k .pub).path from rfl,
      show keyPath k ++ [seg t!"private-key-format"] = (R.kl k .sfmt).path from rfl,
      show keyPath k ++ [seg t!"cleartext-private-key"] = (R.kl k .priv).path from rfl,
      leaf_at hi (.kl k .pfmt) _ _ (lf _), leaf_at hi (.kl k .pub) _ _ (lf _), leaf_at hi (.kl k .sfmt) _ _ (lf _), leaf_at hi (.kl k .priv) _ _ (lf _)]
    simp only [Pair.leaf]
    rw [(pub_no _ f1).1, (priv_no _ f2).1]
    have hc : (keyCerts k t).map (keyCertOf C k t) = ((keyCerts k t).map (fun c => (C c, C ((x.certs c).getD [])))).map (fun q => ConfStore.certData q.1 q.2) := by
      rw [List.map_map]
      refine List.map_congr_left (fun c hc => ?_)
      obtain ⟨d, hd⟩ := Option.isSome_iff_exists.mp ((hi.keyCert hx c).mp hc)
      simp only [Function.comp_apply, keyCertOf, hd, Option.getD_some]
      rw [show keyCertPath k c ++ [seg t!"cert-data"] = (R.kd k c).path from rfl, leaf_at hi (.kd k c) _ _ (v := d) (by simp [img, hx, hd])]
      rfl
    rw [hc]
    rfl
  rw [h1]
  rfl

theorem Inv.ksConf {t : List Node} {s : Store} (hi : Inv t s) (hp : s.paired) (hf : s.known) {C : Text → Nat} {T : Nat → Text} (hT : ∀ t, T (C t) = t)
    (hC : ∀ n, C (T n) = n) : ConfStore.ksDataConf (ksData C t s) = some (s.ks C T) := by
  rw [ConfStore.ksDataConf, ConfStore.patchKeys, ksData, List.map_map]
  refine creates_map hT hC _ _ _ (keys_nodup hi.sound.nodup) (keyData C t s) (fun k => (s.keys k).bind (fun x => x.pair.map (fun p =>
    (⟨some (fmtNo pubFormats p.pfmt), some (C p.pub), fmtNo ConfTlsUse.privFormats p.sfmt, C p.priv, fun c => (x.certs (T c)).map C⟩ : KeyConf)))) ?_ ?_
  · intro k
    rw [hi.key]
    cases hx : s.keys k with
    | none => rfl
    | some x =>
      obtain ⟨p, hpx⟩ := Option.isSome_iff_exists.mp (hp k x hx)
      simp [hpx]
  · intro k hk
    obtain ⟨x, hx⟩ := Option.isSome_iff_exists.mp ((hi.key k).mp hk)
    obtain ⟨p, hpx⟩ := Option.isSome_iff_exists.mp (hp k x hx)
    obtain ⟨f1, f2⟩ := hf k x p hx hpx
    have hc : ConfStore.certMap ((keyCerts k t).map (fun c => (C c, C ((x.certs c).getD [])))) = some (fun c => (x.certs (T c)).map C) := by
      rw [ConfStore.certMap, List.map_map]
      exact creates_map hT hC some _ _ (keyCerts_nodup hi.sound.nodup) (fun c => C ((x.certs c).getD [])) (fun c => (x.certs c).map C)
        (fun c => by rw [hi.keyCert hx, Option.isSome_map]) (fun c hc => by
          obtain ⟨d, hd⟩ := Option.isSome_iff_exists.mp ((hi.keyCert hx c).mp hc)
          simp [hd])
    simp only [KeyData.conf, keyData, hx, hpx, Option.getD_some, hc, Option.all_some, (pub_no _ f1).2, (priv_no _ f2).2, Bool.and_self, if_true,
      Option.map_some, Option.bind_some]

theorem Inv.ksSetUp {t : List Node} {s : Store} (hi : Inv t s) (hp : s.paired) (hf : s.known) {C : Text → Nat} {T : Nat → Text} (hT : ∀ t, T (C t) = t)
    (hC : ∀ n, C (T n) = n) (s0 : Ks) : ∃ ks, ConfStore.setupKs (ksTreeOf C t) s0 = .ok ks ∧ ServerId.KsSafe ks (s.ks C T) := by
  have hd := hi.ksConf hp hf hT hC
  obtain ⟨s', h1, -⟩ : ∃ s', ConfStore.setupKs (some (ConfStore.ksDataTree (ksData C t s))) s0 = .ok s' ∧ ConfStore.HoldsKs s' _ := ConfStore.ks_data_ok _ _ hd
  refine ⟨s', ?_, s0, s', ksData C t s, [], _, hd, rfl, fun _ h => (by cases h), h1, rfl⟩
  rw [hi.ksTree hp hf C]
  by_cases hf : found t [ksSeg] = true
  · rw [if_pos hf]; exact h1
  · rw [if_neg hf]
    have hn : keys t = [] := by
      rw [List.eq_nil_iff_forall_not_mem]
      intro k hk
      rw [keys, List.mem_filterMap] at hk
      obtain ⟨n, hn, e⟩ := hk
      have := hi.sound.closed n hn [ksSeg] (by simp) (by rw [keyName_some.mp e]; exact ⟨[sKeys, sKey k], rfl⟩)
      exact hf this
    rw [← h1]
    simp only [ksData, hn, List.map_nil]
    rfl

/-- Keys read from files have known formats. -/
theorem known_wanted : ∀ (post pre : List Call), (wanted pre).known → KeysFromFiles post → (wanted (pre ++ post)).known
  | [], pre, h, _ => by rwa [List.append_nil]
  | c :: post, pre, h, hk => by
    have := known_wanted post (pre ++ [c]) (by
      rw [wanted_snoc]
      intro k x p hx hp
      have old : ∀ j y, (wanted pre).keys j = some y → y.pair = some p →
          p.pfmt ∈ pubFormats.map String.toList ∧ p.sfmt ∈ ConfTlsUse.privFormats.map String.toList := fun j y h1 h2 => h j y p h1 h2
      cases c with
      | key j pfmt pub sfmt priv =>
        simp only [Store.apply, Store.setKey, set] at hx
        split at hx
        · cases hx; cases hp; exact hk j pfmt pub sfmt priv (.head _)
        · exact old k x hx hp
      | keyCert j c d =>
        simp only [Store.apply, Store.setKey, set] at hx
        split at hx
        · cases hx
          dsimp only at hp
          cases hy : (wanted pre).keys j with
          | none => rw [hy] at hp; cases hp
          | some y => rw [hy] at hp; exact old j y hy hp
        · exact old k x hx hp
      | delKey j =>
        simp only [Store.apply, Store.setKey, set] at hx
        split at hx
        · cases hx
        · exact old k x hx hp
      | delKeyCert j c =>
        simp only [Store.apply, Store.setKey, set] at hx
        split at hx
        · obtain ⟨y, hy, rfl⟩ := Option.map_eq_some_iff.mp hx
          exact old j y hy hp
        · exact old k x hx hp
      | entry g b k' d => exact old k x hx hp
      | delEntry g b k' => exact old k x hx hp) (fun k a b c' d hm => hk k a b c' d (.tail _ hm))
    rwa [List.append_assoc] at this

/-! ## Calls that succeed -/

/-- There is nothing, or the server is there. -/
def TopIn (cfg : Config) : Prop := ∀ t, cfg = some t → found t ConfUtil.top = true

theorem step_top {S : Schema} {names : List Text} {vals : List (Option Text)} {cfg cfg' : Config} {o : Op} {P : Place} (hP : o.place = some P) (hg : Good names P)
    (ht : TopIn cfg) (h : step S names vals cfg o = (true, cfg')) : TopIn cfg' := by
  intro t e
  rcases step_ok hP hg h with ⟨_, _, _, t', _, _, e', _, hf⟩ | ⟨_, _, _, _, _, e'⟩ | ⟨_, _, _, _, e', hf⟩ | ⟨_, t', _, e0, _, e'⟩
  · rw [e'] at e; cases e; exact hf
  · exact ht t (e' ▸ e)
  · rw [e'] at e; cases e; exact hf
  · rw [e'] at e; cases e; exact ht t e0

theorem run_top {S : Schema} {names : List Text} {vals : List (Option Text)} : ∀ (l : List (Op × Place)) (cfg cfg' : Config), Placed names l → TopIn cfg →
    run S names vals (l.map Prod.fst) cfg = (true, cfg') → TopIn cfg'
  | [], cfg, cfg', _, ht, h => by
    simp only [List.map_nil, run, Prod.mk.injEq, true_and] at h
    exact h ▸ ht
  | x :: l, cfg, cfg', hp, ht, h => by
    obtain ⟨c, h1, h2⟩ := run_cons_ok h
    obtain ⟨g1, -, g3, -⟩ := hp x (.head _)
    exact run_top l c cfg' (fun y hy => hp y (.tail _ hy)) (step_top g1 g3 ht h1) h2

/-- The other functions leave the server there. -/
def Tops {α : Type} (run : Config → α → Bool × Config) (good : α → Prop) : Prop :=
  ∀ cfg cfg' a, good a → TopIn cfg → run cfg a = (true, cfg') → TopIn cfg'

theorem tls_tops (S : Schema) : Tops (fun cfg c => ConfTlsUse.Call.run S cfg c) ConfTlsUse.Call.good := by
  intro cfg cfg' c hc ht h
  dsimp only at h
  rw [ConfTlsUse.run_eq] at h
  split at h
  · cases h
  · rw [← (ConfTlsUse.ops_zip c.act).1] at h
    exact run_top _ _ _ (ConfTlsUse.fits_placed (by simp) (ConfTlsUse.names_plain c hc) (ConfTlsUse.ops_fit c.act)) ht h

theorem user_tops (S : Schema) (e : Text) (he : '\'' ∉ e) : Tops (fun cfg c => ConfUserUse.Call.run S e cfg c) ConfUserUse.Call.good := by
  intro cfg cfg' c hc ht h
  dsimp only at h
  rw [ConfUserUse.run_eq, ← (ConfUserUse.ops_zip c).1] at h
  have hn : ∀ t ∈ e :: c.names, Plain t := by
    intro t ht
    rcases List.mem_cons.mp ht with rfl | ht
    · exact he
    · exact hc t ht
  exact run_top _ _ _ (ConfUserUse.fits_placed (by simp) hn (ConfUserUse.ops_fit c)) ht h

theorem call_top {S : Schema} {cfg cfg' : Config} {c : Call} (hc : c.good) (ht : TopIn cfg) (h : c.run S cfg = (true, cfg')) : TopIn cfg' := by
  rw [run_eq, ← (ops_zip c).1] at h
  exact run_top _ _ _ (fits_placed rfl hc (ops_fit c)) ht h

theorem top_head {n : Nat} {x : Op × Place} (h : fits n x = true) (names : List Text) : ¬ ConfUtil.top <+: x.2.at names ∧ ¬ x.2.at names <+: ConfUtil.top := by
  have hh := fits_head h names
  have hne : x.2.at names ≠ [] := ConfUtil.at_ne_nil (fits_ne h) names
  have h1 : ksSeg ≠ seg t!"ietf-netconf-server:netconf-server" ∧ tsSeg ≠ seg t!"ietf-netconf-server:netconf-server" := by decide
  cases hp : x.2.at names with
  | nil => exact absurd hp hne
  | cons a p =>
    rw [hp] at hh
    have : a ≠ seg t!"ietf-netconf-server:netconf-server" := by
      rcases hh with e | e <;> (cases e)
      · exact h1.1
      · exact h1.2
    refine ⟨fun c => this ?_, fun c => this ?_⟩
    · exact ((List.cons_prefix_cons.mp c).1).symm
    · exact (List.cons_prefix_cons.mp c).1

/-- Without the server there, a function for the stores fails. -/
theorem call_none {S : Schema} {cfg cfg' : Config} {c : Call} (hc : c.good) (hn : found (cfg.getD []) ConfUtil.top = false) : c.run S cfg ≠ (true, cfg') := by
  intro h
  rw [run_eq, ← (ops_zip c).1] at h
  have hf := ops_fit c
  have hp := fits_placed rfl hc hf
  cases hz : c.fn.ops.zip c.places with
  | nil => exact (ops_zip c).2 hz
  | cons x l =>
    rw [hz] at h hf hp
    obtain ⟨c1, h1, -⟩ := run_cons_ok h
    obtain ⟨g1, -, g3, g4⟩ := hp x (.head _)
    have hh := top_head (hf x (.head _)) c.names
    rcases step_ok g1 g3 h1 with ⟨_, _, _, t', _, _, _, e, hf'⟩ | ⟨f, s, e, ho, _⟩ | ⟨t, _, rfl, _, _, hf'⟩ | ⟨f, t, e, _⟩
    · rcases (newPath_found e _).mp hf' with e | e
      · rw [e] at hn; cases hn
      · exact hh.1 e.2
    · rw [g4 f s e] at ho; cases ho
    · rw [found_freeTree] at hf'
      rw [show (some t : Config).getD [] = t from rfl, hf'.1] at hn
      cases hn
    · have : ∀ x ∈ c.fn.ops.zip c.places, ∀ f, x.1 ≠ .checkDelete f := by
        cases c with
        | entry g b k d => cases g <;> simp [Call.fn, Call.places, add_truststore_cert, add_truststore_pubkey]
        | delEntry g b k => cases g <;> simp [Call.fn, Call.places, del_truststore_cert, del_truststore_pubkey]
        | _ => simp [Call.fn, Call.places, add_keystore_asym_key, add_keystore_cert, del_keystore_asym_key, del_keystore_cert]
      rw [hz] at this
      exact this x (.head _) f e

theorem step_some {S : Schema} (hS : ConfUserUse.Takes S) {names : List Text} {vals : List (Option Text)} {t : List Node} {n : Nat} {x : Op × Place}
    (hx : fits n x = true) (hg : Good names x.2) (ht : found t ConfUtil.top = true) (ho : ConfUserUse.Ready vals (some t) (x.2.at names) x.1)
    (hd : ∀ f, x.1 ≠ .checkDelete f) : ∃ t', step S names vals (some t) x.1 = (true, some t') := by
  have hh := top_head hx names
  have hx' := hx
  simp only [fits, Bool.and_eq_true, decide_eq_true_eq] at hx'
  have hp := op_parse hx'.1.1.1 hg
  obtain ⟨o, P⟩ := x
  dsimp only at hp hh ho hd hg hx' ⊢
  cases o with
  | create f src =>
    obtain ⟨v, hv⟩ := Option.isSome_iff_exists.mp ho
    obtain ⟨t1, hnp⟩ : ∃ t1, newPath S t (P.at names) v = some t1 := by
      unfold newPath; rw [if_pos (hS.1 _ _)]; exact ⟨_, rfl⟩
    have hf : found t1 ConfUtil.top = true := (newPath_found hnp _).mpr (.inl ht)
    refine ⟨t1, ?_⟩
    rw [step_create, hv]
    unfold create
    rw [show parse (fill f names) = _ from hp]
    simp only [Option.getD_some, hnp, setTop_found hf]
  | checkDelete f => exact absurd rfl (hd f)
  | delete f =>
    have hp' : parse (fill f names) = some (P.at names) := hp
    have hf : found t (P.at names) = true := ho
    simp only [step, delete, hp', hf, if_true]
    exact ⟨_, setTop_found ((found_freeTree _ _ _).mpr ⟨ht, hh.2⟩)⟩

theorem run_some {S : Schema} (hS : ConfUserUse.Takes S) {names : List Text} {vals : List (Option Text)} {n : Nat} (hn : names.length = n)
    (hpl : ∀ t ∈ names, Plain t) : ∀ (l : List (Op × Place)) (t : List Node), (∀ x ∈ l, fits n x = true) →
    (∀ x ∈ l, ∃ f s, x.1 = .create f s ∧ (srcVal vals s).isSome) → found t ConfUtil.top = true → ∃ t', run S names vals (l.map Prod.fst) (some t) = (true, some t')
  | [], t, _, _, _ => ⟨t, rfl⟩
  | x :: l, t, hf, ha, ht => by
    obtain ⟨f, s, e, hv⟩ := ha x (.head _)
    obtain ⟨g1, -, g3, -⟩ := fits_placed hn hpl hf x (.head _)
    obtain ⟨t1, h1⟩ := step_some hS (vals := vals) (hf x (.head _)) g3 ht (by rw [e]; exact hv) (by rw [e]; intro f; simp)
    have ht1 : found t1 ConfUtil.top = true := step_top g1 g3 (fun t' e => by cases e; exact ht) h1 t1 rfl
    obtain ⟨t2, h2⟩ := run_some hS hn hpl l t1 (fun y hy => hf y (.tail _ hy)) (fun y hy => ha y (.tail _ hy)) ht1
    refine ⟨t2, ?_⟩
    rw [List.map_cons, run, h1]
    simp only [if_true]
    exact h2

/-- The node that a function deletes. -/
def Call.target : Call → Option R
  | .delKey k => some (.key k)
  | .delKeyCert k c => some (.kc k c)
  | .delEntry g b k => some (.ent g b k)
  | _ => none

theorem possible_img (c : Call) (s : Store) : s.possible c ↔ ∀ r, c.target = some r → (img s r).isSome := by
  cases c <;> simp only [Store.possible, Call.target, Option.some.injEq, reduceCtorEq, false_imp_iff, implies_true, forall_eq']
  · cases h : s.keys _ <;> simp [img, h]
  · rcases h : s.keys _ with _ | x
    · simp [img, h]
    · rename_i c
      cases h' : x.certs c <;> simp [img, h, h']
  · rcases h : s.bags _ _ with _ | m
    · simp [img, h]
    · rename_i k
      cases h' : m k <;> simp [img, h, h']

theorem del_one (c : Call) (r : R) (hr : c.target = some r) : ∃ f P, c.fn.ops.zip c.places = [(.delete f, P)] ∧ P.at c.names = r.path := by
  cases c with
  | delEntry g b k => cases hr; cases g <;> exact ⟨_, _, rfl, rfl⟩
  | delKey k => cases hr; exact ⟨_, _, rfl, rfl⟩
  | delKeyCert k x => cases hr; exact ⟨_, _, rfl, rfl⟩
  | _ => cases hr

/-- The call creates something. -/
def creates (vals : List (Option Text)) (x : Op × Place) : Bool :=
  match x.1 with
  | .create _ s => (srcVal vals s).isSome
  | _ => false

theorem creates_some {vals : List (Option Text)} {x : Op × Place} (h : creates vals x = true) : ∃ f s, x.1 = .create f s ∧ (srcVal vals s).isSome := by
  unfold creates at h
  split at h
  · next f s e => exact ⟨f, s, e, h⟩
  · cases h

theorem add_all (c : Call) (hr : c.target = none) : ∀ x ∈ c.fn.ops.zip c.places, ∃ f s, x.1 = .create f s ∧ (srcVal c.vals s).isSome := by
  have : (c.fn.ops.zip c.places).all (creates c.vals) = true := by
    cases c with
    | entry g b k d => cases g <;> rfl
    | key => rfl
    | keyCert => rfl
    | _ => cases hr
  intro x hx
  exact creates_some (List.all_eq_true.mp this x hx)

theorem call_iff {S : Schema} (hS : ConfUserUse.Takes S) {t : List Node} {c : Call} {s : Store} (hc : c.good) (hi : Inv t s) (ht : found t ConfUtil.top = true) :
    (∃ t', c.run S (some t) = (true, some t')) ↔ s.possible c := by
  rw [possible_img, run_eq, ← (ops_zip c).1]
  have hf := ops_fit c
  have hp := fits_placed rfl hc hf
  cases hr : c.target with
  | none =>
    refine ⟨fun _ r e => (by cases e), fun _ => run_some hS rfl hc _ t hf (add_all c hr) ht⟩
  | some r =>
    obtain ⟨f, P, hz, hat⟩ := del_one c r hr
    rw [hz] at hf hp ⊢
    obtain ⟨g1, -, g3, -⟩ := hp _ (.head _)
    have hfi : (img s r).isSome ↔ found t r.path = true := by rw [view_found, hi.is r]
    constructor
    · rintro ⟨t', h⟩ r' e
      cases e
      rw [hfi]
      obtain ⟨c1, h1, -⟩ := run_cons_ok h
      rcases step_ok g1 g3 h1 with ⟨_, _, _, _, e, _⟩ | ⟨_, _, e, _⟩ | ⟨t0, _, e, hf', _⟩ | ⟨_, _, e, _⟩
      · cases e
      · cases e
      · cases e; rw [← hat]; exact hf'
      · cases e
    · intro h
      obtain ⟨t1, h1⟩ := step_some hS (vals := c.vals) (hf _ (.head _)) g3 ht (show found _ _ = true by rw [hat]; exact hfi.mp (h r rfl)) (by intro f; simp)
      exact ⟨t1, by rw [List.map_cons, run, h1]; rfl⟩

theorem build_top {α : Type} {run : Config → α → Bool × Config} {good : α → Prop} (ht : Tops run good) (S : Schema) : ∀ (cs : List (Call ⊕ α)) (cfg cfg' : Config),
    (∀ c ∈ stores cs, c.good) → (∀ c ∈ others cs, good c) → TopIn cfg → build run S cs cfg = (true, cfg') → TopIn cfg'
  | [], cfg, cfg', _, _, h0, h => by
    simp only [build, Prod.mk.injEq, true_and] at h
    exact h ▸ h0
  | .inl c :: cs, cfg, cfg', hg, hg', h0, h => by
    rw [build] at h
    cases hr : c.run S cfg with
    | mk b c1 =>
      rw [hr] at h
      cases b with
      | false => cases h
      | true => exact build_top ht S cs c1 cfg' (fun x hx => hg x (.tail _ hx)) hg' (call_top (hg c (.head _)) h0 hr) h
  | .inr c :: cs, cfg, cfg', hg, hg', h0, h => by
    rw [build] at h
    cases hr : run cfg c with
    | mk b c1 =>
      rw [hr] at h
      cases b with
      | false => cases h
      | true => exact build_top ht S cs c1 cfg' hg (fun x hx => hg' x (.tail _ hx)) (ht cfg c1 c (hg' c (.head _)) h0 hr) h

theorem build_some {α : Type} {run : Config → α → Bool × Config} {good : α → Prop} (hoff : Off run good)
    (S : Schema) : ∀ (cs : List (Call ⊕ α)) (cfg' : Config), (∀ c ∈ stores cs, c.good) → (∀ c ∈ others cs, good c) →
    build run S cs none = (true, cfg') → (cfg'.isSome ↔ others cs ≠ [])
  | [], cfg', _, _, h => by
    simp only [build, Prod.mk.injEq, true_and] at h
    subst h
    simp [others]
  | .inl c :: cs, cfg', hg, hg', h => by
    rw [build] at h
    cases hr : c.run S none with
    | mk b c1 =>
      rw [hr] at h
      cases b with
      | false => cases h
      | true => exact absurd hr (call_none (hg c (.head _)) rfl)
  | .inr c :: cs, cfg', hg, hg', h => by
    rw [build] at h
    cases hr : run none c with
    | mk b c1 =>
      rw [hr] at h
      cases b with
      | false => cases h
      | true =>
        refine ⟨fun _ => by simp [others], fun _ => ?_⟩
        have : ∀ (cs : List (Call ⊕ α)) (cfg : Config), (∀ c ∈ stores cs, c.good) → (∀ c ∈ others cs, good c) → Sound (cfg.getD []) → cfg.isSome →
            build run S cs cfg = (true, cfg') → cfg'.isSome := by
          intro cs
          induction cs with
          | nil =>
            intro cfg _ _ _ hs h
            simp only [build, Prod.mk.injEq, true_and] at h
            exact h ▸ hs
          | cons x cs ih =>
            intro cfg hg hg' hs hc h
            cases x with
            | inl x =>
              rw [build] at h
              cases hr : x.run S cfg with
              | mk b c1 =>
                rw [hr] at h
                cases b with
                | false => cases h
                | true =>
                  obtain ⟨t', rfl, h2, -⟩ := call_view (hg x (.head _)) hs hr
                  exact ih (some t') (fun y hy => hg y (.tail _ hy)) hg' h2 rfl h
            | inr x =>
              rw [build] at h
              cases hr : run cfg x with
              | mk b c1 =>
                rw [hr] at h
                cases b with
                | false => cases h
                | true =>
                  obtain ⟨t', rfl, h2, -⟩ := hoff cfg c1 x (hg' x (.head _)) hs hr
                  exact ih (some t') hg (fun y hy => hg' y (.tail _ hy)) h2 rfl h
        obtain ⟨t', rfl, h2, -⟩ := hoff none c1 c (hg' c (.head _)) ⟨List.nodup_nil, fun _ hx => (by cases hx)⟩ hr
        exact this cs (some t') hg (fun y hy => hg' y (.tail _ hy)) h2 rfl h

end Verif.ConfStoreUse
