import Verif.Lemmas.ConfUserUse
import Verif.Lemmas.TlsLogin
import Verif.Spec.ConfTlsUse

/-!
# Lemmas: from the functions for TLS to the endpoints of the server

As for SSH users (`Lemmas.ConfUserUse`), whose views of the data are used here.
-/

namespace Verif.ConfTlsUse
open Verif.ConfUtil
open Verif.ConfUse (seg ep valueAt leafOf endptName_some)
open Verif.ConfUserUse (View view put cut view_found view_value edit Sound run_view Placed E E.apply filterMap_nodup patch_creates map_nodup)

/-! ## Edits of an endpoint -/

/-- The edit of a call, below the endpoint. -/
def toE (names : List Text) (vals : List (Option Text)) : Op × Place → E
  | (.create _ s, P) => .put ((P.at names).drop 4) ((srcVal vals s).getD none)
  | (_, P) => .cut ((P.at names).drop 4)

theorem ep_ne (e : Text) (x : Path) : ep e ++ x ≠ [] := by simp [ep]

theorem ep_prefix (e e' : Text) (x y : Path) : ep e ++ x <+: ep e' ++ y ↔ e = e' ∧ x <+: y := by
  simp [ep, List.cons_prefix_cons]

theorem ep_eq (e e' : Text) (x y : Path) : ep e ++ x = ep e' ++ y ↔ e = e' ∧ x = y := by
  simp [ep]

theorem edit_rel {e : Text} {names : List Text} {vals : List (Option Text)} (x : Op × Place) (hx : ∃ s, x.2.at names = ep e ++ s) (V : View)
    (e' : Text) (y : Path) : edit names vals V x (ep e' ++ y) =
      if e' = e then (toE names vals x).apply (fun z => V (ep e' ++ z)) y else V (ep e' ++ y) := by
  obtain ⟨o, P⟩ := x
  obtain ⟨s, hs⟩ := hx
  dsimp only at hs
  have hd : (ep e ++ s).drop 4 = s := rfl
  cases o with
  | create f src =>
    simp only [edit, toE, hd, E.apply, put, hs, ep_eq, ep_prefix]
    by_cases h : e' = e <;> simp [h]
  | delete f =>
    simp only [edit, toE, hd, E.apply, cut, hs, ep_prefix]
    by_cases h : e' = e
    · simp [h]
    · simp [h, Ne.symm h]
  | checkDelete f =>
    simp only [edit, toE, hd, E.apply, cut, hs, ep_prefix]
    by_cases h : e' = e
    · simp [h]
    · simp [h, Ne.symm h]

theorem edits_rel {e : Text} {names : List Text} {vals : List (Option Text)} (e' : Text) : ∀ (l : List (Op × Place)),
    (∀ x ∈ l, ∃ s, x.2.at names = ep e ++ s) → ∀ (V : View) (y : Path), l.foldl (edit names vals) V (ep e' ++ y) =
      if e' = e then (l.map (toE names vals)).foldl E.apply (fun z => V (ep e' ++ z)) y else V (ep e' ++ y)
  | [], _, V, y => by simp
  | x :: l, h, V, y => by
    rw [List.foldl_cons, edits_rel e' l (fun z hz => h z (.tail _ hz))]
    have e1 := edit_rel (vals := vals) x (h x (.head _)) V e'
    by_cases hu : e' = e
    · rw [if_pos hu, if_pos hu, List.map_cons, List.foldl_cons]
      have : (fun z => edit names vals V x (ep e' ++ z)) = (toE names vals x).apply (fun z => V (ep e' ++ z)) := by
        funext z; rw [e1, if_pos hu]
      rw [this]
    · rw [if_neg hu, if_neg hu, e1, if_neg hu]

/-! ## The nodes of an endpoint that count -/

/-- Their names. -/
def sTls : Seg := seg t!"tls"
def sTsp : Seg := seg t!"tls-server-parameters"
def sNsp : Seg := seg t!"netconf-server-parameters"
def sCim : Seg := seg t!"client-identity-mappings"
def sSi : Seg := seg t!"server-identity"
def sCrt : Seg := seg t!"certificate"
def sInl : Seg := seg t!"inline-definition"
def sKref : Seg := seg t!"central-keystore-reference"
def sCa : Seg := seg t!"client-authentication"
def sGrp (g : Bool) : Seg := if g then seg t!"ee-certs" else seg t!"ca-certs"
def sTs : Seg := seg t!"central-truststore-reference"
def sRef : Seg := seg t!"libnetconf2-netconf-server:endpoint-reference"
def sDat : Seg := seg t!"cert-data"
def sCtn (n : Text) : Seg := ⟨t!"cert-to-name", [(t!"id", n)]⟩

/-- The leaves of an identity given in the configuration. -/
inductive IL where
  | pubFmt | pub | privFmt | priv | crt
  deriving DecidableEq

def IL.seg : IL → Seg
  | .pubFmt => ConfUse.seg t!"public-key-format"
  | .pub => ConfUse.seg t!"public-key"
  | .privFmt => ConfUse.seg t!"private-key-format"
  | .priv => ConfUse.seg t!"cleartext-private-key"
  | .crt => sDat

/-- The leaves of a reference to the keystore. -/
inductive KL where
  | key | crt
  deriving DecidableEq

def KL.seg : KL → Seg
  | .key => ConfUse.seg t!"asymmetric-key"
  | .crt => sCrt

/-- The leaves of an entry. -/
inductive CL where
  | fp | mt | name
  deriving DecidableEq

def CL.seg : CL → Seg
  | .fp => ConfUse.seg t!"fingerprint"
  | .mt => ConfUse.seg t!"map-type"
  | .name => ConfUse.seg t!"name"

/-- The nodes. -/
inductive R where
  | ep | idInl | kref | ref
  | idl (a : IL)
  | krl (a : KL)
  | inl (g : Bool)
  | bag (g : Bool)
  | crt (g : Bool) (k : Text)
  | dat (g : Bool) (k : Text)
  | ctn (n : Text)
  | ctl (n : Text) (a : CL)

/-- Their paths from the endpoint on. -/
def R.path : R → Path
  | .ep => []
  | .idInl => [sTls, sTsp, sSi, sCrt, sInl]
  | .idl a => [sTls, sTsp, sSi, sCrt, sInl, a.seg]
  | .kref => [sTls, sTsp, sSi, sCrt, sKref]
  | .krl a => [sTls, sTsp, sSi, sCrt, sKref, a.seg]
  | .ref => [sTls, sTsp, sCa, sRef]
  | .inl g => [sTls, sTsp, sCa, sGrp g, sInl]
  | .bag g => [sTls, sTsp, sCa, sGrp g, sTs]
  | .crt g k => [sTls, sTsp, sCa, sGrp g, sInl, crtSeg k]
  | .dat g k => [sTls, sTsp, sCa, sGrp g, sInl, crtSeg k, sDat]
  | .ctn i => [sTls, sNsp, sCim, sCtn i]
  | .ctl i a => [sTls, sNsp, sCim, sCtn i, a.seg]

def fmtText : Text := t!"ietf-crypto-types:subject-public-key-info-format"

/-- The texts of an identity. -/
def Ident.leaf : Ident → IL → Option Text
  | .inline _ _ _ _, .pubFmt => some fmtText
  | .inline pub _ _ _, .pub => some pub
  | .inline _ pfmt _ _, .privFmt => some pfmt
  | .inline _ _ priv _, .priv => some priv
  | .inline _ _ _ crt, .crt => some crt
  | .keystore _ _, _ => none

def Ident.kleaf : Ident → KL → Option Text
  | .inline .., _ => none
  | .keystore key _, .key => some key
  | .keystore _ crt, .crt => some crt

/-- The texts of an entry. -/
def Entry.leaf (x : Entry) : CL → Option Text
  | .fp => x.fp
  | .mt => mapText x.mt
  | .name => some x.name

/-- The entry with a number as text. -/
def entryAt (m : Nat → Option Entry) (n : Text) : Option Entry :=
  if Nat.toDigits 10 (Nat.ofDigitChars 10 n 0) = n then m (Nat.ofDigitChars 10 n 0) else none

/-- What is wanted at the nodes. -/
def img (w : Option Want) : R → Option (Option Text)
  | .ep => w.map (fun _ => none)
  | .idInl => w.bind (fun x => match x.id with | some (.inline ..) => some none | _ => none)
  | .idl a => w.bind (fun x => (x.id.bind (fun y => y.leaf a)).map some)
  | .kref => w.bind (fun x => match x.id with | some (.keystore ..) => some none | _ => none)
  | .krl a => w.bind (fun x => (x.id.bind (fun y => y.kleaf a)).map some)
  | .ref => w.bind (fun x => x.ref.map some)
  | .inl g => w.bind (fun x => match x.certs g with | some (.inline _) => some none | _ => none)
  | .bag g => w.bind (fun x => match x.certs g with | some (.bag b) => some (some b) | _ => none)
  | .crt g k => w.bind (fun x => match x.certs g with | some (.inline m) => (m k).map (fun _ => none) | _ => none)
  | .dat g k => w.bind (fun x => match x.certs g with | some (.inline m) => (m k).map some | _ => none)
  | .ctn i => w.bind (fun x => (entryAt x.ctn i).map (fun _ => none))
  | .ctl i a => w.bind (fun x => ((entryAt x.ctn i).bind (fun y => y.leaf a)).map some)

/-- The edits of each call. -/
def Act.edits : Act → List E
  | .cert pub pfmt priv crt => [.put (R.idl .pubFmt).path (some fmtText), .put (R.idl .pub).path (some pub), .put (R.idl .privFmt).path (some pfmt),
      .put (R.idl .priv).path (some priv), .put (R.idl .crt).path (some crt), .cut R.kref.path]
  | .ks key crt => [.put (R.krl .key).path (some key), .put (R.krl .crt).path (some crt), .cut R.idInl.path]
  | .trust g k d => [.put (R.dat g k).path (some d), .cut (R.bag g).path]
  | .bag g b => [.put (R.bag g).path (some b), .cut (R.inl g).path]
  | .ctn i fp mt n => (match fp with | some f => [.put (R.ctl (Nat.toDigits 10 i) .fp).path (some f)] | none => []) ++
      [.put (R.ctl (Nat.toDigits 10 i) .mt).path (mapText mt), .put (R.ctl (Nat.toDigits 10 i) .name).path (some n)]
  | .ref r => [.put R.ref.path (some r)]
  | .delCert => [.cut R.idInl.path]
  | .delKs => [.cut R.kref.path]
  | .delTrust g k => [.cut (R.crt g k).path]
  | .delBag g => [.cut (R.bag g).path]
  | .delCtn i => [.cut (R.ctn (Nat.toDigits 10 i)).path]
  | .delRef => [.cut R.ref.path]
  | .delEndpt => [.cut R.ep.path]

def pTsp : Place := lis ++ [node t!"tls", node t!"tls-server-parameters"]
def pId : Place := pTsp ++ [node t!"server-identity", node t!"certificate"]
def pAuth : Place := pTsp ++ [node t!"client-authentication"]
def pGrp (g : Bool) : Place := pAuth ++ [if g then node t!"ee-certs" else node t!"ca-certs"]
def pCtn : Place := lis ++ [node t!"tls", node t!"netconf-server-parameters", node t!"client-identity-mappings", inst t!"cert-to-name" t!"id" 1]

/-- The places. -/
def Act.places : Act → List Place
  | .cert .. => [pId ++ [node t!"inline-definition", node t!"public-key-format"], pId ++ [node t!"inline-definition", node t!"public-key"],
      pId ++ [node t!"inline-definition", node t!"private-key-format"], pId ++ [node t!"inline-definition", node t!"cleartext-private-key"],
      pId ++ [node t!"inline-definition", node t!"cert-data"], pId ++ [node t!"central-keystore-reference"]]
  | .ks .. => [pId ++ [node t!"central-keystore-reference", node t!"asymmetric-key"], pId ++ [node t!"central-keystore-reference", node t!"certificate"],
      pId ++ [node t!"inline-definition"]]
  | .trust g _ _ => [pGrp g ++ [node t!"inline-definition", inst t!"certificate" t!"name" 1, node t!"cert-data"], pGrp g ++ [node t!"central-truststore-reference"]]
  | .bag g _ => [pGrp g ++ [node t!"central-truststore-reference"], pGrp g ++ [node t!"inline-definition"]]
  | .ctn _ fp _ _ => (match fp with | some _ => [pCtn ++ [node t!"fingerprint"]] | none => []) ++ [pCtn ++ [node t!"map-type"], pCtn ++ [node t!"name"]]
  | .ref _ => [pAuth ++ [node t!"libnetconf2-netconf-server:endpoint-reference"]]
  | .delCert => [pId ++ [node t!"inline-definition"]]
  | .delKs => [pId ++ [node t!"central-keystore-reference"]]
  | .delTrust g _ => [pGrp g ++ [node t!"inline-definition", inst t!"certificate" t!"name" 1]]
  | .delBag g => [pGrp g ++ [node t!"central-truststore-reference"]]
  | .delCtn _ => [pCtn]
  | .delRef => [pAuth ++ [node t!"libnetconf2-netconf-server:endpoint-reference"]]
  | .delEndpt => [lis]

/-- The calls of the function; a fingerprint that is given is given. -/
def Act.ops : Act → List Op
  | .cert .. => add_tls_server_cert.ops
  | .ks .. => add_tls_keystore_ref.ops
  | .trust g _ _ => if g then add_tls_client_cert.ops else add_tls_ca_cert.ops
  | .bag g _ => if g then add_tls_client_cert_truststore_ref.ops else add_tls_ca_cert_truststore_ref.ops
  | .ctn _ fp _ _ => (match fp with
      | some _ => [Op.create t!"/ietf-netconf-server:netconf-server/listen/endpoints/endpoint[name='%s']/tls/netconf-server-parameters/client-identity-mappings/cert-to-name[id='%u']/fingerprint" (.arg 0)]
      | none => []) ++ add_tls_ctn.ops.tail
  | .ref _ => add_tls_endpoint_client_ref.ops
  | .delCert => del_tls_server_cert.ops
  | .delKs => del_tls_keystore_ref.ops
  | .delTrust g _ => if g then del_tls_client_cert.ops else del_tls_ca_cert.ops
  | .delBag g => if g then del_tls_client_cert_truststore_ref.ops else del_tls_ca_cert_truststore_ref.ops
  | .delCtn _ => del_tls_ctn.ops
  | .delRef => del_tls_endpoint_client_ref.ops
  | .delEndpt => del_endpt.ops

/-- Names behind that of the endpoint. -/
def Act.names : Act → List Text
  | .trust _ k _ | .delTrust _ k => [k]
  | .ctn i _ _ _ | .delCtn i => [Nat.toDigits 10 i]
  | _ => []

/-- The values. -/
def Act.vals : Act → List (Option Text)
  | .cert pub pfmt priv crt => [some pub, some pfmt, some priv, some crt]
  | .ks key crt => [some key, some crt]
  | .trust _ _ d => [some d]
  | .bag _ b => [some b]
  | .ctn _ fp mt n => [fp, mapText mt, some n]
  | .ref r => [some r]
  | _ => []

/-- An entry with number 0 is refused. -/
def Act.zero : Act → Bool
  | .ctn i _ _ _ => i == 0
  | _ => false

theorem run_eq (S : Schema) (cfg : Config) (c : Call) :
    c.run S cfg = if c.act.zero then (false, cfg) else run S (c.endpt :: c.act.names) c.act.vals c.act.ops cfg := by
  obtain ⟨e, a⟩ := c
  cases a with
  | trust g k d => cases g <;> rfl
  | bag g b => cases g <;> rfl
  | delTrust g k => cases g <;> rfl
  | delBag g => cases g <;> rfl
  | ctn i fp mt n =>
    by_cases hi : i = 0
    · subst hi; rfl
    · simp only [Call.run, Act.zero, beq_iff_eq, hi, if_false, call, Act.names, Act.vals, Act.ops]
      cases fp with
      | some f => rfl
      | none => rfl
  | _ => rfl

/-- What has to hold of each call of a function. -/
def fits (n : Nat) (x : Op × Place) : Bool :=
  decide (x.1.place = some x.2) && decide (lis <+: x.2) && decide (holes x.2 ≤ n) && (match x.1 with | .create _ s => !s.isOpt | _ => true)

theorem fits_placed {n : Nat} {names : List Text} (hn : names.length = n) (hp : ∀ t ∈ names, Plain t) {l : List (Op × Place)}
    (h : ∀ x ∈ l, fits n x = true) : Placed names l := by
  intro x hx
  have := h x hx
  simp only [fits, Bool.and_eq_true, decide_eq_true_eq] at this
  obtain ⟨⟨⟨h1, h2⟩, h3⟩, h4⟩ := this
  refine ⟨h1, ?_, ⟨hn ▸ h3, hp⟩, ?_⟩
  · intro he
    rw [he] at h2
    exact absurd (List.prefix_nil.mp h2) (by simp [lis])
  · intro f s he
    rw [he] at h4
    simpa using h4

theorem fits_ep {n : Nat} {e : Text} {r : List Text} {x : Op × Place} (h : fits n x = true) : ∃ s, x.2.at (e :: r) = ep e ++ s := by
  simp only [fits, Bool.and_eq_true, decide_eq_true_eq] at h
  obtain ⟨s, hs⟩ := h.1.1.2
  refine ⟨Place.at s (e :: r), ?_⟩
  rw [← hs, Place.at, List.map_append]
  rfl

theorem ops_fit (c : Act) : ∀ x ∈ c.ops.zip c.places, fits (c.names.length + 1) x = true := by
  cases c with
  | trust g k d => cases g <;> (simp only [Act.ops, Act.places, Act.names, List.length_cons, List.length_nil]; decide +kernel)
  | bag g k => cases g <;> (simp only [Act.ops, Act.places, Act.names, List.length_nil]; decide +kernel)
  | delTrust g k => cases g <;> (simp only [Act.ops, Act.places, Act.names, List.length_cons, List.length_nil]; decide +kernel)
  | delBag g => cases g <;> (simp only [Act.ops, Act.places, Act.names, List.length_nil]; decide +kernel)
  | ctn i fp mt n => cases fp <;> (simp only [Act.ops, Act.places, Act.names, List.length_cons, List.length_nil]; decide +kernel)
  | _ => simp only [Act.ops, Act.places, Act.names, List.length_cons, List.length_nil]; decide +kernel

theorem ops_zip (c : Act) : (c.ops.zip c.places).map Prod.fst = c.ops ∧ c.ops.zip c.places ≠ [] := by
  cases c with
  | trust g k d => cases g <;> exact ⟨rfl, List.cons_ne_nil _ _⟩
  | bag g k => cases g <;> exact ⟨rfl, List.cons_ne_nil _ _⟩
  | delTrust g k => cases g <;> exact ⟨rfl, List.cons_ne_nil _ _⟩
  | delBag g => cases g <;> exact ⟨rfl, List.cons_ne_nil _ _⟩
  | ctn i fp mt n => cases fp <;> exact ⟨rfl, List.cons_ne_nil _ _⟩
  | _ => exact ⟨rfl, List.cons_ne_nil _ _⟩

theorem opt_map {v : Option Text} : (v.map some).getD none = v := by cases v <;> rfl

theorem ops_edits (e : Text) (c : Act) : (c.ops.zip c.places).map (toE (e :: c.names) c.vals) = c.edits := by
  cases c with
  | trust g k d => cases g <;> rfl
  | bag g k => cases g <;> rfl
  | delTrust g k => cases g <;> rfl
  | delBag g => cases g <;> rfl
  | ctn i fp mt n =>
    cases hm : mapText mt with
    | none => cases fp <;> (simp only [Act.edits, Act.vals, hm]; rfl)
    | some x => cases fp <;> (simp only [Act.edits, Act.vals, hm]; rfl)
  | _ => rfl

theorem digits_plain (i : Nat) : Plain (Nat.toDigits 10 i) := by
  intro h
  have := Nat.isDigit_of_mem_toDigits (by omega) (by omega) h
  exact absurd this (by decide)

theorem names_plain (c : Call) (hc : c.good) : ∀ t ∈ c.endpt :: c.act.names, Plain t := by
  obtain ⟨e, a⟩ := c
  intro t ht
  rcases List.mem_cons.mp ht with rfl | ht
  · exact hc.1
  · have h2 := hc.2
    cases a <;> simp only [Act.names, List.not_mem_nil, List.mem_singleton] at ht
    · subst ht; exact h2
    · subst ht; exact digits_plain _
    · subst ht; exact h2
    · subst ht; exact digits_plain _

theorem call_view {S : Schema} {cfg cfg' : Config} {c : Call} (hc : c.good) (hs : Sound (cfg.getD []))
    (h : c.run S cfg = (true, cfg')) : ∃ t', cfg' = some t' ∧ Sound t' ∧ ∀ e y, view t' (ep e ++ y) =
      if e = c.endpt then c.act.edits.foldl E.apply (fun z => view (cfg.getD []) (ep e ++ z)) y else view (cfg.getD []) (ep e ++ y) := by
  rw [run_eq] at h
  split at h
  · cases h
  · rw [← (ops_zip c.act).1] at h
    obtain ⟨t', h1, h2, h3⟩ := run_view _ (fits_placed (by simp) (names_plain c hc) (ops_fit c.act)) (ops_zip c.act).2 hs h
    refine ⟨t', h1, h2, fun e y => ?_⟩
    rw [h3 _ (ep_ne e y), edits_rel (e := c.endpt) e _ (fun x hx => fits_ep (ops_fit c.act x hx)), ops_edits]

/-! ## The nodes after a call -/

theorem seg_ne : sTsp ≠ sNsp ∧ sSi ≠ sCa ∧ sInl ≠ sKref ∧ sInl ≠ sTs ∧ (∀ g, sGrp g ≠ sRef) := by decide

theorem sGrp_inj (a b : Bool) : sGrp a = sGrp b ↔ a = b := by revert a b; decide
theorem IL_inj (a b : IL) : a.seg = b.seg ↔ a = b := by cases a <;> cases b <;> decide
theorem KL_inj (a b : KL) : a.seg = b.seg ↔ a = b := by cases a <;> cases b <;> decide
theorem CL_inj (a b : CL) : a.seg = b.seg ↔ a = b := by cases a <;> cases b <;> decide
theorem crtSeg_inj (a b : Text) : crtSeg a = crtSeg b ↔ a = b := by simp [crtSeg]

theorem sCtn_inj (a b : Text) : sCtn a = sCtn b ↔ a = b := by simp [sCtn]

/-- Which nodes are above which. -/
def R.le : R → R → Prop
  | .ep, _ => True
  | .idInl, .idInl | .idInl, .idl _ | .kref, .kref | .kref, .krl _ | .ref, .ref => True
  | .idl a, .idl b => a = b
  | .krl a, .krl b => a = b
  | .inl a, .inl b | .inl a, .crt b _ | .inl a, .dat b _ | .bag a, .bag b => a = b
  | .crt a k, .crt b l | .crt a k, .dat b l | .dat a k, .dat b l => a = b ∧ k = l
  | .ctn a, .ctn b | .ctn a, .ctl b _ => a = b
  | .ctl a k, .ctl b l => a = b ∧ k = l
  | _, _ => False

theorem R.prefix_iff (a b : R) : a.path <+: b.path ↔ a.le b := by
  obtain ⟨h1, h2, h3, h4, h5⟩ := seg_ne
  have h6 := fun g => (h5 g).symm
  cases a <;> cases b <;>
    simp [R.path, R.le, List.cons_prefix_cons, h1, h2, h3, h4, h5, h6, h1.symm, h2.symm, h3.symm, h4.symm, sGrp_inj, IL_inj, KL_inj, CL_inj, crtSeg_inj, sCtn_inj]

theorem R.path_inj {a b : R} : a.path = b.path ↔ a.le b ∧ b.le a := by
  rw [← R.prefix_iff, ← R.prefix_iff]
  constructor
  · intro h; rw [h]; exact ⟨List.prefix_refl _, List.prefix_refl _⟩
  · rintro ⟨h1, h2⟩
    exact h1.eq_of_length (Nat.le_antisymm h1.length_le h2.length_le)

/-- Below an endpoint is what is wanted. -/
def Is (W : View) (w : Option Want) : Prop := ∀ r : R, W r.path = img w r

theorem put_at (s : R) (v : Option Text) (W : View) (r : R) : put s.path v W r.path =
    open Classical in if r.le s ∧ s.le r then some (if v.isSome then v else (W r.path).join) else if r.le s then some (W r.path).join else W r.path := by
  classical
  unfold put
  simp only [R.path_inj, R.prefix_iff]

theorem cut_at (s : R) (W : View) (r : R) : cut s.path W r.path = open Classical in if s.le r then none else W r.path := by
  classical
  unfold cut
  simp only [R.prefix_iff]

theorem digits_back (i : Nat) : Nat.ofDigitChars 10 (Nat.toDigits 10 i) 0 = i := by simp [Nat.ofDigitChars_ten_toDigits]

theorem entryAt_own (m : Nat → Option Entry) (i : Nat) : entryAt m (Nat.toDigits 10 i) = m i := by
  rw [entryAt, digits_back, if_pos rfl]

theorem entryAt_empty (n : Text) : entryAt (fun _ => none) n = none := by
  rw [entryAt]; exact ite_self _

theorem entryAt_set (m : Nat → Option Entry) (i : Nat) (v : Option Entry) (n : Text) :
    entryAt (fun j => if j = i then v else m j) n = if n = Nat.toDigits 10 i then v else entryAt m n := by
  by_cases h : n = Nat.toDigits 10 i
  · rw [if_pos h, h, entryAt_own, if_pos rfl]
  · rw [if_neg h]
    unfold entryAt
    split
    · next hn =>
      have : Nat.ofDigitChars 10 n 0 ≠ i := fun e => h (by rw [← e, hn])
      exact if_neg this
    · rfl

theorem cut_none (p : Prop) {_ : Decidable p} (r : R) : (if p then none else img none r) = img none r := by
  have : img none r = none := by cases r <;> rfl
  rw [this, ite_self]

set_option linter.unusedSimpArgs false in
theorem edits_img (c : Act) (w : Option Want) (W : View) (hm : ∀ i fp mt n, c = .ctn i fp mt n → (mapText mt).isSome) (h : Is W w) :
    Is (c.edits.foldl E.apply W) (c.apply w) := by
  intro r
  have h' : ∀ r : R, W r.path = img w r := h
  cases c with
  | cert pub pfmt priv crt =>
    simp only [Act.edits, List.foldl_cons, List.foldl_nil, E.apply, cut_at, put_at, h']
    rcases w with _ | ⟨_ | _ | _, certs, ref, ctn⟩ <;> cases r <;> first
      | (simp [R.le, img, Act.apply, Want.empty, entryAt_empty, Ident.leaf, Ident.kleaf]; done)
      | (rename_i a; cases a <;> simp [R.le, img, Act.apply, Want.empty, entryAt_empty, Ident.leaf, Ident.kleaf])
  | ks key crt =>
    simp only [Act.edits, List.foldl_cons, List.foldl_nil, E.apply, cut_at, put_at, h']
    rcases w with _ | ⟨_ | _ | _, certs, ref, ctn⟩ <;> cases r <;> first
      | (simp [R.le, img, Act.apply, Want.empty, entryAt_empty, Ident.leaf, Ident.kleaf]; done)
      | (rename_i a; cases a <;> simp [R.le, img, Act.apply, Want.empty, entryAt_empty, Ident.leaf, Ident.kleaf])
  | trust g k d =>
    simp only [Act.edits, List.foldl_cons, List.foldl_nil, E.apply, cut_at, put_at, h']
    cases r with
    | inl g' =>
      by_cases hg : g' = g
      · subst hg
        rcases w with _ | ⟨id, certs, ref, ctn⟩
        · simp [R.le, img, Act.apply, Want.empty, entryAt_empty, Want.setCerts]
        · rcases hc : certs g' with _ | _ | _ <;> simp [R.le, img, Act.apply, Want.setCerts, hc]
      · rcases w with _ | ⟨id, certs, ref, ctn⟩ <;> simp [R.le, img, Act.apply, Want.empty, entryAt_empty, Want.setCerts, hg, Ne.symm hg]
    | bag g' =>
      by_cases hg : g' = g
      · subst hg
        rcases w with _ | ⟨id, certs, ref, ctn⟩ <;> simp [R.le, img, Act.apply, Want.empty, entryAt_empty, Want.setCerts]
      · rcases w with _ | ⟨id, certs, ref, ctn⟩ <;> simp [R.le, img, Act.apply, Want.empty, entryAt_empty, Want.setCerts, hg, Ne.symm hg]
    | crt g' j =>
      by_cases hg : g' = g
      · subst hg
        by_cases hj : j = k
        · subst hj
          rcases w with _ | ⟨id, certs, ref, ctn⟩
          · simp [R.le, img, Act.apply, Want.empty, entryAt_empty, Want.setCerts]
          · rcases hc : certs g' with _ | m | _
            · simp [R.le, img, Act.apply, Want.setCerts, hc]
            · cases hm : m j <;> simp [R.le, img, Act.apply, Want.setCerts, hc, hm]
            · simp [R.le, img, Act.apply, Want.setCerts, hc]
        · rcases w with _ | ⟨id, certs, ref, ctn⟩
          · simp [R.le, img, Act.apply, Want.empty, entryAt_empty, Want.setCerts, hj, Ne.symm hj]
          · rcases hc : certs g' with _ | m | _ <;> simp [R.le, img, Act.apply, Want.setCerts, hc, hj, Ne.symm hj]
      · rcases w with _ | ⟨id, certs, ref, ctn⟩ <;> simp [R.le, img, Act.apply, Want.empty, entryAt_empty, Want.setCerts, hg, Ne.symm hg]
    | dat g' j =>
      by_cases hg : g' = g
      · subst hg
        by_cases hj : j = k
        · subst hj
          rcases w with _ | ⟨id, certs, ref, ctn⟩
          · simp [R.le, img, Act.apply, Want.empty, entryAt_empty, Want.setCerts]
          · rcases hc : certs g' with _ | m | _ <;> simp [R.le, img, Act.apply, Want.setCerts, hc]
        · rcases w with _ | ⟨id, certs, ref, ctn⟩
          · simp [R.le, img, Act.apply, Want.empty, entryAt_empty, Want.setCerts, hj, Ne.symm hj]
          · rcases hc : certs g' with _ | m | _ <;> simp [R.le, img, Act.apply, Want.setCerts, hc, hj, Ne.symm hj]
      · rcases w with _ | ⟨id, certs, ref, ctn⟩ <;> simp [R.le, img, Act.apply, Want.empty, entryAt_empty, Want.setCerts, hg, Ne.symm hg]
    | _ => rcases w with _ | ⟨id, certs, ref, ctn⟩ <;> simp [R.le, img, Act.apply, Want.empty, entryAt_empty, Want.setCerts]
  | bag g b =>
    simp only [Act.edits, List.foldl_cons, List.foldl_nil, E.apply, cut_at, put_at, h']
    rcases w with _ | ⟨id, certs, ref, ctn⟩ <;> cases r <;> first
      | (simp [R.le, img, Act.apply, Want.empty, entryAt_empty, Want.setCerts]; done)
      | (rename_i g'; by_cases hg : g' = g
         · subst hg; rcases hc : certs g' with _ | _ | _ <;> simp [R.le, img, Act.apply, Want.empty, entryAt_empty, Want.setCerts, hc]; done
         · simp [R.le, img, Act.apply, Want.empty, entryAt_empty, Want.setCerts, hg, Ne.symm hg]; done)
      | (rename_i g'; by_cases hg : g' = g
         · subst hg; simp [R.le, img, Act.apply, Want.empty, entryAt_empty, Want.setCerts]; done
         · simp [R.le, img, Act.apply, Want.empty, entryAt_empty, Want.setCerts, hg, Ne.symm hg]; done)
      | (rename_i g' j; by_cases hg : g' = g
         · subst hg; simp [R.le, img, Act.apply, Want.empty, entryAt_empty, Want.setCerts]; done
         · simp [R.le, img, Act.apply, Want.empty, entryAt_empty, Want.setCerts, hg, Ne.symm hg]; done)
  | ctn i fp mt n =>
    obtain ⟨x, hx⟩ := Option.isSome_iff_exists.mp (hm i fp mt n rfl)
    cases fp with
    | none =>
      simp only [Act.edits, List.nil_append, List.foldl_cons, List.foldl_nil, E.apply, cut_at, put_at, h']
      cases r with
      | ctn j =>
        by_cases hj : j = Nat.toDigits 10 i
        · subst hj
          rcases w with _ | w
          · simp [R.le, img, Act.apply, Want.empty, entryAt_empty, Want.setCtn, entryAt_own]
          · cases hc : w.ctn i <;> simp [R.le, img, Act.apply, Want.empty, Want.setCtn, entryAt_set, entryAt_empty, hc, entryAt_own]
        · rcases w with _ | w <;> simp [R.le, img, Act.apply, Want.empty, Want.setCtn, entryAt_set, entryAt_empty, hj, Ne.symm hj]
      | ctl j a =>
        by_cases hj : j = Nat.toDigits 10 i
        · subst hj
          rcases w with _ | w
          · cases a <;> simp [R.le, img, Act.apply, Want.empty, Want.setCtn, entryAt_set, entryAt_empty, Entry.leaf, hx]
          · cases hc : w.ctn i <;> cases a <;> simp [R.le, img, Act.apply, Want.empty, Want.setCtn, entryAt_set, entryAt_empty, hc, entryAt_own, Entry.leaf, hx]
        · rcases w with _ | w <;> simp [R.le, img, Act.apply, Want.empty, Want.setCtn, entryAt_set, entryAt_empty, hj, Ne.symm hj]
      | _ => rcases w with _ | w <;> simp [R.le, img, Act.apply, Want.empty, entryAt_empty, Want.setCtn, entryAt_own]
    | some f =>
      simp only [Act.edits, List.cons_append, List.nil_append, List.foldl_cons, List.foldl_nil, E.apply, cut_at, put_at, h']
      cases r with
      | ctn j =>
        by_cases hj : j = Nat.toDigits 10 i
        · subst hj
          rcases w with _ | w
          · simp [R.le, img, Act.apply, Want.empty, entryAt_empty, Want.setCtn, entryAt_own]
          · cases hc : w.ctn i <;> simp [R.le, img, Act.apply, Want.empty, Want.setCtn, entryAt_set, entryAt_empty, hc, entryAt_own]
        · rcases w with _ | w <;> simp [R.le, img, Act.apply, Want.empty, Want.setCtn, entryAt_set, entryAt_empty, hj, Ne.symm hj]
      | ctl j a =>
        by_cases hj : j = Nat.toDigits 10 i
        · subst hj
          rcases w with _ | w
          · cases a <;> simp [R.le, img, Act.apply, Want.empty, Want.setCtn, entryAt_set, entryAt_empty, Entry.leaf, hx]
          · cases hc : w.ctn i <;> cases a <;> simp [R.le, img, Act.apply, Want.empty, Want.setCtn, entryAt_set, entryAt_empty, hc, entryAt_own, Entry.leaf, hx]
        · rcases w with _ | w <;> simp [R.le, img, Act.apply, Want.empty, Want.setCtn, entryAt_set, entryAt_empty, hj, Ne.symm hj]
      | _ => rcases w with _ | w <;> simp [R.le, img, Act.apply, Want.empty, entryAt_empty, Want.setCtn, entryAt_own]
  | ref b =>
    simp only [Act.edits, List.foldl_cons, List.foldl_nil, E.apply, cut_at, put_at, h']
    rcases w with _ | ⟨id, certs, ref, ctn⟩ <;> cases r <;> simp [R.le, img, Act.apply, Want.empty, entryAt_empty]
  | delCert =>
    simp only [Act.edits, List.foldl_cons, List.foldl_nil, E.apply, cut_at, put_at, h']
    rcases w with _ | ⟨_ | _ | _, certs, ref, ctn⟩ <;> cases r <;> simp [R.le, img, Act.apply, Ident.leaf, Ident.kleaf]
  | delKs =>
    simp only [Act.edits, List.foldl_cons, List.foldl_nil, E.apply, cut_at, put_at, h']
    rcases w with _ | ⟨_ | _ | _, certs, ref, ctn⟩ <;> cases r <;> simp [R.le, img, Act.apply, Ident.leaf, Ident.kleaf]
  | delTrust g k =>
    simp only [Act.edits, List.foldl_cons, List.foldl_nil, E.apply, cut_at, put_at, h']
    rcases w with _ | ⟨id, certs, ref, ctn⟩
    · exact cut_none _ r
    · cases r with
      | inl g' =>
        by_cases hg : g' = g
        · subst hg; rcases hc : certs g' with _ | _ | _ <;> simp [R.le, img, Act.apply, Want.setCerts, hc]
        · simp [R.le, img, Act.apply, Want.setCerts, hg, Ne.symm hg]
      | bag g' =>
        by_cases hg : g' = g
        · subst hg; rcases hc : certs g' with _ | _ | _ <;> simp [R.le, img, Act.apply, Want.setCerts, hc]
        · simp [R.le, img, Act.apply, Want.setCerts, hg, Ne.symm hg]
      | crt g' j =>
        by_cases hg : g' = g
        · subst hg
          by_cases hj : j = k
          · subst hj; rcases hc : certs g' with _ | _ | _ <;> simp [R.le, img, Act.apply, Want.setCerts, hc]
          · rcases hc : certs g' with _ | _ | _ <;> simp [R.le, img, Act.apply, Want.setCerts, hc, hj, Ne.symm hj]
        · simp [R.le, img, Act.apply, Want.setCerts, hg, Ne.symm hg]
      | dat g' j =>
        by_cases hg : g' = g
        · subst hg
          by_cases hj : j = k
          · subst hj; rcases hc : certs g' with _ | _ | _ <;> simp [R.le, img, Act.apply, Want.setCerts, hc]
          · rcases hc : certs g' with _ | _ | _ <;> simp [R.le, img, Act.apply, Want.setCerts, hc, hj, Ne.symm hj]
        · simp [R.le, img, Act.apply, Want.setCerts, hg, Ne.symm hg]
      | _ => simp [R.le, img, Act.apply, Want.setCerts]
  | delBag g =>
    simp only [Act.edits, List.foldl_cons, List.foldl_nil, E.apply, cut_at, put_at, h']
    rcases w with _ | ⟨id, certs, ref, ctn⟩
    · exact cut_none _ r
    · cases r with
      | inl g' =>
        by_cases hg : g' = g
        · subst hg; rcases hc : certs g' with _ | _ | _ <;> simp [R.le, img, Act.apply, Want.setCerts, hc]
        · simp [R.le, img, Act.apply, Want.setCerts, hg, Ne.symm hg]
      | bag g' =>
        by_cases hg : g' = g
        · subst hg; rcases hc : certs g' with _ | _ | _ <;> simp [R.le, img, Act.apply, Want.setCerts, hc]
        · simp [R.le, img, Act.apply, Want.setCerts, hg, Ne.symm hg]
      | crt g' j =>
        by_cases hg : g' = g
        · subst hg; rcases hc : certs g' with _ | _ | _ <;> simp [R.le, img, Act.apply, Want.setCerts, hc]
        · simp [R.le, img, Act.apply, Want.setCerts, hg, Ne.symm hg]
      | dat g' j =>
        by_cases hg : g' = g
        · subst hg; rcases hc : certs g' with _ | _ | _ <;> simp [R.le, img, Act.apply, Want.setCerts, hc]
        · simp [R.le, img, Act.apply, Want.setCerts, hg, Ne.symm hg]
      | _ => simp [R.le, img, Act.apply, Want.setCerts]
  | delCtn i =>
    simp only [Act.edits, List.foldl_cons, List.foldl_nil, E.apply, cut_at, put_at, h']
    rcases w with _ | w
    · exact cut_none _ r
    · cases r with
      | ctn j =>
        by_cases hj : j = Nat.toDigits 10 i
        · simp [R.le, img, Act.apply, Want.setCtn, entryAt_set, hj]
        · simp [R.le, img, Act.apply, Want.setCtn, entryAt_set, hj, Ne.symm hj]
      | ctl j a =>
        by_cases hj : j = Nat.toDigits 10 i
        · simp [R.le, img, Act.apply, Want.setCtn, entryAt_set, hj]
        · simp [R.le, img, Act.apply, Want.setCtn, entryAt_set, hj, Ne.symm hj]
      | _ => simp [R.le, img, Act.apply, Want.setCtn, entryAt_own]
  | delRef =>
    simp only [Act.edits, List.foldl_cons, List.foldl_nil, E.apply, cut_at, put_at, h']
    rcases w with _ | ⟨id, certs, ref, ctn⟩ <;> cases r <;> simp [R.le, img, Act.apply]
  | delEndpt =>
    simp only [Act.edits, List.foldl_cons, List.foldl_nil, E.apply, cut_at, put_at, h']
    rcases w with _ | ⟨id, certs, ref, ctn⟩ <;> cases r <;> simp [R.le, img, Act.apply]

/-! ## All calls -/

theorem wanted_snoc (cs : List Call) (c : Call) (e : Text) :
    wanted (cs ++ [c]) e = if c.endpt = e then c.act.apply (wanted cs e) else wanted cs e := by
  simp only [wanted, List.foldl_append, List.foldl_cons, List.foldl_nil]

/-- The data hold what is wanted, and map types are known. -/
structure Inv (t : List Node) (m : Text → Option Want) : Prop where
  sound : Sound t
  is : ∀ e, Is (fun z => view t (ep e ++ z)) (m e)
  types : ∀ e w i x, m e = some w → w.ctn i = some x → x.mt < 6

theorem inv_nil : Inv [] (wanted []) :=
  ⟨⟨List.nodup_nil, fun _ hx => (by cases hx)⟩, fun e r => by cases r <;> rfl, fun e w i x h => by cases h⟩

theorem map_lt {mt : Nat} : (mapText mt).isSome ↔ mt < 6 := by
  constructor
  · intro h
    unfold mapText at h
    split at h <;> first | omega | cases h
  · intro h
    match mt, h with
    | 0, _ | 1, _ | 2, _ | 3, _ | 4, _ | 5, _ => rfl
    | n + 6, h => omega

theorem run_map {S : Schema} {cfg cfg' : Config} {c : Call} (h : c.run S cfg = (true, cfg')) :
    ∀ i fp mt n, c.act = .ctn i fp mt n → i ≠ 0 ∧ (mapText mt).isSome := by
  obtain ⟨e, a⟩ := c
  rintro i fp mt n ⟨⟩
  rw [run_eq] at h
  simp only [Act.zero, beq_iff_eq] at h
  split at h
  · cases h
  · next hi =>
    refine ⟨hi, ?_⟩
    cases hm : mapText mt with
    | some x => rfl
    | none =>
      simp only [Act.ops, Act.vals, hm, Act.names] at h
      cases fp with
      | none =>
        obtain ⟨c1, h1, h2⟩ := run_cons_ok h
        simp [step] at h1
      | some f =>
        obtain ⟨c0, h0, h⟩ := run_cons_ok h
        obtain ⟨c1, h1, h2⟩ := run_cons_ok h
        simp [step] at h1

theorem apply_types {a : Act} {w : Option Want} (hm : ∀ i fp mt n, a = .ctn i fp mt n → (mapText mt).isSome)
    (h : ∀ w', w = some w' → ∀ i x, w'.ctn i = some x → x.mt < 6) {w1 : Want} (h1 : a.apply w = some w1) {i : Nat} {x : Entry} (hx : w1.ctn i = some x) :
    x.mt < 6 := by
  have hd : ∀ i x, (w.getD .empty).ctn i = some x → x.mt < 6 := by
    intro i x hx
    cases w with
    | none => cases hx
    | some w' => exact h w' rfl i x hx
  cases a with
  | ctn j fp mt n =>
    simp only [Act.apply, Option.some.injEq] at h1
    subst h1
    simp only [Want.setCtn] at hx
    split at hx
    · cases hx; exact map_lt.mp (hm j fp mt n rfl)
    · exact hd _ _ hx
  | delCtn j =>
    obtain ⟨y, rfl, rfl⟩ := Option.map_eq_some_iff.mp h1
    simp only [Want.setCtn] at hx
    split at hx
    · cases hx
    · exact h _ rfl _ _ hx
  | delEndpt => cases h1
  | delCert | delKs | delTrust | delBag | delRef =>
    obtain ⟨y, rfl, rfl⟩ := Option.map_eq_some_iff.mp h1
    exact h _ rfl _ _ hx
  | _ =>
    simp only [Act.apply, Option.some.injEq] at h1
    subst h1
    exact hd _ _ hx

theorem inv_call {S : Schema} {cfg cfg' : Config} {c : Call} {pre : List Call} (hc : c.good)
    (hi : Inv (cfg.getD []) (wanted pre)) (h : c.run S cfg = (true, cfg')) : ∃ t', cfg' = some t' ∧ Inv t' (wanted (pre ++ [c])) := by
  obtain ⟨t', rfl, hs, hv⟩ := call_view hc hi.sound h
  have hm := fun i fp mt n hh => (run_map h i fp mt n hh).2
  refine ⟨t', rfl, hs, fun e => ?_, ?_⟩
  · rw [wanted_snoc]
    by_cases hu : e = c.endpt
    · rw [if_pos hu.symm]
      intro r
      have := edits_img c.act _ _ hm (hi.is e) r
      dsimp only
      rw [hv, if_pos hu]
      exact this
    · rw [if_neg (Ne.symm hu)]
      intro r
      dsimp only
      rw [hv, if_neg hu]
      exact hi.is e r
  · intro e w i x hw hx
    rw [wanted_snoc] at hw
    split at hw
    · exact apply_types hm (fun w' hw' i x hx => hi.types e w' i x hw' hx) hw hx
    · exact hi.types e w i x hw hx

theorem inv_build (S : Schema) : ∀ (post pre : List Call) (cfg cfg' : Config), (∀ c ∈ post, c.good) →
    Inv (cfg.getD []) (wanted pre) → build S post cfg = (true, cfg') → Inv (cfg'.getD []) (wanted (pre ++ post))
  | [], pre, cfg, cfg', _, hi, h => by
    simp only [build, Prod.mk.injEq, true_and] at h
    subst h
    rwa [List.append_nil]
  | c :: post, pre, cfg, cfg', hg, hi, h => by
    rw [build] at h
    cases hr : c.run S cfg with
    | mk b c1 =>
      rw [hr] at h
      cases b with
      | false => simp at h
      | true =>
        obtain ⟨t', rfl, hi'⟩ := inv_call (hg c (.head _)) hi hr
        have := inv_build S post (pre ++ [c]) (some t') cfg' (fun x hx => hg x (.tail _ hx)) hi' h
        rwa [List.append_assoc] at this

/-! ## Reading the data -/

open Verif.ConfTls (IdConf CertsData CertsConf AuthData AuthConf TlsData TlsConf CtnConf CtnEdit)
open Verif.ConfStore (Tree Label Map Edit patchAll)
open Verif.TlsLogin (End EndConf EndSafe)

theorem crtName_some {e : Text} {g : Bool} {p : Path} {n : Text} : crtName e g p = some n ↔ p = ep e ++ (R.crt g n).path := by
  constructor
  · intro h
    unfold crtName at h
    split at h
    · split at h
      · next hp => rw [Option.some.injEq] at h; subst h; exact hp
      · cases h
    · cases h
  · rintro rfl
    unfold crtName
    show (if ep e ++ (R.crt g n).path = ep e ++ (R.crt g n).path then some n else none) = some n
    rw [if_pos rfl]

theorem ctnId_some {e : Text} {p : Path} {n : Text} : ctnId e p = some n ↔ p = ep e ++ (R.ctn n).path := by
  constructor
  · intro h
    unfold ctnId at h
    split at h
    · split at h
      · next hp => rw [Option.some.injEq] at h; subst h; exact hp
      · cases h
    · cases h
  · rintro rfl
    unfold ctnId
    show (if ep e ++ (R.ctn n).path = ep e ++ (R.ctn n).path then some n else none) = some n
    rw [if_pos rfl]

theorem Inv.at {t : List Node} {m : Text → Option Want} (hi : Inv t m) (e : Text) (r : R) : view t (ep e ++ r.path) = img (m e) r := hi.is e r

theorem Inv.name {t : List Node} {m : Text → Option Want} (hi : Inv t m) (e : Text) : e ∈ ConfUse.names t ↔ (m e).isSome := by
  rw [ConfUse.mem_names, view_found]
  have := hi.at e .ep
  rw [show ep e ++ R.ep.path = ep e from List.append_nil _] at this
  rw [this, img, Option.isSome_map]

theorem Inv.crt {t : List Node} {m : Text → Option Want} (hi : Inv t m) {e : Text} {w : Want} {g : Bool} {l : Text → Option Text} (hw : m e = some w)
    (hc : w.certs g = some (.inline l)) (k : Text) : k ∈ crts e g t ↔ (l k).isSome := by
  rw [crts, List.mem_filterMap]
  simp only [crtName_some]
  rw [← found_iff, view_found, hi.at, img, hw]
  simp [hc]

theorem Inv.ctn {t : List Node} {m : Text → Option Want} (hi : Inv t m) {e : Text} {w : Want} (hw : m e = some w) (n : Text) :
    n ∈ ctnIds e t ↔ (entryAt w.ctn n).isSome := by
  rw [ctnIds, List.mem_filterMap]
  simp only [ctnId_some]
  rw [← found_iff, view_found, hi.at, img, hw]
  simp

theorem leaf_at {t : List Node} {m : Text → Option Want} (hi : Inv t m) (e : Text) (r : R) (l : Label) (f : Text → Nat) {v : Text}
    (h : (img (m e) r).join = some v) : leafAt t l f (ep e ++ r.path) = [leafOf l (f v)] := by
  rw [leafAt, view_value, hi.at, h]
  rfl

/-- The identity with numbers for texts. -/
def idConf (C : Text → Nat) : Ident → IdConf
  | .inline pub pf priv crt => .inline (some 1) (some (C pub)) (privCode pf) (C priv) (some (C crt))
  | .keystore k c => .ref (C k) (C c)

theorem Inv.idTrees {t : List Node} {m : Text → Option Want} (hi : Inv t m) (C : Text → Nat) {e : Text} {w : Want} {i : Ident} (hw : m e = some w)
    (hid : w.id = some i) : idTreesOf C e t = (idConf C i).trees := by
  have h1 := hi.at e .idInl
  have h2 := hi.at e .kref
  rw [hw] at h1 h2
  unfold idTreesOf
  rw [view_found, view_found, show ep e ++ idInline = ep e ++ R.idInl.path from rfl, show ep e ++ idRef = ep e ++ R.kref.path from rfl, h1, h2, img, img]
  have lf : ∀ a, (img (m e) (.idl a)).join = i.leaf a := by
    intro a
    rw [img, hw]
    cases h : i.leaf a <;> simp [hid, h]
  have lk : ∀ a, (img (m e) (.krl a)).join = i.kleaf a := by
    intro a
    rw [img, hw]
    cases h : i.kleaf a <;> simp [hid, h]
  cases i with
  | inline pub pf priv crt =>
    simp only [Option.bind_some, hid, Option.isSome_some, if_true]
    rw [show ep e ++ (idInline ++ [seg t!"public-key-format"]) = ep e ++ (R.idl .pubFmt).path from rfl,
      show ep e ++ (idInline ++ [seg t!"public-key"]) = ep e ++ (R.idl .pub).path from rfl,
      show ep e ++ (idInline ++ [seg t!"private-key-format"]) = ep e ++ (R.idl .privFmt).path from rfl,
      show ep e ++ (idInline ++ [seg t!"cleartext-private-key"]) = ep e ++ (R.idl .priv).path from rfl,
      show ep e ++ (idInline ++ [seg t!"cert-data"]) = ep e ++ (R.idl .crt).path from rfl,
      leaf_at hi e (.idl .pubFmt) _ _ (lf _), leaf_at hi e (.idl .pub) _ _ (lf _), leaf_at hi e (.idl .privFmt) _ _ (lf _),
      leaf_at hi e (.idl .priv) _ _ (lf _), leaf_at hi e (.idl .crt) _ _ (lf _)]
    have hf : ConfUserUse.fmtCode fmtText = 1 := by decide +kernel
    rw [hf]
    rfl
  | keystore k c =>
    simp only [Option.bind_some, hid, Option.isSome_some, Option.isSome_none, if_true, Bool.false_eq_true, if_false]
    rw [show ep e ++ (idRef ++ [seg t!"asymmetric-key"]) = ep e ++ (R.krl .key).path from rfl,
      show ep e ++ (idRef ++ [seg t!"certificate"]) = ep e ++ (R.krl .crt).path from rfl,
      leaf_at hi e (.krl .key) _ _ (lk _), leaf_at hi e (.krl .crt) _ _ (lk _)]
    rfl

/-- Trusted certificates as data. -/
def certsData (C : Text → Nat) (e : Text) (g : Bool) (t : List Node) : Certs → CertsData
  | .inline l => .inline ((crts e g t).map (fun k => (C k, C ((l k).getD []))))
  | .bag b => .bag (C b)

theorem Inv.grpTrees {t : List Node} {m : Text → Option Want} (hi : Inv t m) (C : Text → Nat) {e : Text} {w : Want} (hw : m e = some w) (g : Bool) :
    ConfTlsUse.grpTrees C e g t = match (w.certs g).map (certsData C e g t) with
      | none => []
      | some x => [.node (grpLabel g) 0 .absent x.trees] := by
  have h1 := hi.at e (.inl g)
  have h2 := hi.at e (.bag g)
  rw [hw] at h1 h2
  unfold ConfTlsUse.grpTrees
  rw [view_found, view_value, show ep e ++ (grp g ++ [seg t!"inline-definition"]) = ep e ++ (R.inl g).path from rfl,
    show ep e ++ (grp g ++ [seg t!"central-truststore-reference"]) = ep e ++ (R.bag g).path from rfl, h1, h2, img, img]
  cases hc : w.certs g with
  | none => simp [hc]
  | some c =>
    cases c with
    | bag b => simp [hc, certsData, CertsData.trees]; rfl
    | inline l =>
      simp only [hc, Option.bind_some, Option.isSome_some, if_true, Option.map_some, certsData, CertsData.trees, ConfTls.certsTree, List.map_map]
      congr 2
      congr 2
      refine List.map_congr_left (fun k hkm => ?_)
      obtain ⟨d, hd⟩ := Option.isSome_iff_exists.mp ((hi.crt hw hc k).mp hkm)
      unfold crtTree
      rw [show ep e ++ (grp g ++ [seg t!"inline-definition", crtSeg k, seg t!"cert-data"]) = ep e ++ (R.dat g k).path from rfl,
        leaf_at hi e (.dat g k) _ _ (v := d) (by rw [img, hw]; simp [hc, hd])]
      simp only [hd, Option.getD_some, Function.comp_apply]
      rfl

/-- The TLS parameters as data. -/
def dataOf (C : Text → Nat) (e : Text) (t : List Node) (w : Want) (i : Ident) : TlsData :=
  ⟨idConf C i, some ⟨(w.certs false).map (certsData C e false t), (w.certs true).map (certsData C e true t)⟩, []⟩

theorem Inv.tree {t : List Node} {m : Text → Option Want} (hi : Inv t m) (C : Text → Nat) {e : Text} {w : Want} {i : Ident} (hw : m e = some w)
    (hid : w.id = some i) : tlsTreeOf C e t = (dataOf C e t w i).tree := by
  unfold tlsTreeOf TlsData.tree
  rw [hi.idTrees C hw hid, hi.grpTrees C hw, hi.grpTrees C hw]
  simp only [dataOf, AuthData.trees, List.map_nil, List.cons_append, List.nil_append]
  cases (w.certs false).map (certsData C e false t) <;> cases (w.certs true).map (certsData C e true t) <;> rfl

/-! ## Their meaning -/

/-- Trusted certificates with numbers for texts: `T` is what they stand for. -/
def certsConf (C : Text → Nat) (T : Nat → Text) : Certs → CertsConf
  | .inline l => .inline (fun n => (l (T n)).map C)
  | .bag b => .bag (C b)

/-- The endpoint wanted with numbers for texts. -/
def confOf (C : Text → Nat) (T : Nat → Text) (w : Want) (i : Ident) : EndConf :=
  ⟨⟨idConf C i, some ⟨(w.certs false).map (certsConf C T), (w.certs true).map (certsConf C T)⟩, fun _ => false⟩,
    fun j => (w.ctn j).map (fun x => ⟨x.mt, if x.mt = 0 then some (C x.name) else none, x.fp.map C⟩)⟩

theorem crts_nodup {e : Text} {g : Bool} {t : List Node} (h : (t.map Node.path).Nodup) : (crts e g t).Nodup := filterMap_nodup (fun _ _ => crtName_some) h
theorem ctnIds_nodup {e : Text} {t : List Node} (h : (t.map Node.path).Nodup) : (ctnIds e t).Nodup := filterMap_nodup (fun _ _ => ctnId_some) h

theorem Inv.certs {t : List Node} {m : Text → Option Want} (hi : Inv t m) {C : Text → Nat} {T : Nat → Text} (hT : ∀ t, T (C t) = t) (hC : ∀ n, C (T n) = n)
    {e : Text} {w : Want} (hw : m e = some w) (g : Bool) {c : Certs} (hc : w.certs g = some c) : (certsData C e g t c).conf = some (certsConf C T c) := by
  cases c with
  | bag b => rfl
  | inline l =>
    simp only [certsData, CertsData.conf, certsConf]
    obtain ⟨m', g1, g2, g3⟩ := patch_creates (some : Nat → Option Nat) (fun _ d => some d)
      ((crts e g t).map (fun k => (C k, C ((l k).getD [])))) (fun _ => none)
      (by rw [List.map_map]; exact map_nodup hT (crts_nodup hi.sound.nodup))
      (fun q _ => ⟨rfl, rfl⟩)
    rw [ConfStore.certMap, ConfStore.patchCerts, g1]
    simp only [Option.map_some, Option.some.injEq, CertsConf.inline.injEq]
    funext n
    cases hd : l (T n) with
    | none =>
      rw [g3 n]
      · rfl
      · rintro q hq rfl
        obtain ⟨k, hkm, rfl⟩ := List.mem_map.mp hq
        have := (hi.crt hw hc k).mp hkm
        dsimp only at hd
        rw [hT] at hd
        rw [hd] at this
        cases this
    | some d =>
      have hkm : T n ∈ crts e g t := (hi.crt hw hc _).mpr (by rw [hd]; rfl)
      have := g2 _ (List.mem_map.mpr ⟨T n, hkm, rfl⟩)
      dsimp only at this
      rw [hC, hd] at this
      rw [this]
      rfl

/-- The identity is valid. -/
def IdOk (spki : Nat → Bool) (C : Text → Nat) : Ident → Prop
  | .inline pub pf _ _ => pf ∈ privFormats.map String.toList ∧ spki (C pub) = true
  | .keystore _ _ => True

theorem priv_code : ∀ pf ∈ privFormats.map String.toList, (privFormats[privCode pf]?).map String.toList = some pf ∧ ConfStore.privOk (privCode pf) = true := by
  decide +kernel

theorem idConf_valid {spki : Nat → Bool} {C : Text → Nat} {i : Ident} (h : IdOk spki C i) : (idConf C i).valid spki = true := by
  cases i with
  | keystore k c => rfl
  | inline pub pf priv crt =>
    simp [idConf, IdConf.valid, h.2, (priv_code pf h.1).2]

theorem Inv.conf {t : List Node} {m : Text → Option Want} (hi : Inv t m) {C : Text → Nat} {T : Nat → Text} (hT : ∀ t, T (C t) = t) (hC : ∀ n, C (T n) = n)
    (spki : Nat → Bool) {e : Text} {w : Want} {i : Ident} (hw : m e = some w) (hok : IdOk spki C i) :
    (dataOf C e t w i).conf spki = some (confOf C T w i).tls := by
  have hg := fun g c (hc : w.certs g = some c) => hi.certs hT hC hw g hc
  unfold TlsData.conf dataOf confOf
  simp only [idConf_valid hok, if_true, ConfTls.AuthEdit.apply, AuthData.conf, List.map_nil, ConfTls.patchVersions]
  cases h0 : w.certs false <;> cases h1 : w.certs true
  · rfl
  · simp only [Option.map_some, Option.map_none, ConfTls.CertsEdit.apply, hg _ _ h1]
  · simp only [Option.map_some, Option.map_none, ConfTls.CertsEdit.apply, hg _ _ h0]
  · simp only [Option.map_some, ConfTls.CertsEdit.apply, hg _ _ h0, hg _ _ h1]

/-! ## cert-to-name entries -/

theorem map_code : ∀ mt < 6, ((mapText mt).map mapCode).getD 6 = mt := by decide +kernel

/-- The edit that creates an entry. -/
def ctnEd (C : Text → Nat) (w : Want) (n : Text) : CtnEdit :=
  let x := (entryAt w.ctn n).getD ⟨none, 1, []⟩
  .create (Nat.ofDigitChars 10 n 0) ⟨x.mt, if x.mt = 0 then some (C x.name) else none, x.fp.map C⟩

theorem ctnNode_name (l : List Ctn.Ctn) (i mt c : Nat) (fp : Option Nat) :
    ConfTls.ctnNode l (.create i mt (some c) fp) = ConfTls.ctnNode l (.create i mt (if mt = 0 then some c else none) fp) := by
  by_cases h : mt = 0
  · subst h; rfl
  · simp [ConfTls.ctnNode, h]

theorem Inv.entry {t : List Node} {m : Text → Option Want} (hi : Inv t m) (C : Text → Nat) {e : Text} {w : Want} (hw : m e = some w) {n : Text}
    (hn : n ∈ ctnIds e t) (l : List Ctn.Ctn) : ConfTls.ctnNode l (ctnOf C e t n) = ConfTls.ctnNode l (ConfTls.ctnEdit (ctnEd C w n)) := by
  obtain ⟨x, hx⟩ := Option.isSome_iff_exists.mp ((hi.ctn hw n).mp hn)
  have hmt : x.mt < 6 := by
    unfold entryAt at hx
    split at hx
    · exact hi.types e w _ x hw hx
    · cases hx
  have lf : ∀ a, valueAt t (ep e ++ (R.ctl n a).path) = x.leaf a := by
    intro a
    rw [view_value, hi.at, img, hw]
    cases h : x.leaf a <;> simp [hx, h]
  unfold ctnOf
  rw [show ep e ++ (ctnPath n ++ [seg t!"map-type"]) = ep e ++ (R.ctl n .mt).path from rfl,
    show ep e ++ (ctnPath n ++ [seg t!"name"]) = ep e ++ (R.ctl n .name).path from rfl,
    show ep e ++ (ctnPath n ++ [seg t!"fingerprint"]) = ep e ++ (R.ctl n .fp).path from rfl, lf, lf, lf]
  simp only [Entry.leaf, map_code x.mt hmt, Option.map_some, ctnEd, hx, Option.getD_some, ConfTls.ctnEdit]
  exact ctnNode_name _ _ _ _ _

theorem nodes_congr {α : Type} {f g : α → ConfTls.CtnNode} : ∀ {ns : List α} (l : List Ctn.Ctn), (∀ n ∈ ns, ∀ l, ConfTls.ctnNode l (f n) = ConfTls.ctnNode l (g n)) →
    ConfTls.ctnNodes (ns.map f) l = ConfTls.ctnNodes (ns.map g) l
  | [], _, _ => rfl
  | n :: ns, l, h => by
    simp only [List.map_cons, ConfTls.ctnNodes, h n (.head _)]
    split
    · exact nodes_congr _ (fun x hx => h x (.tail _ hx))
    · rfl

theorem entry_digits {m : Nat → Option Entry} {n : Text} (h : (entryAt m n).isSome) : Nat.toDigits 10 (Nat.ofDigitChars 10 n 0) = n := by
  unfold entryAt at h
  split at h
  · assumption
  · cases h

theorem Inv.ctns {t : List Node} {m : Text → Option Want} (hi : Inv t m) (C : Text → Nat) (T : Nat → Text) {e : Text} {w : Want} (i : Ident) (hw : m e = some w) :
    ConfTls.patchCtns (fun _ => none) ((ctnIds e t).map (ctnEd C w)) = some (confOf C T w i).ctn := by
  let xs : List (Nat × CtnConf) := (ctnIds e t).map (fun n => (Nat.ofDigitChars 10 n 0, match entryAt w.ctn n with
    | some x => ⟨x.mt, if x.mt = 0 then some (C x.name) else none, x.fp.map C⟩
    | none => ⟨1, none, none⟩))
  have hxs : (ctnIds e t).map (ctnEd C w) = xs.map (fun q => Edit.create q.1 q.2) := by
    simp only [xs, List.map_map]
    refine List.map_congr_left (fun n hn => ?_)
    obtain ⟨x, hx⟩ := Option.isSome_iff_exists.mp ((hi.ctn hw n).mp hn)
    simp [ctnEd, hx]
  have hnd : (xs.map Prod.fst).Nodup := by
    simp only [xs, List.map_map]
    rw [List.nodup_iff_pairwise_ne, List.pairwise_map]
    refine (ctnIds_nodup hi.sound.nodup).imp_of_mem (fun {a b} ha hb hne h => hne ?_)
    dsimp only [Function.comp_apply] at h
    rw [← entry_digits ((hi.ctn hw a).mp ha), ← entry_digits ((hi.ctn hw b).mp hb), h]
  obtain ⟨m', g1, g2, g3⟩ := patch_creates (fun c : CtnConf => if c.valid then some c else none) CtnConf.change xs (fun _ => none) hnd (by
    intro q hq
    refine ⟨rfl, ?_⟩
    obtain ⟨n, hn, rfl⟩ := List.mem_map.mp hq
    obtain ⟨x, hx⟩ := Option.isSome_iff_exists.mp ((hi.ctn hw n).mp hn)
    have hmt : x.mt < 6 := by
      unfold entryAt at hx
      split at hx
      · exact hi.types e w _ x hw hx
      · cases hx
    by_cases h0 : x.mt = 0 <;> simp [hx, CtnConf.valid, hmt, h0])
  rw [hxs, ConfTls.patchCtns, g1]
  congr 1
  funext j
  simp only [confOf]
  cases hj : w.ctn j with
  | none =>
    rw [g3 j]
    · rfl
    · rintro q hq rfl
      obtain ⟨n, hn, rfl⟩ := List.mem_map.mp hq
      have h1 := (hi.ctn hw n).mp hn
      have h2 := entry_digits h1
      rw [← h2, entryAt_own] at h1
      dsimp only at hj
      rw [hj] at h1
      cases h1
  | some x =>
    have hn : Nat.toDigits 10 j ∈ ctnIds e t := (hi.ctn hw _).mpr (by rw [entryAt_own, hj]; rfl)
    have := g2 _ (List.mem_map.mpr ⟨_, hn, rfl⟩)
    simp only [digits_back, entryAt_own, hj] at this
    rw [this]
    have hmt := hi.types e w j x hw hj
    by_cases h0 : x.mt = 0 <;> simp [CtnConf.valid, hmt, h0]

/-- The endpoint is set up as wanted. -/
theorem Inv.endpt {t : List Node} {m : Text → Option Want} (hi : Inv t m) {C : Text → Nat} {T : Nat → Text} (hT : ∀ t, T (C t) = t) (hC : ∀ n, C (T n) = n)
    (spki : Nat → Bool) {e : Text} {w : Want} {i : Ident} (hw : m e = some w) (hid : w.id = some i) (hok : IdOk spki C i) :
    ∃ x, endOf spki C e t = some x ∧ EndSafe spki x (confOf C T w i) := by
  have hc := hi.conf hT hC spki hw hok
  obtain ⟨s, h1, -⟩ := Props.tls_setup spki _ _ hc
  have ho : ConfTls.onlyFingerprints ((ctnIds e t).map (ctnEd C w)) := by
    intro k ed hm
    obtain ⟨n, -, hn⟩ := List.mem_map.mp hm
    cases hn
  obtain ⟨l, h2, -⟩ := Props.ctn_follows_diffs_partial _ _ ho (hi.ctns C T i hw)
  have h3 : ConfTls.ctnNodes ((ctnIds e t).map (ctnOf C e t)) [] = some l := by
    rw [nodes_congr (g := fun n => ConfTls.ctnEdit (ctnEd C w n)) [] (fun n hn l => hi.entry C hw hn l), ← h2, List.map_map]
    rfl
  refine ⟨⟨s, l⟩, ?_, ⟨_, [], _, hc, rfl, h1⟩, _, ho, hi.ctns C T i hw, h2⟩
  unfold endOf
  rw [hi.tree C hw hid, h1, h3]

theorem endsOf_some {spki : Nat → Bool} {C : Text → Nat} {t : List Node} : ∀ {es : List Text}, (∀ e ∈ es, (endOf spki C e t).isSome) →
    ∃ l, endsOf spki C t es = some l ∧ ∀ e, endptOf l e = if e ∈ es then endOf spki C e t else none
  | [], _ => ⟨[], rfl, fun e => by simp [endptOf]⟩
  | a :: es, h => by
    obtain ⟨x, hx⟩ := Option.isSome_iff_exists.mp (h a (.head _))
    obtain ⟨l, h1, h2⟩ := endsOf_some (es := es) (fun e he => h e (.tail _ he))
    refine ⟨(a, x) :: l, by simp only [endsOf, hx, h1], fun e => ?_⟩
    by_cases he : a = e
    · subst he
      simp [endptOf, hx]
    · have := h2 e
      simp only [endptOf] at this
      simp only [endptOf, List.find?_cons, he, decide_false, this, List.mem_cons, Ne.symm he, false_or]

/-- All endpoints are set up as wanted. -/
theorem Inv.setUp {t : List Node} {m : Text → Option Want} (hi : Inv t m) {C : Text → Nat} {T : Nat → Text} (hT : ∀ t, T (C t) = t) (hC : ∀ n, C (T n) = n)
    (spki : Nat → Bool) (hid : ∀ e w, m e = some w → ∃ i, w.id = some i ∧ IdOk spki C i) :
    ∃ l, ConfTlsUse.setUp spki C t = some l ∧ (∀ e, m e = none → endptOf l e = none) ∧
      ∀ e w i, m e = some w → w.id = some i → ∃ x, endptOf l e = some x ∧ EndSafe spki x (confOf C T w i) := by
  obtain ⟨l, h1, h2⟩ := endsOf_some (spki := spki) (C := C) (t := t) (es := ConfUse.names t) (by
    intro e he
    obtain ⟨w, hw⟩ := Option.isSome_iff_exists.mp ((hi.name e).mp he)
    obtain ⟨i, g1, g2⟩ := hid e w hw
    obtain ⟨x, hx, -⟩ := hi.endpt hT hC spki hw g1 g2
    rw [hx]; rfl)
  refine ⟨l, h1, fun e he => ?_, fun e w i hw hi' => ?_⟩
  · rw [h2, if_neg]
    intro hm
    have := (hi.name e).mp hm
    rw [he] at this
    cases this
  · rw [h2, if_pos ((hi.name e).mpr (by rw [hw]; rfl))]
    obtain ⟨i', g1, g2⟩ := hid e w hw
    rw [hi'] at g1
    cases g1
    exact hi.endpt hT hC spki hw hi' g2

theorem Inv.refOf {t : List Node} {m : Text → Option Want} (hi : Inv t m) {e : Text} {w : Want} (hw : m e = some w) (l : List (Text × End)) :
    ConfTlsUse.refOf l e t = w.ref.map (endptOf l) := by
  unfold ConfTlsUse.refOf
  rw [view_value, show ep e ++ refPath = ep e ++ R.ref.path from rfl, hi.at, img, hw]
  cases h : w.ref <;> simp [h]

/-! ## Login by what is wanted -/

open Verif.TlsLogin (Vals CertIn CaConfigured EeConfigured NameByConf FpsUsable entryConf RefAs)
open Verif.ConfStore (TsConf)
open Verif.TlsAuth (Cert)

theorem certIn_iff {v : Vals} {C : Text → Nat} (hT : ∀ t, v.text (C t) = t) (tc : TsConf) (o : Option Certs) (d : Nat) :
    CertIn tc (o.map (certsConf C v.text)) d ↔ CertOf tc C o d := by
  match o with
  | none => exact Iff.rfl
  | some (.bag b) => exact Iff.rfl
  | some (.inline l) =>
    simp only [Option.map_some, certsConf, CertIn, CertOf]
    constructor
    · rintro ⟨k, h⟩
      obtain ⟨x, h1, h2⟩ := Option.map_eq_some_iff.mp h
      exact ⟨_, x, h1, h2.symm⟩
    · rintro ⟨k, x, h1, rfl⟩
      exact ⟨C k, by rw [hT, h1]; rfl⟩

/-- The certificates of the configuration of an endpoint wanted. -/
theorem conf_certs (C : Text → Nat) (T : Nat → Text) (w : Want) (i : Ident) :
    (confOf C T w i).tls.auth.bind AuthConf.ca = (w.certs false).map (certsConf C T) ∧
    (confOf C T w i).tls.auth.bind AuthConf.ee = (w.certs true).map (certsConf C T) := ⟨rfl, rfl⟩

theorem entry_conf {v : Vals} {C : Text → Nat} (hT : ∀ t, v.text (C t) = t) (x : Entry) :
    entryConf v ⟨x.mt, if x.mt = 0 then some (C x.name) else none, x.fp.map C⟩ = x.ctn := by
  unfold entryConf Entry.ctn
  have h1 : (x.fp.map C).map v.text = x.fp := by cases x.fp <;> simp [hT]
  have h2 : (if x.mt = 0 then some (C x.name) else none).map v.text = if x.mt = 0 then some x.name else none := by
    split
    · rw [Option.map_some, hT]
    · rfl
  simp only [h1, h2]

/-- Endpoints wanted and their configurations. -/
inductive Confs (C : Text → Nat) (T : Nat → Text) : List Want → List EndConf → Prop where
  | nil : Confs C T [] []
  | cons (w : Want) (i : Ident) {ws : List Want} {cs : List EndConf} : Confs C T ws cs → Confs C T (w :: ws) (confOf C T w i :: cs)

theorem Confs.left {C : Text → Nat} {T : Nat → Text} {ws : List Want} {cs : List EndConf} (h : Confs C T ws cs) : ∀ w ∈ ws, ∃ i, confOf C T w i ∈ cs := by
  induction h with
  | nil => intro w hw; cases hw
  | cons w i _ ih =>
    intro x hx
    rcases List.mem_cons.mp hx with rfl | hx
    · exact ⟨i, .head _⟩
    · obtain ⟨j, hj⟩ := ih x hx
      exact ⟨j, .tail _ hj⟩

theorem Confs.right {C : Text → Nat} {T : Nat → Text} {ws : List Want} {cs : List EndConf} (h : Confs C T ws cs) : ∀ c ∈ cs, ∃ w ∈ ws, ∃ i, c = confOf C T w i := by
  induction h with
  | nil => intro w hw; cases hw
  | cons w i _ ih =>
    intro x hx
    rcases List.mem_cons.mp hx with rfl | hx
    · exact ⟨w, .head _, i, rfl⟩
    · obtain ⟨w', hw', j, hj⟩ := ih x hx
      exact ⟨w', .tail _ hw', j, hj⟩

theorem Confs.split {C : Text → Nat} {T : Nat → Text} {cs : List EndConf} {ws : List Want} (h : Confs C T ws cs) : ∀ {pre : List EndConf} {c : EndConf} {post : List EndConf},
    cs = pre ++ c :: post → ∃ pre' w post' i, ws = pre' ++ w :: post' ∧ c = confOf C T w i ∧ Confs C T pre' pre := by
  induction h with
  | nil => intro pre c post h; simp at h
  | cons w i hr ih =>
    intro pre c post h
    cases pre with
    | nil =>
      simp only [List.nil_append, List.cons.injEq] at h
      exact ⟨[], w, _, i, rfl, h.1.symm, .nil⟩
    | cons p pre =>
      simp only [List.cons_append, List.cons.injEq] at h
      obtain ⟨pre', w', post', j, h1, h2, h3⟩ := ih h.2
      exact ⟨w :: pre', w', post', j, by rw [h1]; rfl, h2, h.1 ▸ .cons w i h3⟩

theorem Confs.split' {C : Text → Nat} {T : Nat → Text} {cs : List EndConf} {ws : List Want} (h : Confs C T ws cs) : ∀ {pre : List Want} {w : Want} {post : List Want},
    ws = pre ++ w :: post → ∃ pre' i post', cs = pre' ++ confOf C T w i :: post' ∧ Confs C T pre pre' := by
  induction h with
  | nil => intro pre c post h; simp at h
  | cons w i hr ih =>
    intro pre c post h
    cases pre with
    | nil =>
      simp only [List.nil_append, List.cons.injEq] at h
      obtain ⟨rfl, -⟩ := h
      exact ⟨[], i, _, rfl, .nil⟩
    | cons p pre =>
      simp only [List.cons_append, List.cons.injEq] at h
      obtain ⟨pre', j, post', h1, h2⟩ := ih h.2
      obtain ⟨rfl, -⟩ := h
      exact ⟨_ :: pre', j, post', by rw [h1]; rfl, .cons w i h2⟩

variable {v : Vals} {C : Text → Nat} (hT : ∀ t, v.text (C t) = t) {ws : List Want} {cs : List EndConf} (h : Confs C v.text ws cs)
include hT h

theorem ca_iff (tc : TsConf) (x : Cert) : CaConfigured v tc cs x ↔ CaWanted v tc C ws x := by
  constructor
  · rintro ⟨c, hc, d, h1, h2⟩
    obtain ⟨w, hw, i, rfl⟩ := h.right c hc
    exact ⟨w, hw, d, (certIn_iff hT tc _ d).mp h1, h2⟩
  · rintro ⟨w, hw, d, h1, h2⟩
    obtain ⟨i, hi⟩ := h.left w hw
    exact ⟨_, hi, d, (certIn_iff hT tc _ d).mpr h1, h2⟩

theorem ee_iff (tc : TsConf) (x : Cert) : EeConfigured v tc cs x ↔ EeWanted v tc C ws x := by
  constructor
  · rintro ⟨c, hc, d, y, h1, h2⟩
    obtain ⟨w, hw, i, rfl⟩ := h.right c hc
    exact ⟨w, hw, d, y, (certIn_iff hT tc _ d).mp h1, h2⟩
  · rintro ⟨w, hw, d, y, h1, h2⟩
    obtain ⟨i, hi⟩ := h.left w hw
    exact ⟨_, hi, d, y, (certIn_iff hT tc _ d).mpr h1, h2⟩

theorem name_iff (chain : List Cert) (u : Text) : NameByConf v cs chain u ↔ NameWanted ws chain u := by
  have back : ∀ {w : Want} {i : Ident} {j : Nat} {f : CtnConf}, (confOf C v.text w i).ctn j = some f → ∃ x, w.ctn j = some x ∧ entryConf v f = x.ctn := by
    intro w i j f hf
    obtain ⟨x, h1, h2⟩ := Option.map_eq_some_iff.mp hf
    exact ⟨x, h1, by rw [← h2]; exact entry_conf hT x⟩
  have forth : ∀ {w : Want} (i : Ident) {j : Nat} {x : Entry}, w.ctn j = some x → ∃ f, (confOf C v.text w i).ctn j = some f ∧ entryConf v f = x.ctn := by
    intro w i j x hx
    exact ⟨_, by simp only [confOf, hx]; rfl, entry_conf hT x⟩
  constructor
  · rintro ⟨pre, c, post, j, f, h1, h2, h3, h4, cpre, x, cpost, h5, h6, h7⟩
    obtain ⟨pre', w, post', i, g1, rfl, g2⟩ := h.split h1
    obtain ⟨y, hy, e1⟩ := back h2
    refine ⟨pre', w, post', j, y, g1, hy, ?_, ?_, cpre, x, cpost, h5, ?_, ?_⟩
    · intro d hd k f' hf' z hz n
      obtain ⟨i', hi'⟩ := g2.left d hd
      obtain ⟨f2, k1, k2⟩ := forth i' hf'
      rw [← k2]
      exact h3 _ hi' k f2 k1 z hz n
    · intro k f' hk hf' z hz n
      obtain ⟨f2, k1, k2⟩ := forth i hf'
      rw [← k2]
      exact h4 k f2 hk k1 z hz n
    · rw [← e1]; exact h6
    · rw [← e1]; exact h7
  · rintro ⟨pre, w, post, j, y, h1, h2, h3, h4, cpre, x, cpost, h5, h6, h7⟩
    obtain ⟨pre', i, post', g1, g2⟩ := h.split' h1
    obtain ⟨f, hf, e1⟩ := forth i h2
    refine ⟨pre', _, post', j, f, g1, hf, ?_, ?_, cpre, x, cpost, h5, ?_, ?_⟩
    · intro d hd k f' hf' z hz n
      obtain ⟨w', hw', i', rfl⟩ := g2.right d hd
      obtain ⟨y', k1, k2⟩ := back hf'
      rw [k2]
      exact h3 w' hw' k y' k1 z hz n
    · intro k f' hk hf' z hz n
      obtain ⟨y', k1, k2⟩ := back hf'
      rw [k2]
      exact h4 k y' hk k1 z hz n
    · rw [e1]; exact h6
    · rw [e1]; exact h7

theorem fps_of (hf : FpsOk ws) : FpsUsable v cs := by
  intro c hc j f hf'
  obtain ⟨w, hw, i, rfl⟩ := h.right c hc
  obtain ⟨x, h1, h2⟩ := Option.map_eq_some_iff.mp hf'
  rw [← h2]
  rw [show entryConf v ⟨x.mt, if x.mt = 0 then some (C x.name) else none, x.fp.map C⟩ = x.ctn from entry_conf hT x]
  exact hf w hw j x h1

omit hT h

/-! ## Calls that succeed -/

open Verif.ConfUserUse (Takes Ready adds found_top step_view)

theorem ep_top (e : Text) (s : Path) : ConfUtil.top <+: ep e ++ s := ⟨(ep e).tail ++ s, rfl⟩

theorem free_top {t : List Node} {e : Text} {s : Path} (h : found t ConfUtil.top = true) : found (freeTree t (ep e ++ s)) ConfUtil.top = true :=
  (found_freeTree _ _ _).mpr ⟨h, fun c => by
    have := c.length_le
    rw [List.length_append] at this
    exact absurd (show 4 + s.length ≤ 1 from this) (by omega)⟩

theorem step_some {S : Schema} (hS : Takes S) {names : List Text} {vals : List (Option Text)} {cfg : Config} {o : Op} {P : Place} {e : Text} {s : Path}
    (hP : o.place = some P) (hg : Good names P) (hat : P.at names = ep e ++ s) (hc : Closed (cfg.getD []))
    (ho : Ready vals cfg (P.at names) o) : ∃ t', step S names vals cfg o = (true, some t') := by
  have hp := op_parse hP hg
  cases o with
  | create f src =>
    obtain ⟨v, hv⟩ := Option.isSome_iff_exists.mp ho
    obtain ⟨t, hnp⟩ : ∃ t, newPath S (cfg.getD []) (P.at names) v = some t := by
      unfold newPath; rw [if_pos (hS.1 _ _)]; exact ⟨_, rfl⟩
    have hf : found t ConfUtil.top = true := (newPath_found hnp _).mpr (.inr ⟨by simp [ConfUtil.top], hat ▸ ep_top e s⟩)
    refine ⟨t, ?_⟩
    rw [step_create, hv]
    unfold create
    rw [show parse (fill f names) = _ from hp]
    simp only [hnp, setTop_found hf]
  | checkDelete f =>
    cases cfg with
    | none => cases ho
    | some t =>
      have hp' : parse (fill f names) = some (P.at names) := hp
      simp only [step, checkDelete, hp', hS.2, Bool.not_true, Bool.false_eq_true, if_false]
      by_cases hf : found t (P.at names) = true
      · rw [if_pos hf]
        refine ⟨_, setTop_found ?_⟩
        rw [hat]
        exact free_top (found_top hc (hat ▸ ep_top e s) hf)
      · rw [if_neg hf]; exact ⟨t, rfl⟩
  | delete f =>
    cases cfg with
    | none => cases ho
    | some t =>
      have hp' : parse (fill f names) = some (P.at names) := hp
      have hf : found t (P.at names) = true := ho
      simp only [step, delete, hp', hf, if_true]
      refine ⟨_, setTop_found ?_⟩
      rw [hat]
      exact free_top (found_top hc (hat ▸ ep_top e s) hf)

theorem run_some {S : Schema} (hS : Takes S) {n : Nat} {e : Text} {r : List Text} {vals : List (Option Text)} (hn : (e :: r).length = n)
    (hpl : ∀ t ∈ e :: r, Plain t) : ∀ (l : List (Op × Place)) (cfg : Config), (∀ x ∈ l, fits n x = true) → l.all (adds vals) = true →
    Sound (cfg.getD []) → cfg.isSome → ∃ t', run S (e :: r) vals (l.map Prod.fst) cfg = (true, some t')
  | [], cfg, _, _, _, hc => by
    obtain ⟨t, rfl⟩ := Option.isSome_iff_exists.mp hc
    exact ⟨t, rfl⟩
  | x :: l, cfg, hf, ha, hs, hc => by
    obtain ⟨s, hs'⟩ := fits_ep (e := e) (r := r) (hf x (.head _))
    obtain ⟨g1, g2, g3, g4⟩ := fits_placed hn hpl hf x (.head _)
    rw [List.all_cons, Bool.and_eq_true] at ha
    have hax := ha.1
    obtain ⟨t1, h1⟩ : ∃ t1, step S (e :: r) vals cfg x.1 = (true, some t1) := by
      refine step_some hS g1 g3 hs' hs.closed ?_
      unfold adds at hax
      cases hx : x.1 with
      | create f src => rw [hx] at hax; exact hax
      | checkDelete f => exact hc
      | delete f => rw [hx] at hax; cases hax
    obtain ⟨t', e', s', -⟩ := step_view g1 g2 g3 g4 hs h1
    cases e'
    obtain ⟨t2, h2⟩ := run_some hS hn hpl l (some t1) (fun y hy => hf y (.tail _ hy)) ha.2 s' rfl
    refine ⟨t2, ?_⟩
    rw [List.map_cons, run, h1]
    simp only [if_true]
    exact h2

theorem run_first {S : Schema} (hS : Takes S) {n : Nat} {e : Text} {r : List Text} {vals : List (Option Text)} (hn : (e :: r).length = n)
    (hpl : ∀ t ∈ e :: r, Plain t) (x : Op × Place) (l : List (Op × Place)) (cfg : Config) (hf : ∀ y ∈ x :: l, fits n y = true)
    (ha : l.all (adds vals) = true) (hs : Sound (cfg.getD []))
    (ho : Ready vals cfg (x.2.at (e :: r)) x.1) : ∃ t', run S (e :: r) vals ((x :: l).map Prod.fst) cfg = (true, some t') := by
  obtain ⟨s, hs'⟩ := fits_ep (e := e) (r := r) (hf x (.head _))
  obtain ⟨g1, g2, g3, g4⟩ := fits_placed hn hpl hf x (.head _)
  obtain ⟨t1, h1⟩ : ∃ t1, step S (e :: r) vals cfg x.1 = (true, some t1) := step_some hS g1 g3 hs' hs.closed ho
  obtain ⟨t', e', s', -⟩ := step_view g1 g2 g3 g4 hs h1
  cases e'
  obtain ⟨t2, h2⟩ := run_some hS hn hpl l (some t1) (fun y hy => hf y (.tail _ hy)) ha s' rfl
  refine ⟨t2, ?_⟩
  rw [List.map_cons, run, h1]
  simp only [if_true]
  exact h2

/-- The node that a function deletes. -/
def Act.target : Act → Option R
  | .delCert => some .idInl
  | .delKs => some .kref
  | .delTrust g k => some (.crt g k)
  | .delBag g => some (.bag g)
  | .delCtn i => some (.ctn (Nat.toDigits 10 i))
  | .delRef => some .ref
  | .delEndpt => some .ep
  | _ => none

theorem call_some {S : Schema} (hS : Takes S) {cfg : Config} {c : Call} (hc : c.good) (hs : Sound (cfg.getD []))
    (hm : ∀ i fp mt n, c.act = .ctn i fp mt n → i ≠ 0 ∧ mt < 6)
    (ht : ∀ r, c.act.target = some r → found (cfg.getD []) (ep c.endpt ++ r.path) = true) : ∃ t', c.run S cfg = (true, some t') := by
  have hp := names_plain c hc
  have hf := ops_fit c.act
  obtain ⟨e, a⟩ := c
  dsimp only at hm ht hp hf
  have hz : a.zero = false := by
    cases a with
    | ctn i fp mt n => simp [Act.zero, (hm i fp mt n rfl).1]
    | _ => rfl
  rw [run_eq]
  dsimp only
  rw [hz, if_neg (by simp), ← (ops_zip a).1]
  cases a with
  | cert pub pfmt priv crt => exact run_first hS rfl hp _ _ cfg hf rfl hs rfl
  | ks key crt => exact run_first hS rfl hp _ _ cfg hf rfl hs rfl
  | trust g k d => cases g <;> exact run_first hS rfl hp _ _ cfg hf rfl hs rfl
  | bag g b => cases g <;> exact run_first hS rfl hp _ _ cfg hf rfl hs rfl
  | ctn i fp mt n =>
    obtain ⟨x, hx⟩ := Option.isSome_iff_exists.mp (map_lt.mpr (hm i fp mt n rfl).2)
    cases fp <;> (simp only [Act.vals, hx]; exact run_first hS rfl hp _ _ cfg hf rfl hs rfl)
  | ref r => exact run_first hS rfl hp _ _ cfg hf rfl hs rfl
  | delCert => exact run_first hS rfl hp _ _ cfg hf rfl hs (ht _ rfl)
  | delKs => exact run_first hS rfl hp _ _ cfg hf rfl hs (ht _ rfl)
  | delTrust g k => cases g <;> exact run_first hS rfl hp _ _ cfg hf rfl hs (ht _ rfl)
  | delBag g => cases g <;> exact run_first hS rfl hp _ _ cfg hf rfl hs (ht _ rfl)
  | delCtn i => exact run_first hS rfl hp _ _ cfg hf rfl hs (ht _ rfl)
  | delRef => exact run_first hS rfl hp _ _ cfg hf rfl hs (ht _ rfl)
  | delEndpt => exact run_first hS rfl hp _ _ cfg hf rfl hs (ht .ep rfl)

theorem possible_img (c : Act) (w : Option Want) :
    c.possible w ↔ (∀ i fp mt n, c = .ctn i fp mt n → i ≠ 0 ∧ mt < 6) ∧ ∀ r, c.target = some r → (img w r).isSome := by
  cases c <;> simp only [Act.possible, Act.target, Option.some.injEq, reduceCtorEq, false_imp_iff, implies_true, forall_eq', and_true, true_and]
  · constructor
    · rintro h _ _ _ _ ⟨⟩; exact h
    · intro h; exact h _ _ _ _ rfl
  · rcases w with _ | ⟨_ | _ | _, certs, ref, ctn⟩ <;> simp [img]
  · rcases w with _ | ⟨_ | _ | _, certs, ref, ctn⟩ <;> simp [img]
  · rename_i g k
    rcases w with _ | ⟨id, certs, ref, ctn⟩
    · simp [img]
    · rcases hc : certs g with _ | m | _
      · simp [img, hc]
      · cases hm : m k <;> simp [img, hc, hm]
      · simp [img, hc]
  · rename_i g
    rcases w with _ | ⟨id, certs, ref, ctn⟩
    · simp [img]
    · rcases hc : certs g with _ | m | _ <;> simp [img, hc]
  · rename_i i
    rcases w with _ | ⟨id, certs, ref, ctn⟩
    · simp [img]
    · cases hc : ctn i <;> simp [img, hc, entryAt_own]
  · rcases w with _ | ⟨id, certs, _ | ref, ctn⟩ <;> simp [img]
  · rcases w with _ | x <;> simp [img]

theorem call_found {S : Schema} {cfg cfg' : Config} {c : Call} (hc : c.good) (h : c.run S cfg = (true, cfg')) (r : R)
    (hr : c.act.target = some r) : found (cfg.getD []) (ep c.endpt ++ r.path) = true := by
  have hpl := fits_placed (by simp) (names_plain c hc) (ops_fit c.act)
  have hz : c.act.zero = false := by
    cases hz : c.act.zero with
    | false => rfl
    | true => rw [run_eq, hz] at h; cases h
  have key : ∀ (f : Text) (P : Place) (l : List (Op × Place)), c.act.ops.zip c.act.places = (.delete f, P) :: l →
      P.at (c.endpt :: c.act.names) = ep c.endpt ++ r.path → found (cfg.getD []) (ep c.endpt ++ r.path) = true := by
    intro f P l hz' hat
    rw [run_eq, hz, if_neg (by simp), ← (ops_zip c.act).1, hz'] at h
    rw [hz'] at hpl
    obtain ⟨c1, h1, -⟩ := run_cons_ok h
    obtain ⟨g1, -, g3, -⟩ := hpl _ (.head _)
    rcases step_ok g1 g3 h1 with ⟨_, _, _, _, he, _⟩ | ⟨_, _, he, _⟩ | ⟨t, _, rfl, hf, _⟩ | ⟨_, _, he, _⟩
    · cases he
    · cases he
    · rw [← hat]; exact hf
    · cases he
  obtain ⟨e, a⟩ := c
  cases a with
  | delTrust g k =>
    simp only [Act.target, Option.some.injEq] at hr; subst hr
    cases g <;> exact key _ _ _ rfl rfl
  | delBag g =>
    simp only [Act.target, Option.some.injEq] at hr; subst hr
    cases g <;> exact key _ _ _ rfl rfl
  | _ => simp only [Act.target, Option.some.injEq, reduceCtorEq] at hr <;> subst hr <;> exact key _ _ _ rfl rfl

/-! ## Identities that are wanted were given -/

theorem apply_id {a : Act} {w : Option Want} {w1 : Want} (h1 : a.apply w = some w1) {i : Ident} (hi : w1.id = some i) :
    (∃ w0, w = some w0 ∧ w0.id = some i) ∨ (∃ pub pf priv crt, i = .inline pub pf priv crt ∧ a = .cert pub pf priv crt) ∨ ∃ k c, i = .keystore k c := by
  have hd : (w.getD .empty).id = some i → ∃ w0, w = some w0 ∧ w0.id = some i := by
    intro h
    cases w with
    | none => cases h
    | some w0 => exact ⟨w0, rfl, h⟩
  cases a with
  | cert pub pf priv crt =>
    simp only [Act.apply, Option.some.injEq] at h1
    subst h1
    cases hi
    exact .inr (.inl ⟨_, _, _, _, rfl, rfl⟩)
  | ks k c =>
    simp only [Act.apply, Option.some.injEq] at h1
    subst h1
    cases hi
    exact .inr (.inr ⟨_, _, rfl⟩)
  | delEndpt => cases h1
  | delCert | delKs =>
    obtain ⟨y, rfl, rfl⟩ := Option.map_eq_some_iff.mp h1
    refine .inl ⟨y, rfl, ?_⟩
    dsimp only at hi
    split at hi
    · cases hi
    · exact hi
  | delCtn | delTrust | delBag | delRef =>
    obtain ⟨y, rfl, rfl⟩ := Option.map_eq_some_iff.mp h1
    exact .inl ⟨y, rfl, hi⟩
  | _ =>
    simp only [Act.apply, Option.some.injEq] at h1
    subst h1
    exact .inl (hd hi)

theorem wanted_id (spki : Nat → Bool) (C : Text → Nat) : ∀ (cs : List Call), FromFiles spki C cs → ∀ e w i, wanted cs e = some w → w.id = some i → IdOk spki C i := by
  intro cs
  rw [← List.reverse_reverse cs]
  induction cs.reverse with
  | nil => intro _ e w i h; cases h
  | cons c r ih =>
    rw [List.reverse_cons]
    revert ih
    generalize r.reverse = cs
    intro ih hff e w i h hi
    have ih := ih (fun e a b c d hm => hff e a b c d (List.mem_append_left _ hm))
    rw [wanted_snoc] at h
    split at h
    · rcases apply_id h hi with ⟨w0, h1, h2⟩ | ⟨pub, pf, priv, crt, rfl, ha⟩ | ⟨k, c', rfl⟩
      · exact ih e w0 i h1 h2
      · obtain ⟨e', a⟩ := c
        dsimp only at ha
        subst ha
        exact hff e' pub pf priv crt (by simp)
      · trivial
    · exact ih e w i h hi

end Verif.ConfTlsUse
