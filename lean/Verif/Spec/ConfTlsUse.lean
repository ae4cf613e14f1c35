import Verif.Spec.TlsLogin
import Verif.Model.ConfTlsUse

/-!
# What the application wants that configures TLS endpoints by function calls

Only the calls, the truststore, the certificates of the client and what the TLS library found are mentioned.
-/

namespace Verif.ConfTlsUse
open Verif.ConfUtil (Text)
open Verif.TlsLogin (Vals mapTypes)
open Verif.ConfStore (TsConf)
open Verif.TlsAuth (Cert Sess Yields FpUsable)

/-- The identity of an endpoint. -/
inductive Ident where
  | inline (pub pfmt priv crt : Text)
  | keystore (key crt : Text)

/-- Trusted certificates: given by name, or a bag of the truststore. -/
inductive Certs where
  | inline (m : Text → Option Text)
  | bag (b : Text)

/-- A cert-to-name entry. -/
structure Entry where
  fp : Option Text
  mt : Nat
  name : Text

/-- What is wanted for an endpoint; `certs true` are those of clients. -/
structure Want where
  id : Option Ident
  certs : Bool → Option Certs
  ref : Option Text
  ctn : Nat → Option Entry

/-- An endpoint for which nothing was said. -/
def Want.empty : Want := ⟨none, fun _ => none, none, fun _ => none⟩

/-- Other trusted certificates. -/
def Want.setCerts (w : Want) (ee : Bool) (c : Option Certs) : Want := { w with certs := fun g => if g = ee then c else w.certs g }

/-- Another entry. -/
def Want.setCtn (w : Want) (i : Nat) (x : Option Entry) : Want := { w with ctn := fun j => if j = i then x else w.ctn j }

/-- What is wanted after a call: the last call for the identity and for each kind of trusted certificates decides where they come from. A fingerprint that is
left out stays as it was. -/
def Act.apply (w : Option Want) : Act → Option Want
  | .cert pub pfmt priv crt => some { w.getD .empty with id := some (.inline pub pfmt priv crt) }
  | .ks key crt => some { w.getD .empty with id := some (.keystore key crt) }
  | .trust ee k d =>
    let x := w.getD .empty
    let m := match x.certs ee with | some (.inline m) => m | _ => fun _ => none
    some (x.setCerts ee (some (.inline (fun j => if j = k then some d else m j))))
  | .bag ee b => some ((w.getD .empty).setCerts ee (some (.bag b)))
  | .ctn i fp mt n =>
    let x := w.getD .empty
    some (x.setCtn i (some ⟨fp.or ((x.ctn i).bind Entry.fp), mt, n⟩))
  | .ref r => some { w.getD .empty with ref := some r }
  | .delCert => w.map (fun x => { x with id := match x.id with | some (.inline ..) => none | y => y })
  | .delKs => w.map (fun x => { x with id := match x.id with | some (.keystore ..) => none | y => y })
  | .delTrust ee k => w.map (fun x => x.setCerts ee (match x.certs ee with
      | some (.inline m) => some (.inline (fun j => if j = k then none else m j))
      | y => y))
  | .delBag ee => w.map (fun x => x.setCerts ee (match x.certs ee with | some (.bag _) => none | y => y))
  | .delCtn i => w.map (fun x => x.setCtn i none)
  | .delRef => w.map (fun x => { x with ref := none })
  | .delEndpt => none

/-- What is wanted for an endpoint after the calls. -/
def wanted (cs : List Call) (e : Text) : Option Want := cs.foldl (fun w c => if c.endpt = e then c.act.apply w else w) none

/-- Names can be put between apostrophes, numbers of entries are not 0. -/
def Call.good (c : Call) : Prop :=
  '\'' ∉ c.endpt ∧ match c.act with
    | .trust _ k _ | .delTrust _ k => '\'' ∉ k
    | .delCtn i => i ≠ 0
    | _ => True

/-- What is to be deleted is there; the map type of an entry is known. -/
def Act.possible (w : Option Want) : Act → Prop
  | .ctn i _ mt _ => i ≠ 0 ∧ mt < 6
  | .delCert => ∃ x a b c d, w = some x ∧ x.id = some (.inline a b c d)
  | .delKs => ∃ x a b, w = some x ∧ x.id = some (.keystore a b)
  | .delTrust ee k => ∃ x m d, w = some x ∧ x.certs ee = some (.inline m) ∧ m k = some d
  | .delBag ee => ∃ x b, w = some x ∧ x.certs ee = some (.bag b)
  | .delCtn i => ∃ x y, w = some x ∧ x.ctn i = some y
  | .delRef => ∃ x r, w = some x ∧ x.ref = some r
  | .delEndpt => ∃ x, w = some x
  | _ => True

/-- The formats of private keys that `nc_server_config_util_privkey_format_to_identityref` gives, in the order of `NC_PRIVKEY_FORMAT`. -/
def privFormats : List String :=
  ["ietf-crypto-types:rsa-private-key-format", "ietf-crypto-types:ec-private-key-format", "libnetconf2-netconf-server:private-key-info-format",
    "libnetconf2-netconf-server:openssh-private-key-format"]

/-- Identities given are those read from files: a known format of the private key, and a public key that is a SubjectPublicKeyInfo. -/
def FromFiles (spki : Nat → Bool) (C : Text → Nat) (cs : List Call) : Prop :=
  ∀ e pub pfmt priv crt, ⟨e, .cert pub pfmt priv crt⟩ ∈ cs → pfmt ∈ privFormats.map String.toList ∧ spki (C pub) = true

/-! ## Login -/

/-- The endpoint wanted, and the one it refers to. -/
def involved (m : Text → Option Want) (w : Want) : List Want := w :: (w.ref.bind m).toList

/-- The certificate data are wanted: `C` gives the numbers of texts. -/
def CertOf (tc : TsConf) (C : Text → Nat) : Option Certs → Nat → Prop
  | none, _ => False
  | some (.inline m), d => ∃ k x, m k = some x ∧ d = C x
  | some (.bag b), d => ∃ m k, tc.certBags (C b) = some m ∧ m k = some d

/-- A certificate of a wanted authority. -/
def CaWanted (v : Vals) (tc : TsConf) (C : Text → Nat) (ws : List Want) (x : Cert) : Prop := ∃ w ∈ ws, ∃ d, CertOf tc C (w.certs false) d ∧ v.cert d = some x

/-- The certificate of the client is a wanted one. -/
def EeWanted (v : Vals) (tc : TsConf) (C : Text → Nat) (ws : List Want) (peer : Cert) : Prop :=
  ∃ w ∈ ws, ∃ d x, CertOf tc C (w.certs true) d ∧ v.cert d = some x ∧ x.id = peer.id

/-- An entry as in RFC 7407: only the map type `specified` has a name. -/
def Entry.ctn (x : Entry) : TlsAuth.Ctn := ⟨x.fp, mapTypes.getD x.mt .unknown, if x.mt = 0 then some x.name else none⟩

/-- The user name wanted: of the first endpoint, and there of the entry with the lowest number, that gives a name for a certificate of the chain, and that for
the first such certificate. -/
def NameWanted (ws : List Want) (chain : List Cert) (u : Text) : Prop :=
  ∃ pre w post i x, ws = pre ++ w :: post ∧ w.ctn i = some x ∧
    (∀ d ∈ pre, ∀ j f, d.ctn j = some f → ∀ c ∈ chain, ∀ n, ¬ Yields f.ctn c n) ∧
    (∀ j f, j < i → w.ctn j = some f → ∀ c ∈ chain, ∀ n, ¬ Yields f.ctn c n) ∧
    ∃ cpre c cpost, chain = cpre ++ c :: cpost ∧ (∀ y ∈ cpre, ∀ n, ¬ Yields x.ctn y n) ∧ Yields x.ctn c u

/-- All fingerprints have an octet behind that of the algorithm. -/
def FpsOk (ws : List Want) : Prop := ∀ w ∈ ws, ∀ i x, w.ctn i = some x → FpUsable x.ctn

/-- What is wanted can be used: bags of authorities exist, certificates can be read, and there is at least one. -/
structure Usable (v : Vals) (tc : TsConf) (C : Text → Nat) (ws : List Want) : Prop where
  bags : ∀ w ∈ ws, ∀ b, w.certs false = some (.bag b) → ∃ m, tc.certBags (C b) = some m
  certs : ∀ w ∈ ws, ∀ g d, CertOf tc C (w.certs g) d → ∃ y, v.cert d = some y
  one : ∃ w ∈ ws, ∃ g d, CertOf tc C (w.certs g) d

/-- What must be true of an accepted client: the session has the user name wanted for its chain, the application agreed to it, the chain leads to a wanted authority
or the certificate is a wanted one, and it is the one remembered. -/
def LoggedIn (v : Vals) (tc : TsConf) (C : Text → Nat) (ws : List Want) (userOk : Text → Bool) (Chains : (Cert → Prop) → List Cert → Prop) (chain : List Cert)
    (peer : Cert) (s : Sess) : Prop :=
  ∃ u, s.username = some u ∧ userOk u = true ∧ NameWanted ws chain u ∧ s.clientCert = some peer ∧ (Chains (CaWanted v tc C ws) chain ∨ EeWanted v tc C ws peer)

/-- The server presents the identity wanted. -/
def ShownWanted (C : Text → Nat) (o : Option ConfTls.Shown) : Option Ident → Prop
  | none => False
  | some (.inline _ pfmt priv crt) => ∃ i : Nat, (privFormats[i]?).map String.toList = some pfmt ∧ o = some (.own i (some (C priv)) (some (C crt)))
  | some (.keystore key crt) => o = some (.ref (C key) (C crt))

end Verif.ConfTlsUse
