import Verif.Spec.ConfTls
import Verif.Spec.TlsAuth
import Verif.Spec.Login
import Verif.Model.TlsLogin

/-!
# Who may log in over TLS, by the configuration alone

Only configurations (`TlsConf`, `CtnConf`, `TsConf`), the certificates of the client and what the TLS library found are mentioned, not what the server
keeps in memory.
-/

namespace Verif.TlsLogin
open Verif.ConfStore (Map TsConf Ts)
open Verif.ConfTls (TlsConf TlsData TlsDiff CtnConf CertsConf CtnEdit AuthConf tlsTree patchTlsAll patchSafeAll patchCtns ctnNodes ctnEdit onlyFingerprints Tls)
open Verif.TlsAuth (Cert MapType Text Yields Readable FpUsable Ev MEv noFlags)

/-- The configuration of an endpoint. -/
structure EndConf where
  tls : TlsConf
  ctn : Map CtnConf

/-- The Base64 text is that of a configured certificate. -/
def CertIn (tc : TsConf) : Option CertsConf → Nat → Prop
  | none, _ => False
  | some (.inline m), d => ∃ k, m k = some d
  | some (.bag n), d => ∃ m k, tc.certBags n = some m ∧ m k = some d

/-- A bag that is named exists. -/
def BagThere (tc : TsConf) : Option CertsConf → Prop
  | some (.bag n) => ∃ m, tc.certBags n = some m
  | _ => True

/-- A configured certificate of an authority, of one of the endpoints. -/
def CaConfigured (v : Vals) (tc : TsConf) (cs : List EndConf) (x : Cert) : Prop :=
  ∃ c ∈ cs, ∃ d, CertIn tc (c.tls.auth.bind AuthConf.ca) d ∧ v.cert d = some x

/-- The certificate of the client is a configured end-entity certificate of one of the endpoints. -/
def EeConfigured (v : Vals) (tc : TsConf) (cs : List EndConf) (peer : Cert) : Prop :=
  ∃ c ∈ cs, ∃ d x, CertIn tc (c.tls.auth.bind AuthConf.ee) d ∧ v.cert d = some x ∧ x.id = peer.id

/-- The identities derived from `cert-to-name` (modules/ietf-x509-cert-to-name@2014-12-10.yang:87-202), numbered in this order. -/
def mapTypes : List MapType := [.specified, .rfc822, .dns, .ip, .any, .commonName]

/-- A configured entry with its texts. -/
def entryConf (v : Vals) (e : CtnConf) : TlsAuth.Ctn := ⟨e.fingerprint.map v.text, mapTypes.getD e.mapType .unknown, e.name.map v.text⟩

/-- The user name by the configuration: of the first endpoint, and there of the entry with the lowest number, that gives a name for a certificate of the chain,
and that for the first such certificate. -/
def NameByConf (v : Vals) (cs : List EndConf) (chain : List Cert) (u : Text) : Prop :=
  ∃ pre c post i e, cs = pre ++ c :: post ∧ c.ctn i = some e ∧
    (∀ d ∈ pre, ∀ j f, d.ctn j = some f → ∀ x ∈ chain, ∀ w, ¬ Yields (entryConf v f) x w) ∧
    (∀ j f, j < i → c.ctn j = some f → ∀ x ∈ chain, ∀ w, ¬ Yields (entryConf v f) x w) ∧
    ∃ cpre x cpost, chain = cpre ++ x :: cpost ∧ (∀ y ∈ cpre, ∀ w, ¬ Yields (entryConf v e) y w) ∧ Yields (entryConf v e) x u

/-- All fingerprints have an octet behind that of the algorithm. -/
def FpsUsable (v : Vals) (cs : List EndConf) : Prop := ∀ c ∈ cs, ∀ i e, c.ctn i = some e → FpUsable (entryConf v e)

/-- The server has set up data of an endpoint and then diffs; `c` is the configuration after all of them. -/
def EndSetUp (spki : Nat → Bool) (x : End) (c : EndConf) : Prop :=
  (∃ (d : TlsData) (ds : List TlsDiff) (c0 : TlsConf), d.conf spki = some c0 ∧ patchTlsAll spki c0 ds = some c.tls ∧
    ConfTls.run spki d.tree (ds.map tlsTree) = .ok x.tls) ∧
  ∃ es : List CtnEdit, patchCtns (fun _ => none) es = some c.ctn ∧ ctnNodes (es.map ctnEdit) [] = some x.ctn

/-- The same without the changes that are not followed (`IdConf.lost`, `CertsEdit.lost`, map types and names of entries). -/
def EndSafe (spki : Nat → Bool) (x : End) (c : EndConf) : Prop :=
  (∃ (d : TlsData) (ds : List TlsDiff) (c0 : TlsConf), d.conf spki = some c0 ∧ patchSafeAll spki c0 ds = some c.tls ∧
    ConfTls.run spki d.tree (ds.map tlsTree) = .ok x.tls) ∧
  ∃ es : List CtnEdit, onlyFingerprints es ∧ patchCtns (fun _ => none) es = some c.ctn ∧ ctnNodes (es.map ctnEdit) [] = some x.ctn

/-- The referenced endpoint, if any, is as configured. -/
def RefAs (P : End → EndConf → Prop) : Option (Option End) → Option EndConf → Prop
  | none, none => True
  | some none, none => True
  | some (some r), some c => P r c
  | _, _ => False

/-! ## TLS libraries -/

/-- A report after which the client should not be refused: the certificate is verified, or it is that of the client, which is configured, and only its issuer is not
known. -/
def GoodEv (configured : Prop) (ev : Ev) : Prop :=
  ev.names = true ∧ (ev.preverify = true ∨ (ev.depth = 0 ∧ configured ∧
    (ev.err = .depthZeroSelfSigned ∨ ev.err = .unableToVerifyLeaf ∨ ev.err = .unableToGetIssuer ∨ ev.err = .unableToGetIssuerLocally)))

end Verif.TlsLogin
