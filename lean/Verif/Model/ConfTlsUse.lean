import Verif.Model.ConfUserUse
import Verif.Model.TlsLogin

/-!
# From the functions that configure TLS to the endpoints of the server

The application calls the functions for the TLS parameters of endpoints (src/server_config_util_tls.c:36-790) and gives the data to the server. As in
`ConfUse`, the data are a list of nodes with texts, and here is how the server finds the identity, the trusted certificates and the cert-to-name entries of
each endpoint in them.

What is simplified: the functions that delete all certificates or all entries at once are left out. Files are read before (`KeyUtil`), so that the texts of keys
and certificates are given here. Containers whose creation has no effect on the server are there in any case: `client-authentication`
(src/server_config.c:2982-2986), or left out if nothing is in them: `ca-certs` (src/server_config.c:3019-3023) and `ee-certs` (src/server_config.c:3055-3059).
References to endpoints are checked for circles elsewhere (`References`).
-/

namespace Verif.ConfTlsUse
open Verif.ConfUtil
open Verif.ConfStore (Tree Label)
open Verif.ConfUse (seg ep valueAt leafOf)
open Verif.ConfUserUse (fmtCode)
open Verif.ConfTls (CtnNode)
open Verif.TlsLogin (End)

/-- A call for an endpoint (src/server_config_util_tls.c:36-790): `nc_server_config_add_tls_server_cert`, `..._keystore_ref`, `..._ca_cert` or
`..._client_cert` (`ee` is set), the truststore references of both, `..._ctn`, `..._endpoint_client_ref`, the functions that delete these, and
`nc_server_config_del_endpt`. -/
inductive Act where
  | cert (pub pfmt priv crt : Text)
  | ks (key crt : Text)
  | trust (ee : Bool) (k d : Text)
  | bag (ee : Bool) (b : Text)
  | ctn (i : Nat) (fp : Option Text) (mt : Nat) (n : Text)
  | ref (r : Text)
  | delCert
  | delKs
  | delTrust (ee : Bool) (k : Text)
  | delBag (ee : Bool)
  | delCtn (i : Nat)
  | delRef
  | delEndpt

/-- A call with the name of its endpoint (src/server_config_util_tls.c:106-107). -/
structure Call where
  endpt : Text
  act : Act

/-- The text of a map type; there is none for unknown ones (src/server_config_util_tls.c:633-654). -/
def mapText : Nat → Option Text
  | 0 => some t!"ietf-x509-cert-to-name:specified"
  | 1 => some t!"ietf-x509-cert-to-name:san-rfc822-name"
  | 2 => some t!"ietf-x509-cert-to-name:san-dns-name"
  | 3 => some t!"ietf-x509-cert-to-name:san-ip-address"
  | 4 => some t!"ietf-x509-cert-to-name:san-any"
  | 5 => some t!"ietf-x509-cert-to-name:common-name"
  | _ => none

/-- The call (src/server_config_util_tls.c:36-790, src/server_config_util.c:961-972). Numbers of entries are printed; 0 is refused
(src/server_config_util_tls.c:701). -/
def Call.run (S : Schema) (cfg : Config) (c : Call) : Bool × Config :=
  match c.act with
  | .cert pub pfmt priv crt => call S add_tls_server_cert [c.endpt] [some pub, some pfmt, some priv, some crt] cfg
  | .ks key crt => call S add_tls_keystore_ref [c.endpt] [some key, some crt] cfg
  | .trust ee k d => call S (if ee then add_tls_client_cert else add_tls_ca_cert) [c.endpt, k] [some d] cfg
  | .bag ee b => call S (if ee then add_tls_client_cert_truststore_ref else add_tls_ca_cert_truststore_ref) [c.endpt] [some b] cfg
  | .ctn i fp mt n => if i = 0 then (false, cfg) else call S add_tls_ctn [c.endpt, Nat.toDigits 10 i] [fp, mapText mt, some n] cfg
  | .ref r => call S add_tls_endpoint_client_ref [c.endpt] [some r] cfg
  | .delCert => call S del_tls_server_cert [c.endpt] [] cfg
  | .delKs => call S del_tls_keystore_ref [c.endpt] [] cfg
  | .delTrust ee k => call S (if ee then del_tls_client_cert else del_tls_ca_cert) [c.endpt, k] [] cfg
  | .delBag ee => call S (if ee then del_tls_client_cert_truststore_ref else del_tls_ca_cert_truststore_ref) [c.endpt] [] cfg
  | .delCtn i => call S del_tls_ctn [c.endpt, Nat.toDigits 10 i] [] cfg
  | .delRef => call S del_tls_endpoint_client_ref [c.endpt] [] cfg
  | .delEndpt => call S del_endpt [c.endpt] [] cfg

/-- Several calls, up to the first one that fails (src/server_config_util_tls.c:36-790). -/
def build (S : Schema) : List Call → Config → Bool × Config
  | [], cfg => (true, cfg)
  | c :: cs, cfg =>
    match c.run S cfg with
    | (true, cfg') => build S cs cfg'
    | r => r

/-- The path of the TLS parameters, from the endpoint on (src/server_config_util_tls.c:114-116). -/
def tsp : Path := [seg t!"tls", seg t!"tls-server-parameters"]

/-- The path of the identity (src/server_config_util_tls.c:114-116). -/
def idPath : Path := tsp ++ [seg t!"server-identity", seg t!"certificate"]

/-- The path of a key given in the configuration (src/server_config_util_tls.c:67). -/
def idInline : Path := idPath ++ [seg t!"inline-definition"]

/-- The path of a reference to the keystore (src/server_config_util_tls.c:183). -/
def idRef : Path := idPath ++ [seg t!"central-keystore-reference"]

/-- The container of trusted certificates: those of clients (src/server_config_util_tls.c:304-306) or of authorities (473-475). -/
def grp (ee : Bool) : Path := tsp ++ [seg t!"client-authentication", if ee then seg t!"ee-certs" else seg t!"ca-certs"]

/-- A certificate (src/server_config_util_tls.c:304-306). -/
def crtSeg (k : Text) : Seg := ⟨t!"certificate", [(t!"name", k)]⟩

/-- The path of a reference to another endpoint (src/server_config_util_tls.c:779-780). -/
def refPath : Path := tsp ++ [seg t!"client-authentication", seg t!"libnetconf2-netconf-server:endpoint-reference"]

/-- The path of a cert-to-name entry (src/server_config_util_tls.c:703-704). -/
def ctnPath (n : Text) : Path := [seg t!"tls", seg t!"netconf-server-parameters", seg t!"client-identity-mappings", ⟨t!"cert-to-name", [(t!"id", n)]⟩]

/-- A leaf of the data as the server sees it (src/server_config.c:4143-4213). -/
def leafAt (t : List Node) (l : Label) (f : Text → Nat) (p : Path) : List Tree := ((valueAt t p).map (fun v => leafOf l (f v))).toList

/-- The number of a format of private keys (src/server_config.c:460-475): the name of the identity counts, not its module. -/
def privCode (t : Text) : Nat :=
  if t = t!"ietf-crypto-types:rsa-private-key-format" then 0
  else if t = t!"ietf-crypto-types:ec-private-key-format" then 1
  else if t = t!"libnetconf2-netconf-server:private-key-info-format" then 2
  else if t = t!"libnetconf2-netconf-server:openssh-private-key-format" then 3
  else 4

/-- The identity of an endpoint (src/server_config.c:1728-1772, 1961-2074, 2881-2971, 3106-3176). Texts are turned to numbers by `C`. -/
def idTreesOf (C : Text → Nat) (e : Text) (t : List Node) : List Tree :=
  if found t (ep e ++ idInline) then
    [.node .inlineDefinition 0 .absent
      (leafAt t .publicKeyFormat fmtCode (ep e ++ (idInline ++ [seg t!"public-key-format"])) ++
        (leafAt t .publicKey C (ep e ++ (idInline ++ [seg t!"public-key"])) ++
          (leafAt t .privateKeyFormat privCode (ep e ++ (idInline ++ [seg t!"private-key-format"])) ++
            (leafAt t .cleartextPrivateKey C (ep e ++ (idInline ++ [seg t!"cleartext-private-key"])) ++
              leafAt t .certData C (ep e ++ (idInline ++ [seg t!"cert-data"]))))))]
  else if found t (ep e ++ idRef) then
    [.node .centralKeystoreReference 0 .absent
      (leafAt t .asymmetricKey C (ep e ++ (idRef ++ [seg t!"asymmetric-key"])) ++ leafAt t .certificate C (ep e ++ (idRef ++ [seg t!"certificate"])))]
  else []

/-- The name of the trusted certificate, if the path is that of one (src/server_config.c:366-417). -/
def crtName (e : Text) (ee : Bool) (p : Path) : Option Text :=
  match p.drop 9 with
  | [⟨_, [(_, n)]⟩] => if p = ep e ++ (grp ee ++ [seg t!"inline-definition", crtSeg n]) then some n else none
  | _ => none

/-- The trusted certificates in the data (src/server_config.c:4206-4211: the children of `inline-definition`). -/
def crts (e : Text) (ee : Bool) (t : List Node) : List Text := t.filterMap (fun n => crtName e ee n.path)

/-- A trusted certificate (src/server_config.c:2881-2931, 3106-3176). -/
def crtTree (C : Text → Nat) (e : Text) (ee : Bool) (t : List Node) (k : Text) : Tree :=
  .node .certificate 0 .absent
    (leafOf .name (C k) :: leafAt t .certData C (ep e ++ (grp ee ++ [seg t!"inline-definition", crtSeg k, seg t!"cert-data"])))

/-- The label of a container of trusted certificates (src/server_config.c:3884, 3902). -/
def grpLabel : Bool → Label
  | true => .eeCerts
  | false => .caCerts

/-- Trusted certificates: a bag of the truststore or the ones given there; left out if there are none (src/server_config.c:2205-2271, 3106-3176). -/
def grpTrees (C : Text → Nat) (e : Text) (ee : Bool) (t : List Node) : List Tree :=
  if found t (ep e ++ (grp ee ++ [seg t!"inline-definition"])) then
    [.node (grpLabel ee) 0 .absent [.node .inlineDefinition 0 .absent ((crts e ee t).map (crtTree C e ee t))]]
  else
    match valueAt t (ep e ++ (grp ee ++ [seg t!"central-truststore-reference"])) with
    | some b => [.node (grpLabel ee) 0 .absent [leafOf .centralTruststoreReference (C b)]]
    | none => []

/-- The TLS parameters of an endpoint, the children in the order of the modules (src/server_config.c:4206-4211). No function adds TLS versions. -/
def tlsTreeOf (C : Text → Nat) (e : Text) (t : List Node) : Tree :=
  .node .tlsServerParameters 0 .absent
    [.node .serverIdentity 0 .absent [.node .certificate 0 .absent (idTreesOf C e t)],
      .node .clientAuthentication 0 .absent (grpTrees C e false t ++ grpTrees C e true t),
      .node .helloParams 0 .absent [.node .tlsVersions 0 .absent []]]

/-- The number of a map type (src/server_config.c:3201-3224): the name of the identity. -/
def mapCode (t : Text) : Nat :=
  if t = t!"ietf-x509-cert-to-name:specified" then 0
  else if t = t!"ietf-x509-cert-to-name:san-rfc822-name" then 1
  else if t = t!"ietf-x509-cert-to-name:san-dns-name" then 2
  else if t = t!"ietf-x509-cert-to-name:san-ip-address" then 3
  else if t = t!"ietf-x509-cert-to-name:san-any" then 4
  else if t = t!"ietf-x509-cert-to-name:common-name" then 5
  else 6

/-- The number of the entry as text, if the path is that of one (src/server_config.c:3190-3193). -/
def ctnId (e : Text) (p : Path) : Option Text :=
  match p.drop 7 with
  | [⟨_, [(_, n)]⟩] => if p = ep e ++ ctnPath n then some n else none
  | _ => none

/-- The entries in the data (src/server_config.c:4206-4211). -/
def ctnIds (e : Text) (t : List Node) : List Text := t.filterMap (fun n => ctnId e n.path)

/-- An entry (src/server_config.c:3178-3265, 3310-3345). -/
def ctnOf (C : Text → Nat) (e : Text) (t : List Node) (n : Text) : CtnNode :=
  .create (Nat.ofDigitChars 10 n 0) (((valueAt t (ep e ++ (ctnPath n ++ [seg t!"map-type"]))).map mapCode).getD 6)
    ((valueAt t (ep e ++ (ctnPath n ++ [seg t!"name"]))).map C) ((valueAt t (ep e ++ (ctnPath n ++ [seg t!"fingerprint"]))).map C)

/-- An endpoint set up with the data: `none` if that fails (src/server_config.c:4143-4213). -/
def endOf (spki : Nat → Bool) (C : Text → Nat) (e : Text) (t : List Node) : Option End :=
  match ConfTls.run spki (tlsTreeOf C e t) [], ConfTls.ctnNodes ((ctnIds e t).map (ctnOf C e t)) [] with
  | .ok s, some l => some ⟨s, l⟩
  | _, _ => none

/-- The endpoints with these names (src/server_config.c:4206-4211). -/
def endsOf (spki : Nat → Bool) (C : Text → Nat) (t : List Node) : List Text → Option (List (Text × End))
  | [] => some []
  | e :: es =>
    match endOf spki C e t, endsOf spki C t es with
    | some x, some l => some ((e, x) :: l)
    | _, _ => none

/-- All endpoints set up with the data (src/server_config.c:4206-4211). -/
def setUp (spki : Nat → Bool) (C : Text → Nat) (t : List Node) : Option (List (Text × End)) := endsOf spki C t (ConfUse.names t)

/-- The endpoint with a name (`nc_server_get_referenced_endpt`, src/session_server.c:115-129). -/
def endptOf (l : List (Text × End)) (n : Text) : Option End := (l.find? (fun x => decide (x.1 = n))).map Prod.snd

/-- The referenced endpoint (src/server_config.c:2804-2879; src/session_server_tls.c:833-838). -/
def refOf (l : List (Text × End)) (e : Text) (t : List Node) : Option (Option End) := (valueAt t (ep e ++ refPath)).map (endptOf l)

end Verif.ConfTlsUse
