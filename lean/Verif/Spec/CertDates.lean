import Verif.Model.CertDates

/-! # Notions for the properties of watched certificates -/

namespace Verif.CertDates

/-- Where a certificate is in the configuration. -/
inductive Loc where
  | server (ch : Option Text) (endpt : Text)
  | ca (ch : Option Text) (endpt cert : Text)
  | ee (ch : Option Text) (endpt cert : Text)
  | key (key cert : Text)
  | bag (bag cert : Text)
  deriving DecidableEq, Repr

/-- The certificates of a TLS endpoint with their places. -/
def tlsCerts (ch : Option Text) (name : Text) (t : Tls) : List (Loc × Option Int) :=
  t.cert.toList.map (fun d => (.server ch name, d)) ++ (t.ca.getD []).map (fun c => (.ca ch name c.name, c.data)) ++
    (t.ee.getD []).map (fun c => (.ee ch name c.name, c.data))

/-- The certificates of endpoints. -/
def endptCerts (ch : Option Text) (es : List Endpt) : List (Loc × Option Int) :=
  es.flatMap (fun e => match e.tls with | none => [] | some t => tlsCerts ch e.name t)

/-- All certificates of a configuration with their places. -/
def certs (cfg : Cfg) : List (Loc × Option Int) :=
  endptCerts none cfg.endpts ++ cfg.chs.flatMap (fun g => endptCerts (some g.name) g.elems) ++
    cfg.keys.flatMap (fun g => g.elems.map (fun c => (.key g.name c.name, c.data))) ++
    cfg.bags.flatMap (fun g => g.elems.map (fun c => (.bag g.name c.name, c.data)))

/-- The names in a place. -/
def Loc.names : Loc → List Text
  | .server ch e => ch.toList ++ [e]
  | .ca ch e c => ch.toList ++ [e, c]
  | .ee ch e c => ch.toList ++ [e, c]
  | .key k c => [k, c]
  | .bag b c => [b, c]

/-- A string literal of XPath in apostrophes ends at the next one (XPath 1.0, 3.7): the text outside and inside of literals in turn. -/
def pieces : Text → List Text
  | [] => [[]]
  | c :: t =>
    if c = '\'' then [] :: pieces t
    else
      match pieces t with
      | [] => [[c]]
      | p :: ps => (c :: p) :: ps

/-- The path of the endpoint in turn outside and inside of literals; its last piece goes on with `rest`. -/
def endptPieces (ch : Option Text) (e : Text) (rest : Text) : List Text :=
  match ch with
  | some c => ["/ietf-netconf-server:netconf-server/call-home/netconf-client[name=".toList, c, "]/endpoints/endpoint[name=".toList, e,
      "]/tls/tls-server-parameters".toList ++ rest]
  | none => ["/ietf-netconf-server:netconf-server/listen/endpoints/endpoint[name=".toList, e, "]/tls/tls-server-parameters".toList ++ rest]

/-- The path to the expiration date of the certificate in a place (ietf-netconf-server, ietf-keystore, ietf-truststore modules), in turn outside and
inside of literals. -/
def Loc.path : Loc → List Text
  | .server ch e => endptPieces ch e "/server-identity/certificate/inline-definition/certificate-expiration/expiration-date".toList
  | .ca ch e c => endptPieces ch e "/client-authentication/ca-certs/inline-definition/certificate[name=".toList ++
      [c, "]/certificate-expiration/expiration-date".toList]
  | .ee ch e c => endptPieces ch e "/client-authentication/ee-certs/inline-definition/certificate[name=".toList ++
      [c, "]/certificate-expiration/expiration-date".toList]
  | .key k c => ["/ietf-keystore:keystore/asymmetric-keys/asymmetric-key[name=".toList, k, "]/certificates/certificate[name=".toList, c,
      "]/certificate-expiration/expiration-date".toList]
  | .bag b c => ["/ietf-truststore:truststore/certificate-bags/certificate-bag[name=".toList, b, "]/certificate[name=".toList, c,
      "]/certificate-expiration/expiration-date".toList]

end Verif.CertDates
