import Verif.Model.CertExp

/-!
# Which certificates are watched, and how they are named (src/session_server.c:3298-3352, 3558-3760)

The notification times come from `Verif.CertExp`. Strings are lists of characters; memory and the locks are left out.
-/

namespace Verif.CertDates
open Verif.CertExp (Cal Interval Exp Out certAppend)

/-- A string. (src/session_p.h:432) -/
abbrev Text := List Char

/-- `struct nc_certificate` (src/session_p.h:89-92): its name, and the expiration time of its data, `none` if they are missing or cannot be read. -/
structure Cert where
  name : Text
  data : Option Int
  deriving DecidableEq, Repr

/-- What is used of `struct nc_server_tls_opts` (src/session_p.h:256-276): certificates that are not local are `none`. -/
structure Tls where
  cert : Option (Option Int)
  ca : Option (List Cert)
  ee : Option (List Cert)
  deriving DecidableEq, Repr

/-- An endpoint (src/session_p.h:508-526, 534-550): name, options if it is a TLS one. -/
structure Endpt where
  name : Text
  tls : Option Tls
  deriving DecidableEq, Repr

/-- A named list: a Call Home client with endpoints, a key or a bag with certificates (src/session_p.h:94-114, 529-534). -/
structure Group (α : Type) where
  name : Text
  elems : List α
  deriving DecidableEq, Repr

/-- The parts of `server_opts` that are gone through (src/session_server.c:3698-3753). -/
structure Cfg where
  endpts : List Endpt
  chs : List (Group Endpt)
  keys : List (Group Cert)
  bags : List (Group Cert)
  deriving DecidableEq, Repr

/-- `struct nc_cert_path_aux` (src/session_p.h:431-440). -/
structure Cp where
  ch : Option Text
  endpt : Option Text
  ca : Option Text
  ee : Option Text
  key : Option Text
  ksCert : Option Text
  bag : Option Text
  tsCert : Option Text
  deriving DecidableEq, Repr

/-- A `%s` (src/session_server.c:3312): NULL is never printed here, the model takes the empty string. -/
def str (t : Option Text) : Text := t.getD []

/-- The beginning of the path of a certificate of an endpoint (src/session_server.c:3325-3334). -/
def endptPath (cp : Cp) : Text :=
  match cp.ch with
  | some c => "/ietf-netconf-server:netconf-server/call-home/netconf-client[name='".toList ++ c ++ "']/endpoints/endpoint[name='".toList ++
      str cp.endpt ++ "']/tls/tls-server-parameters".toList
  | none => "/ietf-netconf-server:netconf-server/listen/endpoints/endpoint[name='".toList ++ str cp.endpt ++ "']/tls/tls-server-parameters".toList

/-- `nc_server_notif_cert_exp_xpath_get` (src/session_server.c:3304-3352). -/
def xpath (cp : Cp) : Text :=
  match cp.ksCert with
  | some c => "/ietf-keystore:keystore/asymmetric-keys/asymmetric-key[name='".toList ++ str cp.key ++ "']/certificates/certificate[name='".toList ++ c ++
      "']/certificate-expiration/expiration-date".toList
  | none =>
    match cp.tsCert with
    | some c => "/ietf-truststore:truststore/certificate-bags/certificate-bag[name='".toList ++ str cp.bag ++ "']/certificate[name='".toList ++ c ++
        "']/certificate-expiration/expiration-date".toList
    | none =>
      match cp.ee with
      | some c => endptPath cp ++ "/client-authentication/ee-certs/inline-definition/certificate[name='".toList ++ c ++
          "']/certificate-expiration/expiration-date".toList
      | none =>
        match cp.ca with
        | some c => endptPath cp ++ "/client-authentication/ca-certs/inline-definition/certificate[name='".toList ++ c ++
            "']/certificate-expiration/expiration-date".toList
        | none => endptPath cp ++ "/server-identity/certificate/inline-definition/certificate-expiration/expiration-date".toList

/-- An element of the array of expiration dates (src/session_p.h:409-417). -/
structure Entry where
  exp : Exp
  path : Text
  deriving DecidableEq, Repr

/-- `nc_server_notif_cert_exp_date_append` (src/session_server.c:3558-3607). -/
def append (cal : Cal) (ivs : List Interval) (now : Int) (data : Option Int) (cp : Cp) (acc : List Entry) : Out (List Entry) :=
  match certAppend cal ivs now data with
  | .ok e => .ok (acc ++ [⟨e, xpath cp⟩])
  | .err => .err
  | .ub => .ub
  | .hang => .hang

/-- `if (ret) goto cleanup` (src/session_server.c:3634-3636). -/
def andThen (o : Out (List Entry)) (f : List Entry → Out (List Entry)) : Out (List Entry) :=
  match o with
  | .ok a => f a
  | .err => .err
  | .ub => .ub
  | .hang => .hang

/-- A loop that appends certificates, `cp` tells their path (src/session_server.c:3644-3650, 3658-3664, 3736-3742, 3747-3753). -/
def appendAll (cal : Cal) (ivs : List Interval) (now : Int) (cp : Text → Cp) : List Cert → List Entry → Out (List Entry)
  | [], acc => .ok acc
  | c :: cs, acc =>
    andThen (append cal ivs now c.data (cp c.name) acc) (appendAll cal ivs now cp cs)

/-- The server certificate, if it is local (src/session_server.c:3630-3637). -/
def serverGet (cal : Cal) (ivs : List Interval) (now : Int) (ch : Option Text) (name : Text) (t : Tls) (acc : List Entry) : Out (List Entry) :=
  match t.cert with
  | some d => append cal ivs now d ⟨ch, some name, none, none, none, none, none, none⟩ acc
  | none => .ok acc

/-- The certificates of authorities, if they are local (src/session_server.c:3639-3651). -/
def caGet (cal : Cal) (ivs : List Interval) (now : Int) (ch : Option Text) (name : Text) (t : Tls) (acc : List Entry) : Out (List Entry) :=
  match t.ca with
  | some l => appendAll cal ivs now (fun c => ⟨ch, some name, some c, none, none, none, none, none⟩) l acc
  | none => .ok acc

/-- The end-entity certificates, if they are local (src/session_server.c:3653-3665). -/
def eeGet (cal : Cal) (ivs : List Interval) (now : Int) (ch : Option Text) (name : Text) (t : Tls) (acc : List Entry) : Out (List Entry) :=
  match t.ee with
  | some l => appendAll cal ivs now (fun c => ⟨ch, some name, none, some c, none, none, none, none⟩) l acc
  | none => .ok acc

/-- `nc_server_notif_cert_exp_dates_endpt_get` (src/session_server.c:3621-3669). -/
def endptGet (cal : Cal) (ivs : List Interval) (now : Int) (ch : Option Text) (name : Text) (t : Tls) (acc : List Entry) : Out (List Entry) :=
  andThen (serverGet cal ivs now ch name t acc) (fun a1 => andThen (caGet cal ivs now ch name t a1) (eeGet cal ivs now ch name t))

/-- The loop over endpoints (src/session_server.c:3698-3706, 3714-3727). -/
def endptsGet (cal : Cal) (ivs : List Interval) (now : Int) (ch : Option Text) : List Endpt → List Entry → Out (List Entry)
  | [], acc => .ok acc
  | e :: es, acc =>
    match e.tls with
    | none => endptsGet cal ivs now ch es acc
    | some t =>
      andThen (endptGet cal ivs now ch e.name t acc) (endptsGet cal ivs now ch es)

/-- The loop over Call Home clients (src/session_server.c:3711-3732). -/
def chsGet (cal : Cal) (ivs : List Interval) (now : Int) : List (Group Endpt) → List Entry → Out (List Entry)
  | [], acc => .ok acc
  | g :: gs, acc =>
    andThen (endptsGet cal ivs now (some g.name) g.elems acc) (chsGet cal ivs now gs)

/-- The loop over the keystore (src/session_server.c:3735-3743). -/
def keysGet (cal : Cal) (ivs : List Interval) (now : Int) : List (Group Cert) → List Entry → Out (List Entry)
  | [], acc => .ok acc
  | g :: gs, acc =>
    andThen (appendAll cal ivs now (fun c => ⟨none, none, none, none, some g.name, some c, none, none⟩) g.elems acc) (keysGet cal ivs now gs)

/-- The loop over the truststore (src/session_server.c:3746-3754). -/
def bagsGet (cal : Cal) (ivs : List Interval) (now : Int) : List (Group Cert) → List Entry → Out (List Entry)
  | [], acc => .ok acc
  | g :: gs, acc =>
    andThen (appendAll cal ivs now (fun c => ⟨none, none, none, none, none, none, some g.name, some c⟩) g.elems acc) (bagsGet cal ivs now gs)

/-- `nc_server_notif_cert_exp_dates_get` (src/session_server.c:3680-3760); without intervals it fails (3689). -/
def datesGet (cal : Cal) (ivs : List Interval) (now : Int) (cfg : Cfg) : Out (List Entry) :=
  if ivs = [] then .err
  else
    andThen (endptsGet cal ivs now none cfg.endpts []) (fun a1 =>
      andThen (chsGet cal ivs now cfg.chs a1) (fun a2 => andThen (keysGet cal ivs now cfg.keys a2) (bagsGet cal ivs now cfg.bags)))

end Verif.CertDates
