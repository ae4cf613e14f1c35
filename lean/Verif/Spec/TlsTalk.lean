import Verif.Spec.ClientTls
import Verif.Spec.TlsLogin
import Verif.Spec.ServerId
import Verif.Model.TlsTalk

/-!
# What both sides of a TLS connection may rely on, by the configuration and the files alone
-/

namespace Verif.TlsTalk
open Verif.TransCfg (Lib)
open Verif.ConfStore (Map TsConf KeyConf)
open Verif.TlsLogin (EndConf EndSetUp EndSafe RefAs FpsUsable)
open Verif.Login (TsSetUp)
open Verif.ServerId (KsSetUp KsSafe TlsIdIs)

/-- The server has set up data and diffs of keystore, truststore and of both endpoints; `kc`, `tc`, `oc` and `rc` are the configurations after all of them. Different
leaves have different texts, fingerprints have an octet behind that of the algorithm. -/
structure SetUp (s : Server) (kc : Map KeyConf) (tc : TsConf) (oc : EndConf) (rc : Option EndConf) : Prop where
  keys : KsSetUp s.ks kc
  trust : TsSetUp s.ts tc
  own : EndSetUp s.idVals.spki s.own oc
  ref : RefAs (EndSetUp s.idVals.spki) s.ref rc
  texts : ∀ a b, s.vals.text a = s.vals.text b → a = b
  fps : FpsUsable s.vals (oc :: rc.toList)

/-- The same without the changes that are not followed (C225, C220). -/
structure Safe (s : Server) (kc : Map KeyConf) (tc : TsConf) (oc : EndConf) (rc : Option EndConf) : Prop where
  keys : KsSafe s.ks kc
  trust : TsSetUp s.ts tc
  own : EndSafe s.idVals.spki s.own oc
  ref : RefAs (EndSafe s.idVals.spki) s.ref rc
  texts : ∀ a b, s.vals.text a = s.vals.text b → a = b
  fps : FpsUsable s.vals (oc :: rc.toList)

/-- Certificate number `n` is the configured one of the endpoint and the configured key is its key. -/
def Identity (v : ServerId.Vals) (kc : Map KeyConf) (oc : EndConf) (n : Nat) : Prop :=
  ∃ f p d y, TlsIdIs kc oc.tls.id f p d ∧ v.cert d = some y ∧ y.id = n ∧ v.pkey f p = some n

/-- The client has the certificate first in its file and its key in the key file. -/
def OwnsFiles (d : ClientTls.Disk) (o : ClientTls.Opts) (c : ClientTls.Cert) : Prop :=
  (∃ f items, o.certPath = some f ∧ d.file f = some items ∧ ClientTls.FirstCert items c) ∧
  ∃ g items, o.keyPath = some g ∧ d.file g = some items ∧ ClientTls.FirstKey items c.id

/-- The name of the server the application has asked for: that of `nc_connect_tls`, or that of a Call Home bind (src/session_client_ch.h:275). -/
def Way.wants : Way → TlsAuth.Text → Prop
  | .direct host, t => t = ClientTls.wanted host
  | .home (.tls (some w)), t => t = w
  | .home _, _ => False

/-- Is it a way over TLS? -/
def Way.overTls : Way → Prop
  | .direct _ => True
  | .home b => ∃ host, b = .tls host

end Verif.TlsTalk
