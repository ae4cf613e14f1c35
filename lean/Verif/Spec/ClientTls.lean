import Verif.Model.ClientTls

/-!
# Which servers a TLS client may talk to, by its files and the certificates alone
-/

namespace Verif.ClientTls
open Verif.TransCfg (Lib)

/-- Each certificate is signed by the next one. -/
def Linked : List Cert → Prop
  | a :: b :: l => a.signer = b.id ∧ Linked (b :: l)
  | _ => True

/-- A chain from `leaf` to a trusted certificate, of certificates that are known and within their period. -/
structure Chain (trusted : Cert → Prop) (leaf : Cert) (others : Cert → Prop) (p : List Cert) : Prop where
  first : p.head? = some leaf
  linked : Linked p
  valid : ∀ c ∈ p, c.valid = true
  last : ∃ c, p.getLast? = some c ∧ trusted c
  known : ∀ c ∈ p, c = leaf ∨ others c

/-- A TLS library that finds only chains, and one if there is any. -/
structure LibOk (x : Ext) : Prop where
  sound : ∀ t leaf o p, x.path t leaf o = some p → Chain (· ∈ t) leaf (· ∈ o) p
  complete : ∀ t leaf o p, Chain (· ∈ t) leaf (· ∈ o) p → (x.path t leaf o).isSome = true

/-- A certificate in the files set with `nc_client_tls_set_trusted_ca_paths` that the library looks at: OpenSSL demands file names made of hashes in the directory
(src/session_client.h:434-437). -/
def Configured (lib : Lib) (d : Disk) (o : Opts) (c : Cert) : Prop :=
  ∃ f items, d.file f = some items ∧ .cert c ∈ items ∧
    (o.caFile = some f ∨ ∃ p l h, o.caDir = some p ∧ d.dir p = some l ∧ (h, f) ∈ l ∧ (lib = .openssl → h = true))

/-- The name of the server by the argument of `nc_connect_tls` (src/session_client.h:468-469). -/
def wanted : Option Text → Text
  | none => ['l', 'o', 'c', 'a', 'l', 'h', 'o', 's', 't']
  | some [] => ['l', 'o', 'c', 'a', 'l', 'h', 'o', 's', 't']
  | some (a :: l) => a :: l

/-- The peer has shown this certificate, owns its key, and it comes from a configured authority. -/
def Authentic (lib : Lib) (d : Disk) (o : Opts) (peer : Peer) (s : Cert) : Prop :=
  peer.shown.head? = some s ∧ peer.owns s.id = true ∧
    ∃ p, Chain (Configured lib d o) s (fun c => c ∈ peer.shown ∨ Configured lib d o c) p

/-- The first certificate and the first key of a file. -/
def FirstCert (items : List Item) (c : Cert) : Prop := ∃ pre post, items = pre ++ .cert c :: post ∧ ∀ i ∈ pre, ∃ k, i = .key k

def FirstKey (items : List Item) (k : Nat) : Prop := ∃ pre post, items = pre ++ .key k :: post ∧ ∀ i ∈ pre, ∀ k', i ≠ .key k'

/-- A file whose certificates can all be read, with at least one. -/
def GoodFile (items : List Item) : Prop := Item.badCert ∉ items ∧ ∃ c, Item.cert c ∈ items

/-- The files of the client are there: certificate `c` with its key, trusted certificates. -/
structure FilesOk (d : Disk) (o : Opts) (c : Cert) : Prop where
  cert : ∃ f items, o.certPath = some f ∧ d.file f = some items ∧ FirstCert items c ∧ GoodFile items
  key : ∃ f items, o.keyPath = some f ∧ d.file f = some items ∧ FirstKey items c.id
  any : o.caFile ≠ none ∨ o.caDir ≠ none
  file : ∀ f, o.caFile = some f → ∃ items, d.file f = some items ∧ GoodFile items
  dir : ∀ p, o.caDir = some p → ∃ l, d.dir p = some l

/-- The distribution points that the client uses: those of its own certificate and of the trusted certificates in the file (with Mbed TLS also of those in the
directory). -/
def Point (lib : Lib) (d : Disk) (o : Opts) (own : Cert) (u : Nat) : Prop :=
  u ∈ own.uris ∨ ∃ c f items, u ∈ c.uris ∧ d.file f = some items ∧ .cert c ∈ items ∧
    (o.caFile = some f ∨ (lib = .mbedtls ∧ ∃ p l h, o.caDir = some p ∧ d.dir p = some l ∧ (h, f) ∈ l))

/-- A list that was downloaded from a point and can be read: as DER, or with OpenSSL as PEM from where reading DER has stopped. -/
def Got (lib : Lib) (x : Ext) (u : Nat) (r : RevList) : Prop :=
  (x.get u).ok = true ∧ (x.get u).chunks.flatten ≠ [] ∧
    (x.der (x.get u).chunks.flatten = some r ∨
      lib = .openssl ∧ x.der (x.get u).chunks.flatten = none ∧ x.pem ((x.get u).chunks.flatten.drop (x.eaten (x.get u).chunks.flatten)) = some r)

/-- The certificates that authenticate the chain of a server for the library: with OpenSSL self-signed ones. -/
def Root (lib : Lib) (d : Disk) (o : Opts) (c : Cert) : Prop := Configured lib d o c ∧ (lib = .openssl → c.signer = c.id)

/-- The server is in order: it runs, owns its key, shows a chain that ends at an authority, and is for the name. -/
structure Proper (lib : Lib) (d : Disk) (o : Opts) (root : Cert → Prop) (w : Text) (peer : Peer) (leaf : Cert) : Prop where
  up : peer.up = true
  shown : ∃ rest, peer.shown = leaf :: rest ∧ ∃ p, Chain root leaf (fun c => c ∈ rest ∨ Configured lib d o c) p
  owns : peer.owns leaf.id = true
  name : w ∈ leaf.dns ∨ w ∈ leaf.ips

/-- The revocation lists are in order: all of them can be downloaded and read, if there are any there is one for every certificate that may be in a chain, and none says
that such a certificate is revoked. -/
structure ListsGood (lib : Lib) (x : Ext) (d : Disk) (o : Opts) (own : Cert) (peer : Peer) : Prop where
  got : ∀ u, Point lib d o own u → ∃ r, Got lib x u r
  all : (∃ u, Point lib d o own u) → ∀ c, c ∈ peer.shown ∨ Configured lib d o c → ∃ u r, Point lib d o own u ∧ Got lib x u r ∧ r.issuer = c.signer
  clean : ∀ u r, Point lib d o own u → Got lib x u r → ∀ c, c ∈ peer.shown ∨ Configured lib d o c → r.issuer = c.signer → r.valid = true ∧ c.id ∉ r.revoked

end Verif.ClientTls
