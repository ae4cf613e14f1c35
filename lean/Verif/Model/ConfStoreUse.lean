import Verif.Model.ConfTlsUse

/-!
# From the functions that configure the keystore and the truststore to the stores of the server

The application calls the functions for keys of the keystore and bags of the truststore (src/server_config_util.c:1001-1205), between calls of other
functions, and gives the data to the server. As in `ConfUse`, the data are a list of nodes with texts, and here is how the server finds the keys and bags in
them.

What is simplified: the functions that delete all keys or certificates at once are left out. Files are read before (`KeyUtil`), so that the texts of keys and
certificates are given here. The two containers of bags are there if the truststore is, as libyang adds them; creating them has no effect on the server
(src/server_config_ts.c:296-330).
-/

namespace Verif.ConfStoreUse
open Verif.ConfUtil
open Verif.ConfStore (Tree Label)
open Verif.ConfUse (seg leafOf)
open Verif.ConfUserUse (fmtCode)
open Verif.ConfTlsUse (leafAt privCode)

/-- A call for the keystore or the truststore (src/server_config_util.c:1001-1205): `nc_server_config_add_keystore_asym_key`, `..._keystore_cert`,
`..._truststore_pubkey` or `..._truststore_cert` (`crt` is set) and the functions that delete these. -/
inductive Call where
  | key (k pfmt pub sfmt priv : Text)
  | keyCert (k c d : Text)
  | entry (crt : Bool) (b k d : Text)
  | delKey (k : Text)
  | delKeyCert (k c : Text)
  | delEntry (crt : Bool) (b k : Text)

/-- The call (src/server_config_util.c:1001-1205). -/
def Call.run (S : Schema) (cfg : Config) : Call → Bool × Config
  | .key k pfmt pub sfmt priv => call S add_keystore_asym_key [k] [some pfmt, some pub, some sfmt, some priv] cfg
  | .keyCert k c d => call S add_keystore_cert [k, c] [some d] cfg
  | .entry crt b k d => call S (if crt then add_truststore_cert else add_truststore_pubkey) [b, k] [some d] cfg
  | .delKey k => call S del_keystore_asym_key [k] [] cfg
  | .delKeyCert k c => call S del_keystore_cert [k, c] [] cfg
  | .delEntry crt b k => call S (if crt then del_truststore_cert else del_truststore_pubkey) [b, k] [] cfg

/-- Calls of these functions and of others, up to the first one that fails (src/server_config_util.c:1001-1205). -/
def build {α : Type} (run : Config → α → Bool × Config) (S : Schema) : List (Call ⊕ α) → Config → Bool × Config
  | [], cfg => (true, cfg)
  | .inl c :: cs, cfg =>
    match c.run S cfg with
    | (true, cfg') => build run S cs cfg'
    | r => r
  | .inr c :: cs, cfg =>
    match run cfg c with
    | (true, cfg') => build run S cs cfg'
    | r => r

/-! ## Truststore -/

/-- The container of the truststore (src/server_config_util.c:1135, 1181). -/
def tsSeg : Seg := seg t!"ietf-truststore:truststore"

/-- The path of the bags of certificates or of public keys (src/server_config_util.c:1135-1136, 1181-1182). -/
def bagsPath (crt : Bool) : Path := [tsSeg, if crt then seg t!"certificate-bags" else seg t!"public-key-bags"]

/-- The path of a bag (src/server_config_util.c:1135-1136, 1181-1182). -/
def bagPath (crt : Bool) (b : Text) : Path := bagsPath crt ++ [⟨if crt then t!"certificate-bag" else t!"public-key-bag", [(t!"name", b)]⟩]

/-- The path of what is in a bag (src/server_config_util.c:1135-1136, 1181-1182). -/
def entryPath (crt : Bool) (b k : Text) : Path := bagPath crt b ++ [⟨if crt then t!"certificate" else t!"public-key", [(t!"name", k)]⟩]

/-- The name of the bag, if the path is that of one (src/server_config_ts.c:345-376, 432-463). -/
def bagName (crt : Bool) (p : Path) : Option Text :=
  match p.drop 2 with
  | [⟨_, [(_, n)]⟩] => if p = bagPath crt n then some n else none
  | _ => none

/-- The name of the certificate or key in a bag, if the path is that of one (src/server_config_ts.c:378-412, 465-516). -/
def entryName (crt : Bool) (b : Text) (p : Path) : Option Text :=
  match p.drop 3 with
  | [⟨_, [(_, n)]⟩] => if p = entryPath crt b n then some n else none
  | _ => none

/-- The bags in the data (src/server_config.c:4206-4211). -/
def bags (crt : Bool) (t : List Node) : List Text := t.filterMap (fun n => bagName crt n.path)

/-- What is in a bag (src/server_config.c:4206-4211). -/
def entries (crt : Bool) (b : Text) (t : List Node) : List Text := t.filterMap (fun n => entryName crt b n.path)

/-- A certificate of a bag (src/server_config_ts.c:378-430). Texts are turned to numbers by `C`. -/
def certTreeOf (C : Text → Nat) (b : Text) (t : List Node) (k : Text) : Tree :=
  .node .certificate 0 .absent (leafOf .name (C k) :: leafAt t .certData C (entryPath true b k ++ [seg t!"cert-data"]))

/-- A public key of a bag (src/server_config_ts.c:465-540). -/
def pubTreeOf (C : Text → Nat) (b : Text) (t : List Node) (k : Text) : Tree :=
  .node .publicKey 0 .absent (leafOf .name (C k) :: (leafAt t .publicKeyFormat fmtCode (entryPath false b k ++ [seg t!"public-key-format"]) ++
    leafAt t .publicKey C (entryPath false b k ++ [seg t!"public-key"])))

/-- A bag of certificates (src/server_config_ts.c:345-376). -/
def certBagOf (C : Text → Nat) (t : List Node) (b : Text) : Tree :=
  .node .certificateBag 0 .absent (leafOf .name (C b) :: (entries true b t).map (certTreeOf C b t))

/-- A bag of public keys (src/server_config_ts.c:432-463). -/
def pubBagOf (C : Text → Nat) (t : List Node) (b : Text) : Tree :=
  .node .publicKeyBag 0 .absent (leafOf .name (C b) :: (entries false b t).map (pubTreeOf C b t))

/-- The truststore in the data, if it is there (src/server_config_ts.c:576-602). -/
def tsTreeOf (C : Text → Nat) (t : List Node) : Option Tree :=
  if found t [tsSeg] then
    some (.node .truststore 0 .absent
      [.node .certificateBags 0 .absent ((bags true t).map (certBagOf C t)), .node .publicKeyBags 0 .absent ((bags false t).map (pubBagOf C t))])
  else none

/-! ## Keystore -/

/-- The container of the keystore (src/server_config_util.c:1041). -/
def ksSeg : Seg := seg t!"ietf-keystore:keystore"

/-- The path of a key (src/server_config_util.c:1041-1042). -/
def keyPath (k : Text) : Path := [ksSeg, seg t!"asymmetric-keys", ⟨t!"asymmetric-key", [(t!"name", k)]⟩]

/-- The path of a certificate of a key (src/server_config_util.c:1098-1099). -/
def keyCertPath (k c : Text) : Path := keyPath k ++ [seg t!"certificates", ⟨t!"certificate", [(t!"name", c)]⟩]

/-- The name of the key, if the path is that of one (src/server_config_ks.c:194-226). -/
def keyName (p : Path) : Option Text :=
  match p.drop 2 with
  | [⟨_, [(_, n)]⟩] => if p = keyPath n then some n else none
  | _ => none

/-- The name of the certificate of a key, if the path is that of one (src/server_config_ks.c:328-364). -/
def keyCertName (k : Text) (p : Path) : Option Text :=
  match p.drop 4 with
  | [⟨_, [(_, n)]⟩] => if p = keyCertPath k n then some n else none
  | _ => none

/-- The keys in the data (src/server_config.c:4206-4211). -/
def keys (t : List Node) : List Text := t.filterMap (fun n => keyName n.path)

/-- The certificates of a key (src/server_config.c:4206-4211). -/
def keyCerts (k : Text) (t : List Node) : List Text := t.filterMap (fun n => keyCertName k n.path)

/-- A certificate of a key (src/server_config_ks.c:328-385). -/
def keyCertOf (C : Text → Nat) (k : Text) (t : List Node) (c : Text) : Tree :=
  .node .certificate 0 .absent (leafOf .name (C c) :: leafAt t .certData C (keyCertPath k c ++ [seg t!"cert-data"]))

/-- A key (src/server_config_ks.c:194-326). -/
def keyTreeOf (C : Text → Nat) (t : List Node) (k : Text) : Tree :=
  .node .asymmetricKey 0 .absent (leafOf .name (C k) ::
    (leafAt t .publicKeyFormat fmtCode (keyPath k ++ [seg t!"public-key-format"]) ++
      (leafAt t .publicKey C (keyPath k ++ [seg t!"public-key"]) ++
        (leafAt t .privateKeyFormat privCode (keyPath k ++ [seg t!"private-key-format"]) ++
          (leafAt t .cleartextPrivateKey C (keyPath k ++ [seg t!"cleartext-private-key"]) ++
            [.node .other 0 .absent ((keyCerts k t).map (keyCertOf C k t))])))))

/-- The keystore in the data, if it is there (src/server_config_ks.c:421-447). -/
def ksTreeOf (C : Text → Nat) (t : List Node) : Option Tree :=
  if found t [ksSeg] then some (.node .keystore 0 .absent [.node .asymmetricKeys 0 .absent ((keys t).map (keyTreeOf C t))]) else none

end Verif.ConfStoreUse
