/-
What the functions that edit configuration data are about, written down independently of the
formats in the code: the entry each function names, the entries a pair of functions adds and
deletes, and the cases of a choice of which only one can be configured.
-/
import Verif.Lemmas.ConfUtil

namespace Verif.ConfUtil

/-- A container or a leaf. -/
def node (n : Text) : Text × Option (Text × Nat) := (n, none)

/-- A list instance whose key is the `i`-th name. -/
def inst (n key : Text) (i : Nat) : Text × Option (Text × Nat) := (n, some (key, i))

/-- The server configuration. -/
def srv : Place := [node t!"ietf-netconf-server:netconf-server"]

/-- A listening endpoint. -/
def lis : Place := srv ++ [node t!"listen", node t!"endpoints", inst t!"endpoint" t!"name" 0]

/-- A Call Home client. -/
def cli : Place := srv ++ [node t!"call-home", inst t!"netconf-client" t!"name" 0]

/-- An endpoint of a Call Home client. -/
def che : Place := cli ++ [node t!"endpoints", inst t!"endpoint" t!"name" 1]

/-- An asymmetric key of the keystore. -/
def ksKey : Place :=
  [node t!"ietf-keystore:keystore", node t!"asymmetric-keys", inst t!"asymmetric-key" t!"name" 0]

/-- A certificate of a key of the keystore. -/
def ksCert : Place := ksKey ++ [node t!"certificates", inst t!"certificate" t!"name" 1]

/-- A public key of the truststore. -/
def tsKey : Place :=
  [node t!"ietf-truststore:truststore", node t!"public-key-bags",
    inst t!"public-key-bag" t!"name" 0, inst t!"public-key" t!"name" 1]

/-- A certificate of the truststore. -/
def tsCert : Place :=
  [node t!"ietf-truststore:truststore", node t!"certificate-bags",
    inst t!"certificate-bag" t!"name" 0, inst t!"certificate" t!"name" 1]

/-- A host key of an endpoint. -/
def hostKey (ep : Place) (i : Nat) : Place :=
  ep ++ [node t!"ssh", node t!"ssh-server-parameters", node t!"server-identity",
    inst t!"host-key" t!"name" i]

/-- The data of a host key. -/
def hostKeyData (ep : Place) (i : Nat) : Place := hostKey ep i ++ [node t!"public-key"]

/-- SSH client authentication of an endpoint. -/
def sshAuth (ep : Place) : Place :=
  ep ++ [node t!"ssh", node t!"ssh-server-parameters", node t!"client-authentication"]

/-- An SSH user of an endpoint. -/
def user (ep : Place) (i : Nat) : Place :=
  sshAuth ep ++ [node t!"users", inst t!"user" t!"name" i]

/-- The public keys of an SSH user. -/
def userKeys (ep : Place) (i : Nat) : Place := user ep i ++ [node t!"public-keys"]

/-- The TLS certificate of an endpoint. -/
def tlsId (ep : Place) : Place :=
  ep ++ [node t!"tls", node t!"tls-server-parameters", node t!"server-identity",
    node t!"certificate"]

/-- TLS client authentication of an endpoint. -/
def tlsAuth (ep : Place) : Place :=
  ep ++ [node t!"tls", node t!"tls-server-parameters", node t!"client-authentication"]

/-- The end-entity certificates of an endpoint. -/
def eeCerts (ep : Place) : Place := tlsAuth ep ++ [node t!"ee-certs"]

/-- The certificates of authorities of an endpoint. -/
def caCerts (ep : Place) : Place := tlsAuth ep ++ [node t!"ca-certs"]

/-- A cert-to-name entry of an endpoint. -/
def ctnEntry (ep : Place) (i : Nat) : Place :=
  ep ++ [node t!"tls", node t!"netconf-server-parameters", node t!"client-identity-mappings",
    inst t!"cert-to-name" t!"id" i]

/-- The definition of keys or certificates in place. -/
def inlineDef : Text × Option (Text × Nat) := node t!"inline-definition"

/-- A reference to the keystore. -/
def keystoreRef : Text × Option (Text × Nat) := node t!"central-keystore-reference"

/-- A reference to the truststore. -/
def truststoreRef : Text × Option (Text × Nat) := node t!"central-truststore-reference"

/-- The keys of the system. -/
def systemKeys : Text × Option (Text × Nat) := node t!"libnetconf2-netconf-server:use-system-keys"

/-- A reference to another endpoint. -/
def endptRef : Text × Option (Text × Nat) :=
  node t!"libnetconf2-netconf-server:endpoint-reference"

/-- The type of the connections of a Call Home client. -/
def connType : Place := cli ++ [node t!"connection-type"]

/-- A function, the function that takes back what it did, and the entry both are about. -/
structure Pair where
  add : Fn
  del : Fn
  arity : Nat
  entry : Place

/-- The pairs of functions. -/
def pairs : List Pair := [
  ⟨add_address_port_ssh, del_endpt, 1, lis⟩,
  ⟨add_address_port_tls, del_endpt, 1, lis⟩,
  ⟨add_ch_address_port_ssh, del_ch_endpt, 2, che⟩,
  ⟨add_ch_address_port_tls, del_ch_endpt, 2, che⟩,
  ⟨add_ch_persistent, del_ch_client, 1, cli⟩,
  ⟨add_ch_period, del_ch_period, 1, connType ++ [node t!"periodic", node t!"period"]⟩,
  ⟨add_ch_anchor_time, del_ch_anchor_time, 1, connType ++ [node t!"periodic", node t!"anchor-time"]⟩,
  ⟨add_ch_idle_timeout, del_ch_idle_timeout, 1, connType ++ [node t!"periodic", node t!"idle-timeout"]⟩,
  ⟨add_ch_reconnect_strategy, del_ch_reconnect_strategy, 1, cli ++ [node t!"reconnect-strategy"]⟩,
  ⟨add_keystore_asym_key, del_keystore_asym_key, 1, ksKey⟩,
  ⟨add_keystore_cert, del_keystore_cert, 2, ksCert⟩,
  ⟨add_truststore_pubkey, del_truststore_pubkey, 2, tsKey⟩,
  ⟨add_truststore_cert, del_truststore_cert, 2, tsCert⟩,
  ⟨add_ssh_hostkey, del_ssh_hostkey, 2, hostKey lis 1⟩,
  ⟨add_ch_ssh_hostkey, del_ch_ssh_hostkey, 3, hostKey che 2⟩,
  ⟨add_ssh_keystore_ref, del_ssh_keystore_ref, 2, hostKeyData lis 1 ++ [keystoreRef]⟩,
  ⟨add_ch_ssh_keystore_ref, del_ch_ssh_keystore_ref, 3, hostKeyData che 2 ++ [keystoreRef]⟩,
  ⟨add_ssh_user_pubkey, del_ssh_user_pubkey, 3, userKeys lis 1 ++ [inlineDef, inst t!"public-key" t!"name" 2]⟩,
  ⟨add_ch_ssh_user_pubkey, del_ch_ssh_user_pubkey, 4, userKeys che 2 ++ [inlineDef, inst t!"public-key" t!"name" 3]⟩,
  ⟨add_ssh_user_authkey, del_ssh_user_authkey, 2, userKeys lis 1 ++ [systemKeys]⟩,
  ⟨add_ch_ssh_user_authkey, ch_del_ssh_user_authkey, 3, userKeys che 2 ++ [systemKeys]⟩,
  ⟨add_ch_ssh_truststore_ref, del_ch_ssh_truststore_ref, 3, userKeys che 2 ++ [truststoreRef]⟩,
  ⟨add_ssh_user_password, del_ssh_user_password, 2, user lis 1 ++ [node t!"password"]⟩,
  ⟨add_ch_ssh_user_password, del_ch_ssh_user_password, 3, user che 2 ++ [node t!"password"]⟩,
  ⟨add_ssh_user_interactive, del_ssh_user_interactive, 2, user lis 1 ++ [node t!"libnetconf2-netconf-server:keyboard-interactive"]⟩,
  ⟨add_ch_ssh_user_interactive, del_ch_ssh_user_interactive, 3, user che 2 ++ [node t!"libnetconf2-netconf-server:keyboard-interactive"]⟩,
  ⟨add_ssh_user_pubkey, del_ssh_user, 3, user lis 1⟩,
  ⟨add_ch_ssh_user_pubkey, del_ch_ssh_user, 4, user che 2⟩,
  ⟨add_ssh_endpoint_client_ref, del_ssh_endpoint_client_ref, 1, sshAuth lis ++ [endptRef]⟩,
  ⟨add_tls_server_cert, del_tls_server_cert, 1, tlsId lis ++ [inlineDef]⟩,
  ⟨add_ch_tls_server_cert, del_ch_tls_server_cert, 2, tlsId che ++ [inlineDef]⟩,
  ⟨add_tls_keystore_ref, del_tls_keystore_ref, 1, tlsId lis ++ [keystoreRef]⟩,
  ⟨add_ch_tls_keystore_ref, del_ch_tls_keystore_ref, 2, tlsId che ++ [keystoreRef]⟩,
  ⟨add_tls_client_cert, del_tls_client_cert, 2, eeCerts lis ++ [inlineDef, inst t!"certificate" t!"name" 1]⟩,
  ⟨add_ch_tls_client_cert, del_ch_tls_client_cert, 3, eeCerts che ++ [inlineDef, inst t!"certificate" t!"name" 2]⟩,
  ⟨add_tls_client_cert_truststore_ref, del_tls_client_cert_truststore_ref, 1, eeCerts lis ++ [truststoreRef]⟩,
  ⟨add_ch_tls_client_cert_truststore_ref, del_ch_tls_client_cert_truststore_ref, 2, eeCerts che ++ [truststoreRef]⟩,
  ⟨add_tls_ca_cert, del_tls_ca_cert, 2, caCerts lis ++ [inlineDef, inst t!"certificate" t!"name" 1]⟩,
  ⟨add_ch_tls_ca_cert, del_ch_tls_ca_cert, 3, caCerts che ++ [inlineDef, inst t!"certificate" t!"name" 2]⟩,
  ⟨add_tls_ca_cert_truststore_ref, del_tls_ca_cert_truststore_ref, 1, caCerts lis ++ [truststoreRef]⟩,
  ⟨add_ch_tls_ca_cert_truststore_ref, del_ch_tls_ca_cert_truststore_ref, 2, caCerts che ++ [truststoreRef]⟩,
  ⟨add_tls_ctn, del_tls_ctn, 2, ctnEntry lis 1⟩,
  ⟨add_ch_tls_ctn, del_ch_tls_ctn, 3, ctnEntry che 2⟩,
  ⟨add_tls_endpoint_client_ref, del_tls_endpoint_client_ref, 1, tlsAuth lis ++ [endptRef]⟩]

/-- Each function with the number of its names and the entry that may be changed: all but a few
are listed by what they delete or by the choice they are about. -/
def scopes : List (Fn × Nat × Place) :=
  pairs.map (fun x => (x.del, x.arity, x.entry)) ++ [
  (add_address_port_ssh, 1, lis),
  (add_address_port_tls, 1, lis),
  (add_ch_address_port_ssh, 2, che),
  (add_ch_address_port_tls, 2, che),
  (add_ch_persistent, 1, connType),
  (add_ch_period, 1, connType),
  (add_ch_anchor_time, 1, connType),
  (add_ch_idle_timeout, 1, connType),
  (add_ch_reconnect_strategy, 1, cli ++ [node t!"reconnect-strategy"]),
  (add_keystore_asym_key, 1, ksKey),
  (add_keystore_cert, 2, ksCert),
  (add_truststore_pubkey, 2, tsKey),
  (add_truststore_cert, 2, tsCert),
  (add_ssh_hostkey, 2, hostKey lis 1),
  (add_ch_ssh_hostkey, 3, hostKey che 2),
  (add_ssh_keystore_ref, 2, hostKey lis 1),
  (add_ch_ssh_keystore_ref, 3, hostKey che 2),
  (add_ssh_user_pubkey, 3, userKeys lis 1),
  (add_ch_ssh_user_pubkey, 4, userKeys che 2),
  (add_ssh_user_authkey, 2, userKeys lis 1),
  (add_ch_ssh_user_authkey, 3, userKeys che 2),
  (add_ssh_truststore_ref, 2, userKeys lis 1),
  (add_ch_ssh_truststore_ref, 3, userKeys che 2),
  (add_ssh_user_password, 2, user lis 1 ++ [node t!"password"]),
  (add_ch_ssh_user_password, 3, user che 2 ++ [node t!"password"]),
  (add_ssh_user_interactive, 2, user lis 1 ++ [node t!"libnetconf2-netconf-server:keyboard-interactive", node t!"use-system-auth"]),
  (add_ch_ssh_user_interactive, 3, user che 2 ++ [node t!"libnetconf2-netconf-server:keyboard-interactive", node t!"use-system-auth"]),
  (add_ssh_endpoint_client_ref, 1, sshAuth lis ++ [endptRef]),
  (add_tls_server_cert, 1, tlsId lis),
  (add_ch_tls_server_cert, 2, tlsId che),
  (add_tls_keystore_ref, 1, tlsId lis),
  (add_ch_tls_keystore_ref, 2, tlsId che),
  (add_tls_client_cert, 2, eeCerts lis),
  (add_ch_tls_client_cert, 3, eeCerts che),
  (add_tls_client_cert_truststore_ref, 1, eeCerts lis),
  (add_ch_tls_client_cert_truststore_ref, 2, eeCerts che),
  (add_tls_ca_cert, 2, caCerts lis),
  (add_ch_tls_ca_cert, 3, caCerts che),
  (add_tls_ca_cert_truststore_ref, 1, caCerts lis),
  (add_ch_tls_ca_cert_truststore_ref, 2, caCerts che),
  (add_tls_ctn, 2, ctnEntry lis 1),
  (add_ch_tls_ctn, 3, ctnEntry che 2),
  (add_tls_endpoint_client_ref, 1, tlsAuth lis ++ [endptRef])]

/-- A function that configures one case of a choice: the case and the other cases. -/
structure Choice where
  fn : Fn
  arity : Nat
  own : Place
  others : List Place

/-- The functions that configure one case of a choice. -/
def choices : List Choice := [
  ⟨add_ch_persistent, 1, connType ++ [node t!"persistent"], [connType ++ [node t!"periodic"]]⟩,
  ⟨add_ch_period, 1, connType ++ [node t!"periodic"], [connType ++ [node t!"persistent"]]⟩,
  ⟨add_ch_anchor_time, 1, connType ++ [node t!"periodic"], [connType ++ [node t!"persistent"]]⟩,
  ⟨add_ch_idle_timeout, 1, connType ++ [node t!"periodic"], [connType ++ [node t!"persistent"]]⟩,
  ⟨add_ssh_hostkey, 2, hostKeyData lis 1 ++ [inlineDef], [hostKeyData lis 1 ++ [keystoreRef]]⟩,
  ⟨add_ch_ssh_hostkey, 3, hostKeyData che 2 ++ [inlineDef], [hostKeyData che 2 ++ [keystoreRef]]⟩,
  ⟨add_ssh_keystore_ref, 2, hostKeyData lis 1 ++ [keystoreRef], [hostKeyData lis 1 ++ [inlineDef]]⟩,
  ⟨add_ch_ssh_keystore_ref, 3, hostKeyData che 2 ++ [keystoreRef], [hostKeyData che 2 ++ [inlineDef]]⟩,
  ⟨add_ssh_user_pubkey, 3, userKeys lis 1 ++ [inlineDef], [userKeys lis 1 ++ [truststoreRef], userKeys lis 1 ++ [systemKeys]]⟩,
  ⟨add_ch_ssh_user_pubkey, 4, userKeys che 2 ++ [inlineDef], [userKeys che 2 ++ [truststoreRef], userKeys che 2 ++ [systemKeys]]⟩,
  ⟨add_ssh_user_authkey, 2, userKeys lis 1 ++ [systemKeys], [userKeys lis 1 ++ [truststoreRef], userKeys lis 1 ++ [inlineDef]]⟩,
  ⟨add_ch_ssh_user_authkey, 3, userKeys che 2 ++ [systemKeys], [userKeys che 2 ++ [truststoreRef], userKeys che 2 ++ [inlineDef]]⟩,
  ⟨add_ssh_truststore_ref, 2, userKeys lis 1 ++ [truststoreRef], [userKeys lis 1 ++ [systemKeys], userKeys lis 1 ++ [inlineDef]]⟩,
  ⟨add_ch_ssh_truststore_ref, 3, userKeys che 2 ++ [truststoreRef], [userKeys che 2 ++ [systemKeys], userKeys che 2 ++ [inlineDef]]⟩,
  ⟨add_tls_server_cert, 1, tlsId lis ++ [inlineDef], [tlsId lis ++ [keystoreRef]]⟩,
  ⟨add_ch_tls_server_cert, 2, tlsId che ++ [inlineDef], [tlsId che ++ [keystoreRef]]⟩,
  ⟨add_tls_keystore_ref, 1, tlsId lis ++ [keystoreRef], [tlsId lis ++ [inlineDef]]⟩,
  ⟨add_ch_tls_keystore_ref, 2, tlsId che ++ [keystoreRef], [tlsId che ++ [inlineDef]]⟩,
  ⟨add_tls_client_cert, 2, eeCerts lis ++ [inlineDef], [eeCerts lis ++ [truststoreRef]]⟩,
  ⟨add_ch_tls_client_cert, 3, eeCerts che ++ [inlineDef], [eeCerts che ++ [truststoreRef]]⟩,
  ⟨add_tls_client_cert_truststore_ref, 1, eeCerts lis ++ [truststoreRef], [eeCerts lis ++ [inlineDef]]⟩,
  ⟨add_ch_tls_client_cert_truststore_ref, 2, eeCerts che ++ [truststoreRef], [eeCerts che ++ [inlineDef]]⟩,
  ⟨add_tls_ca_cert, 2, caCerts lis ++ [inlineDef], [caCerts lis ++ [truststoreRef]]⟩,
  ⟨add_ch_tls_ca_cert, 3, caCerts che ++ [inlineDef], [caCerts che ++ [truststoreRef]]⟩,
  ⟨add_tls_ca_cert_truststore_ref, 1, caCerts lis ++ [truststoreRef], [caCerts lis ++ [inlineDef]]⟩,
  ⟨add_ch_tls_ca_cert_truststore_ref, 2, caCerts che ++ [truststoreRef], [caCerts che ++ [inlineDef]]⟩]

/-- The functions that begin a configuration of the server: those adding something under
`netconf-server` that do not delete another case first. -/
def beginners : List (Fn × Nat × Place) := [
  (add_address_port_ssh, 1, lis), (add_address_port_tls, 1, lis),
  (add_ch_address_port_ssh, 2, che), (add_ch_address_port_tls, 2, che),
  (add_ch_reconnect_strategy, 1, cli),
  (add_ssh_hostkey, 2, hostKey lis 1), (add_ch_ssh_hostkey, 3, hostKey che 2),
  (add_ssh_keystore_ref, 2, hostKey lis 1), (add_ch_ssh_keystore_ref, 3, hostKey che 2),
  (add_ssh_user_pubkey, 3, user lis 1), (add_ch_ssh_user_pubkey, 4, user che 2),
  (add_ssh_user_authkey, 2, user lis 1), (add_ch_ssh_user_authkey, 3, user che 2),
  (add_ssh_user_password, 2, user lis 1), (add_ch_ssh_user_password, 3, user che 2),
  (add_ssh_user_interactive, 2, user lis 1), (add_ch_ssh_user_interactive, 3, user che 2),
  (add_ssh_truststore_ref, 2, user lis 1), (add_ch_ssh_truststore_ref, 3, user che 2),
  (add_ssh_endpoint_client_ref, 1, sshAuth lis ++ [endptRef]),
  (add_tls_server_cert, 1, tlsId lis), (add_ch_tls_server_cert, 2, tlsId che),
  (add_tls_keystore_ref, 1, tlsId lis), (add_ch_tls_keystore_ref, 2, tlsId che),
  (add_tls_client_cert, 2, eeCerts lis), (add_ch_tls_client_cert, 3, eeCerts che),
  (add_tls_client_cert_truststore_ref, 1, eeCerts lis), (add_ch_tls_client_cert_truststore_ref, 2, eeCerts che),
  (add_tls_ca_cert, 2, caCerts lis), (add_ch_tls_ca_cert, 3, caCerts che),
  (add_tls_ca_cert_truststore_ref, 1, caCerts lis), (add_ch_tls_ca_cert_truststore_ref, 2, caCerts che),
  (add_tls_ctn, 2, ctnEntry lis 1), (add_ch_tls_ctn, 3, ctnEntry che 2),
  (add_tls_endpoint_client_ref, 1, tlsAuth lis ++ [endptRef])]

/-- The functions for the keystore and the truststore. -/
def storeFns : List (Fn × Nat) :=
  [(add_keystore_asym_key, 1), (add_keystore_cert, 2), (add_truststore_pubkey, 2), (add_truststore_cert, 2)]

/-- The functions for the connection type of a Call Home client. -/
def connFns : List (Fn × Nat) :=
  [(add_ch_persistent, 1), (add_ch_period, 1), (add_ch_anchor_time, 1), (add_ch_idle_timeout, 1)]

/-- The functions deleting all the instances of a list, with the number of names left and the
list. -/
def allFns : List (Fn × Nat × Place) := [
  (del_endpt_all, 0, srv ++ [node t!"listen", node t!"endpoints", node t!"endpoint"]),
  (del_ch_client_all, 0, srv ++ [node t!"call-home", node t!"netconf-client"]),
  (del_ch_endpt_all, 1, cli ++ [node t!"endpoints", node t!"endpoint"]),
  (del_keystore_asym_key_all, 0, ksKey.take 2 ++ [node t!"asymmetric-key"]),
  (del_keystore_cert_all, 1, ksKey ++ [node t!"certificates", node t!"certificate"]),
  (del_truststore_pubkey_all, 1, tsKey.take 3 ++ [node t!"public-key"]),
  (del_truststore_cert_all, 1, tsCert.take 3 ++ [node t!"certificate"]),
  (del_ssh_hostkey_all, 1, (hostKey lis 1).take 7 ++ [node t!"host-key"]),
  (del_ch_ssh_hostkey_all, 2, (hostKey che 2).take 8 ++ [node t!"host-key"]),
  (del_ssh_user_pubkey_all, 2, userKeys lis 1 ++ [inlineDef, node t!"public-key"]),
  (del_ch_ssh_user_pubkey_all, 3, userKeys che 2 ++ [inlineDef, node t!"public-key"]),
  (del_ssh_user_all, 1, sshAuth lis ++ [node t!"users", node t!"user"]),
  (del_ch_ssh_user_all, 2, sshAuth che ++ [node t!"users", node t!"user"]),
  (del_tls_client_cert_all, 1, eeCerts lis ++ [inlineDef, node t!"certificate"]),
  (del_ch_tls_client_cert_all, 2, eeCerts che ++ [inlineDef, node t!"certificate"]),
  (del_tls_ca_cert_all, 1, caCerts lis ++ [inlineDef, node t!"certificate"]),
  (del_ch_tls_ca_cert_all, 2, caCerts che ++ [inlineDef, node t!"certificate"]),
  (del_tls_ctn_all, 1, (ctnEntry lis 1).take 7 ++ [node t!"cert-to-name"]),
  (del_ch_tls_ctn_all, 2, (ctnEntry che 2).take 8 ++ [node t!"cert-to-name"])]

/-- The lists of the YANG modules, by the names of their nodes from the top. -/
def listNames : List (List Text) := allFns.map (fun x => x.2.2.map (·.1))

/-- Every instance of a list has its keys. -/
def Keyed (t : List Node) : Prop :=
  ∀ n ∈ t, n.path.map Seg.name ∈ listNames → ∀ s, n.path.getLast? = some s → s.keys ≠ []

end Verif.ConfUtil
