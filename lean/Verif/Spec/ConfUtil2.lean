import Verif.Spec.ConfUtil

/-!
# Where the functions that edit configuration data put the values they are given

Written after `session_server.h`/`server_config.h` (documentation of `nc_server_config_add_*`) and the YANG modules: each function with the leaves it
sets.  The numbers are those of the values (`vals`) as listed with the functions of the model.
-/

namespace Verif.ConfUtil

/-- A value to be stored: given by the caller, or always the same. -/
inductive Given where
  | arg (i : Nat)
  | text (t : Text)
  deriving DecidableEq

/-- The value, if there is one. -/
def Given.value (vals : List (Option Text)) : Given → Option Text
  | .arg i => vals.getD i none
  | .text t => some t

/-- A function, the number of its names, and the leaves it sets. -/
structure Store where
  fn : Fn
  arity : Nat
  leaves : List (Place × Given)

/-- The format of public keys of SSH (ietf-crypto-types). -/
def sshFormat : Given := .text t!"ietf-crypto-types:ssh-public-key-format"

/-- The format of public keys of TLS (ietf-crypto-types). -/
def tlsFormat : Given := .text t!"ietf-crypto-types:subject-public-key-info-format"

/-- The leaf of a container or of a list entry. -/
def leaf (P : Place) (n : Text) : Place := P ++ [node n]

/-- A key pair in place: format of the public key, public key (value 0), format of the private key (value 1), private key (value 2). -/
def keyPair (P : Place) (f : Given) : List (Place × Given) :=
  [(leaf P t!"public-key-format", f), (leaf P t!"public-key", .arg 0), (leaf P t!"private-key-format", .arg 1), (leaf P t!"cleartext-private-key", .arg 2)]

/-- A cert-to-name entry: fingerprint, type of the mapping, name. -/
def ctnLeaves (P : Place) : List (Place × Given) :=
  [(leaf P t!"fingerprint", .arg 0), (leaf P t!"map-type", .arg 1), (leaf P t!"name", .arg 2)]

/-- The functions and the leaves they set. -/
def stores : List Store := [
  ⟨add_address_port_ssh, 1, [(lis ++ [node t!"ssh", node t!"tcp-server-parameters", node t!"local-address"], .arg 0),
    (lis ++ [node t!"ssh", node t!"tcp-server-parameters", node t!"local-port"], .arg 1)]⟩,
  ⟨add_address_port_tls, 1, [(lis ++ [node t!"tls", node t!"tcp-server-parameters", node t!"local-address"], .arg 0),
    (lis ++ [node t!"tls", node t!"tcp-server-parameters", node t!"local-port"], .arg 1)]⟩,
  ⟨add_ch_address_port_ssh, 2, [(che ++ [node t!"ssh", node t!"tcp-client-parameters", node t!"remote-address"], .arg 0),
    (che ++ [node t!"ssh", node t!"tcp-client-parameters", node t!"remote-port"], .arg 1)]⟩,
  ⟨add_ch_address_port_tls, 2, [(che ++ [node t!"tls", node t!"tcp-client-parameters", node t!"remote-address"], .arg 0),
    (che ++ [node t!"tls", node t!"tcp-client-parameters", node t!"remote-port"], .arg 1)]⟩,
  ⟨add_ch_persistent, 1, []⟩,
  ⟨add_ch_period, 1, [(connType ++ [node t!"periodic", node t!"period"], .arg 0)]⟩,
  ⟨add_ch_anchor_time, 1, [(connType ++ [node t!"periodic", node t!"anchor-time"], .arg 0)]⟩,
  ⟨add_ch_idle_timeout, 1, [(connType ++ [node t!"periodic", node t!"idle-timeout"], .arg 0)]⟩,
  ⟨add_ch_reconnect_strategy, 1, [(cli ++ [node t!"reconnect-strategy", node t!"start-with"], .arg 0),
    (cli ++ [node t!"reconnect-strategy", node t!"max-attempts"], .arg 1), (cli ++ [node t!"reconnect-strategy", node t!"max-wait"], .arg 2)]⟩,
  ⟨add_keystore_asym_key, 1, [(leaf ksKey t!"public-key-format", .arg 0), (leaf ksKey t!"public-key", .arg 1), (leaf ksKey t!"private-key-format", .arg 2),
    (leaf ksKey t!"cleartext-private-key", .arg 3)]⟩,
  ⟨add_keystore_cert, 2, [(leaf ksCert t!"cert-data", .arg 0)]⟩,
  ⟨add_truststore_pubkey, 2, [(leaf tsKey t!"public-key-format", sshFormat), (leaf tsKey t!"public-key", .arg 0)]⟩,
  ⟨add_truststore_cert, 2, [(leaf tsCert t!"cert-data", .arg 0)]⟩,
  ⟨add_ssh_hostkey, 2, keyPair (hostKeyData lis 1 ++ [inlineDef]) sshFormat⟩,
  ⟨add_ch_ssh_hostkey, 3, keyPair (hostKeyData che 2 ++ [inlineDef]) sshFormat⟩,
  ⟨add_ssh_keystore_ref, 2, [(hostKeyData lis 1 ++ [keystoreRef], .arg 0)]⟩,
  ⟨add_ch_ssh_keystore_ref, 3, [(hostKeyData che 2 ++ [keystoreRef], .arg 0)]⟩,
  ⟨add_ssh_user_pubkey, 3, [(userKeys lis 1 ++ [inlineDef, inst t!"public-key" t!"name" 2, node t!"public-key-format"], sshFormat),
    (userKeys lis 1 ++ [inlineDef, inst t!"public-key" t!"name" 2, node t!"public-key"], .arg 0)]⟩,
  ⟨add_ch_ssh_user_pubkey, 4, [(userKeys che 2 ++ [inlineDef, inst t!"public-key" t!"name" 3, node t!"public-key-format"], sshFormat),
    (userKeys che 2 ++ [inlineDef, inst t!"public-key" t!"name" 3, node t!"public-key"], .arg 0)]⟩,
  ⟨add_ssh_user_authkey, 2, []⟩,
  ⟨add_ch_ssh_user_authkey, 3, []⟩,
  ⟨add_ssh_truststore_ref, 2, [(userKeys lis 1 ++ [truststoreRef], .arg 0)]⟩,
  ⟨add_ch_ssh_truststore_ref, 3, [(userKeys che 2 ++ [truststoreRef], .arg 0)]⟩,
  ⟨add_ssh_user_password, 2, [(leaf (user lis 1) t!"password", .arg 0)]⟩,
  ⟨add_ch_ssh_user_password, 3, [(leaf (user che 2) t!"password", .arg 0)]⟩,
  ⟨add_ssh_user_interactive, 2, []⟩,
  ⟨add_ch_ssh_user_interactive, 3, []⟩,
  ⟨add_ssh_endpoint_client_ref, 1, [(sshAuth lis ++ [endptRef], .arg 0)]⟩,
  ⟨add_tls_server_cert, 1, (leaf (tlsId lis ++ [inlineDef]) t!"cert-data", .arg 3) :: keyPair (tlsId lis ++ [inlineDef]) tlsFormat⟩,
  ⟨add_ch_tls_server_cert, 2, (leaf (tlsId che ++ [inlineDef]) t!"cert-data", .arg 3) :: keyPair (tlsId che ++ [inlineDef]) tlsFormat⟩,
  ⟨add_tls_keystore_ref, 1, [(tlsId lis ++ [keystoreRef, node t!"asymmetric-key"], .arg 0), (tlsId lis ++ [keystoreRef, node t!"certificate"], .arg 1)]⟩,
  ⟨add_ch_tls_keystore_ref, 2, [(tlsId che ++ [keystoreRef, node t!"asymmetric-key"], .arg 0), (tlsId che ++ [keystoreRef, node t!"certificate"], .arg 1)]⟩,
  ⟨add_tls_client_cert, 2, [(eeCerts lis ++ [inlineDef, inst t!"certificate" t!"name" 1, node t!"cert-data"], .arg 0)]⟩,
  ⟨add_ch_tls_client_cert, 3, [(eeCerts che ++ [inlineDef, inst t!"certificate" t!"name" 2, node t!"cert-data"], .arg 0)]⟩,
  ⟨add_tls_client_cert_truststore_ref, 1, [(eeCerts lis ++ [truststoreRef], .arg 0)]⟩,
  ⟨add_ch_tls_client_cert_truststore_ref, 2, [(eeCerts che ++ [truststoreRef], .arg 0)]⟩,
  ⟨add_tls_ca_cert, 2, [(caCerts lis ++ [inlineDef, inst t!"certificate" t!"name" 1, node t!"cert-data"], .arg 0)]⟩,
  ⟨add_ch_tls_ca_cert, 3, [(caCerts che ++ [inlineDef, inst t!"certificate" t!"name" 2, node t!"cert-data"], .arg 0)]⟩,
  ⟨add_tls_ca_cert_truststore_ref, 1, [(caCerts lis ++ [truststoreRef], .arg 0)]⟩,
  ⟨add_ch_tls_ca_cert_truststore_ref, 2, [(caCerts che ++ [truststoreRef], .arg 0)]⟩,
  ⟨add_tls_ctn, 2, ctnLeaves (ctnEntry lis 1)⟩,
  ⟨add_ch_tls_ctn, 3, ctnLeaves (ctnEntry che 2)⟩,
  ⟨add_tls_endpoint_client_ref, 1, [(tlsAuth lis ++ [endptRef], .arg 0)]⟩]

/-- The values that may be left out (`max_attempts` and `max_wait` of 0, `fingerprint` of NULL): documentation of the functions. -/
def mayLack (f : Fn) (i : Nat) : Bool :=
  [(add_ch_reconnect_strategy, 1), (add_ch_reconnect_strategy, 2), (add_tls_ctn, 0), (add_ch_tls_ctn, 0)].contains (f, i)

end Verif.ConfUtil
