# Design of the libnetconf2 verification

The code is C and is only read as text. Each part that carries a property is
re-expressed as small total Lean functions (`lean/Verif/Model/*.lean`), each
definition citing the lines of `/repo` it mirrors. Properties are stated in
`lean/Verif/Props/*.lean` against small independent specifications
(`lean/Verif/Spec/*.lean` or local `Spec` namespaces); lemmas are in
`lean/Verif/Lemmas/*.lean`.

## Trusted base

* the Lean 4.33.0 kernel;
* the axioms `propext`, `Classical.choice`, `Quot.sound` (at most; each Props
  file is checked with `#print axioms`); no project axioms;
* the transcription of C to Lean (the model), cited per definition;
* assumptions about external code (libyang, libssh, OpenSSL, libc, kernel),
  which enter as parameters of the models or as explicit hypotheses.

Assumptions about external code, in particular:

* `crypt` returns a text or NULL and equal arguments give equal results;
* libssh reports a verified signature only if it was verified, and events of one
  connection one after another;
* OpenSSL calls the verify callback for each problem and certificate from the
  root to the end entity and stops if it returns 0; mbedTLS collects the flags
  the callback leaves; `X509_cmp` with NULL is undefined;
* `ly_in_memory` fails on NULL; `lyd_parse_op` may give an envelope though the
  content of the reply is not valid (as the comment in session_client.c:2221 says);
* `mktime` undoes `localtime_r` and is strictly monotone in years and months,
  days, and seconds as far as used (`Cal.Lawful`); times are from 1970 on;
* libyang: `lyd_new_path` creates the missing nodes of a path and sets the value of
  the last, or fails and changes nothing; `lyd_find_path` finds the instance with
  the given keys, needs keys for a list, and sets its output to NULL on failure;
* The TLS library and libssh write a key or certificate as one PEM text with a label and a newline
  at its end and read what they wrote (`Trusted` in `Spec/KeyUtil`); base64 is their work.
* libyang describes errors of messages with the path of the element and quotes the name of a wrong
  attribute first; `ly_ctx_get_module_latest` and its siblings give a module of the context with that
  name if there is one (`Latest` in `Spec/ServerRpc`); `lyd_insert_child` moves all siblings.
* The functions of Mbed TLS 3 on ASN.1 and general names behave as written in `Model/Crl`; OpenSSL
  decodes distribution points as RFC 5280 says.
* Diffs given to the server have the form of `Spec/ConfStore` (`tsTree`, `ksTree`): entries created as a
  whole, keys first, mandatory leaves replaced, as `lyd_diff_siblings` and sysrepo make them.
* The SSH parameters of an endpoint are looked at alone (`Spec/ConfUsers`, `sshTree`); whether a key is in
  the SubjectPublicKeyInfo format is a parameter.
* TLS: `SSL_CTX_set_min_proto_version` and the like limit the accepted versions to a range; which versions the
  library supports is a parameter (Mbed TLS: only 1.2 and 1.3).
* Sockets: whether a socket may listen at an address and port depends on the sockets listening already in some fixed way
  (a parameter); descriptors are not used again in the model, so that the use of a closed one shows.
* Diffs name a leaf that loses its value as deleted (as libyang does without `LYD_DIFF_DEFAULTS`; with it the leaf appears as
  replaced by its default value, which is covered by the other edits).
* Call Home threads start when the application has given its callbacks; what they do meanwhile does not change the configuration.
* lyd_find_path finds the top-level container wherever it is among its siblings; the loop for operation attributes goes over the siblings after it.
* connect on a non-blocking socket and poll report what `Model/SockConnect` lists; the resolver gives a list of addresses. Established Call Home connections belong to the session (other models).
* `Model/CtxFill`: libyang's lys_parse, lys_set_implemented, ly_ctx_compile are arbitrary functions on lists of modules; the assumptions on them (`LibOk`, `LibOne`, `LibOnly`, `SetOk`, `Available`) are hypotheses of the theorems that need them. Features, imports and submodules are left out there (see C47, C66-C68 for the module lists).
* `Model/Dnssec`: the validating resolver and the parser of DNS messages (libval, libsres) report what is in `Reply`; record data are read only within the record (reading on inside of the message buffer counts as an error too).
* `Model/UnixSock`: the file system is changed only by the calls modelled, different paths are different files, `sun_path` has 108 bytes (Linux); the answer of the passwd database does not depend on the size of the buffer once it is large enough; `sysconf` does not give 0.
* `Model/ConnRes`: libssh does not close a descriptor it was given and reports it from `ssh_connect`/`ssh_bind_accept_fd` on (src/session.c relies on this); `SSL_CTX_set_cert_store` takes over the store; `ip_host` is NULL when nc_sock_connect fails; locks, capabilities and channel are counted to the session; one NETCONF session per SSH session.
* `Model/TransCfg`: `mbedtls_ssl_config_defaults` resets versions and cipher suites and makes a client check the server; OpenSSL changes nothing when it does not take a list of cipher suites; `ssh_bind_options_set` leaves out unknown algorithms and fails without any known; SSH algorithms are chosen as in RFC 4253, section 7.1, guesses of the client not considered.
* `Model/TtyPrompt`: `tcsetattr` changes all settings or none; signals while typing are not considered; `realloc` of size 0 frees.
* `Model/HostKeys`: libssh holds one host key of each type and reads it while the file exists; it reads no key from an incomplete file; `mkstemp` creates files with mode 0600.
* Locks (C182–C185): callbacks of users take no locks of the library, except adding a new Call Home session to a pollsession; waits for the network, libssh, OpenSSL and libcurl end; a timed lock either is taken or times out; rwlocks prefer writers.
* C191: OpenSSL's `EVP_DecodeBlock` (blanks skipped around the text, padding taken for zeros and not removed) and `EVP_EncodeBlock` are modelled as in its documentation and source.
* C195: `ly_ctx_load_module` implements the module with exactly the features given.
* C196, C197: one round of a waiting loop (a call of libssh or the TLS library and a sleep) ends within a given time.
* C199: libssh keeps error texts of up to 1023 characters; texts of `strerror` and `__FILE__` have at most 200.
* C200: return values of `SSL_read`/`SSL_get_error` and `mbedtls_ssl_read` for the causes told apart (documentation of OpenSSL 3 and Mbed TLS 3). C202: `mbedtls_ssl_close_notify` sends what is left of the notification again when called again. C203, C204: Mbed TLS reports the size of its texts, and `mbedtls_base64_encode`/`_decode` work as their (modelled) source does.
* C205: libyang parses what it printed (`Faithful`), prints replies without a declaration, with the prefix of the request; callbacks do not change the status of the session themselves; `dlg_faithful` shows that the assumptions can be met.
* C206–C210: which `_free` functions of Mbed TLS accept NULL (all but `mbedtls_entropy_free`); calls that fill a structure need it initialised; `mbedtls_x509_crt_parse_der` leaves nothing behind when it fails; `mbedtls_x509_crt_free` frees the further certificates of a list itself; memory of the library hanging on a structure is one flag; texts of verification errors are between 1 and 256 characters; printing a NULL text is not looked at.
* C211–C217: reading files and, but for `strndup` and `timegm`, allocating does not fail; `crypt` leaves its buffer alone when it fails; condition variables with default attributes use the real-time clock; waits are not woken for other reasons.
* C218, C219: the value of a leaf decides its text, different values have different texts; the key that libssh makes of a Base64 text depends on the text only; the configuration does not change during authentication (C183).
* C220, C221: the value of a leaf decides its text, different values have different texts; the certificate that a TLS library makes of a Base64 text depends on the text only; the library reports nothing only if the chain leads to a certificate that was loaded as trusted; the configuration does not change during the handshake (C183).
* C222, C223, C224: the two locks of a session exclude each other's holders (C17 for the RPC lock, pthread for the IO lock); the steps between two uses of the session are atomic, so torn or delayed reads of the status field by other processors are not covered; nobody frees the session meanwhile; progress (`threads_go_on`) assumes what libyang logs (`Logs`, as C115) and says that a schedule exists, not that the scheduler of the system picks it; the buffers given to `nc_write` are those of the model of C01 and C06.
* C225, C226: the value of a leaf decides its text, different values have different texts; what a library makes of a Base64 text with its format depends on them only; the configuration does not change while a connection is set up (C183).
* `Model/ClientTls`: the TLS libraries find only chains of certificates and one if there is any (`LibOk`), compare names, end chains and use revocation lists as documented, and the handshake succeeds only with a peer that owns the key of its certificate; two certificates with the same number are the same.
* `Model/SshTalk`: libssh delivers requests and replies (no timeouts, no errors), reports `SSH_AUTH_SUCCESS` to a client asking about a key exactly if the server accepts its use, signs with the private key it has read, and tells the methods set with `ssh_set_auth_methods`.
* `Model/PeerInfo`: `inet_ntop` and `inet_pton` as documented (`Spec/PeerInfo.Lib.Good`, shown to be possible by `numLib_good`), `getaddrinfo` gives the addresses of a name with the port written in decimal, `bind` and `connect` refuse addresses of another family than that of the socket, libssh gives back the host and port that were set.
* `Model/TlsTalk`: the TLS libraries of both sides deliver their messages, the verification of the server is about the certificates sent (`Props/TlsTalk.WorldOk`, shown to be possible by `ttWorld_ok`), only owners of a key can use it; with TLS 1.3 the client does not wait for the server's verdict, with TLS 1.2 it does.
* `Model/ConfUse`: libyang gives the children of a node in the order of the schema and the default nodes added by `lyd_new_implicit_tree`; different names have different numbers (`hC`); the data are not validated between the functions and the server.
* `Model/ConfUserUse`: libyang gives the children of a node in the order of the modules, and texts have numbers one to one (`hv`, `hC`); the data are not validated between the functions and the server; host keys are a parameter (`hosts`); files of keys are read and passwords are hashed before.
* `Model/ConfTlsUse`: as for `Model/ConfUserUse`; the data are not validated between the functions and the server, in particular that the node `name` of an entry is only there for the map type `specified` (`when` of ietf-x509-cert-to-name) is not removed, the server ignores it (`ctnNode_name`); that references do not go in circles is in `Model/References`.
* `Model/ConfStoreUse`: as for `Model/ConfUserUse`; `lyd_new_path` and `lyd_find_path` work on all trees of the data, so the stores are found beside the container of the server; the containers of bags are always there with the truststore.
* `Model/ConfHostUse`: as for `Model/ConfUserUse`; instances of `host-key` are read in the order of the data.
* `Model/ConfChUse`: as for `Model/ConfUse`; libyang adds new instances of the list of endpoints, which is ordered by the user, at the end; default nodes are not there before the setup, so a function that deletes only a default node fails in the model.
* `Model/SockOpt`: a socket that is accepted has the options of the listening socket and is blocking (Linux); options set stay set; only TCP sockets.
* `Model/RpcCb`: the application sets callbacks in one thread at a time; a context at the address of a freed one has empty fields.
* `Model/ChCtx`: `nc_session_free` called by the application waits for the Call Home thread without reaching its time limit (src/session.c:970-979).
* `Model/ChDispatch`: names of clients are unique in the data tree (`Keyed`); a thread runs until it is joined.
* `Model/CertThread`: start and stop are called from one thread of the application, and not from the callback of the thread itself; `pthread_join` returns when the thread has ended.
* `Model/ChFree`: mutex and condition work as POSIX says, a wait may end without a signal; reads of `status` and the flag see the last write although `status` becomes invalid without the mutex; one thread of the application calls `nc_session_free`, and not from the callback that is given the session.
* `Model/ChanAccept`: a failed handshake leaves the session starting unless reading or writing made it invalid (src/io.c, all outcomes are allowed for); the ring is the list of `Model/SshRing`.
* `Model/PamAuth`: a `pam_start` that returns `PAM_SUCCESS` has set the handle; `PAM_NEW_AUTHTOK_REQD` is 12, as in Linux-PAM; the library is built with PAM (without it see the claims of `Model/SshAuth`).
* `Model/MountData`: one thread, so that no other session of the ring is in its handshake when one is freed; libyang destroys a context without calling its callback; contexts of the application are not destroyed while used.
* POSIX calls return as documented; a mutex locked twice by one thread blocks
  until the timeout.

Undefined behaviour in C is a distinct outcome (`ub`) of the models where it is
reachable. If a property is false of the code, the negation is proved
with a concrete witness (theorem suffix `_false`), and what does hold is kept
with the suffix `_partial`.

## Properties: what is modelled and how it is proved

| id | model | method |
|----|-------|--------|
| C01 | io.c writer (`nc_write_clb` buffer machine) and reader (`nc_read_until`, `nc_read_msg_io`) over byte lists | invariant of the writer: wire = encoded nonempty chunks whose concatenation (+ buffer) is the input; reader correctness on every list of nonempty chunks by induction |
| C02 | same reader, 1.0 branch | block matcher proved equal to first-occurrence spec under a no-partial-overlap condition; false in general (witness) |
| C03 | same | induction over the list of messages |
| C04 | reader with C integer widths (`size_t`, `uint32_t`, `int`) | false (witness header `-1`, messages of 2 GiB in NETCONF 1.0), partial with bounds on header value and length |
| C05 | same | false (lenient `strtoul`), partial |
| C06, C07 | writer machine | invariant by induction on the writes |
| C08 | writer over a transport that may fail | false (return values of the callback ignored), partial |
| C09 | message-id counter, any number of sending threads with the unlocked read of the id | invariant over interleavings; the id told to the caller is false for concurrent senders |
| C10 | `parse_cpblts` | false (prefix comparison), partial for well-formed lists |
| C11, C12 | hello child loops | decision logic over arbitrary child lists |
| C13, C14 | capability list construction | finite decision + induction over additions |
| C15 | poll set array | refinement to multiset |
| C16 | ticket queue with 8-bit ids | small-step system with threads; false (wrap), partial when fewer than 256 tickets are spanned |
| C17 | rpc lock | small-step system, invariant |
| C18 | round robin index | arithmetic induction |
| C19, C20 | poll state machine | decision logic + histories; false parts with witnesses |
| C21 | counter | induction; wrap bound |
| C22 | setters | invariant |
| C23, C85 | listening sockets with remembered events and connections waiting at each socket | invariant over event sequences, ranking argument for fairness (at most 2n+1 calls); C85 false after a new listening socket, partial |
| C24, C25, C26 | endpoint arrays with stale slots | array model keeping stale memory beyond the count; refinement |
| C27 | reference graph check with divergence as outcome | soundness/completeness; false termination |
| C28 | sorted linked list | invariant, refinement to finite map |
| C29 | C-string editing | false (missing terminator move), partial |
| C30 | tree walk | equality with declarative spec |
| C31, C80 | type of a message from its text, buffer of messages of the other type, over arrivals and calls | inductive description of XML prologs; conservation of messages; false parts with witnesses |
| C32, C81 | `strtoul` on the message-id, decision over the result of parsing | decimal texts; false parts with witnesses |
| C82 | reading loops when a client session is freed | induction over an infinite stream; false, partial |
| C83 | flag and counter of notification threads | invariant; false, partial |
| C33, C34, C69–C72 | SSH authentication with passwords, keys, channels and subsystems of one connection | invariant over event sequences with the list of successful requests; false parts with witnesses |
| C35, C84 | sessions as memory nodes with `next` pointers, freed memory is undefined | refinement to a list of live sessions, cyclic segments; C84 false, partial |
| C36, C77, C78 | verify callbacks of both TLS libraries over sequences of reports | invariant over report sequences; false with OpenSSL, partial |
| C37, C38, C73–C75 | cert-to-name: fingerprints, common and alternative names | relational first-match specification, fingerprints as octets; false parts with witnesses |
| C76 | end-entity certificates that cannot be imported (same model) | case analysis; false with OpenSSL |
| C79 | socket functions given to mbedTLS | case analysis; false |
| C39 | template expansion with growing buffer | equality with an inductive grammar; false part |
| C40 | choice of the next endpoint with changing configuration | invariant over attempts, closed formula for the endpoint tried; false after sessions, partial |
| C41, C86, C87 | time until a periodic connection with C remainder and conversions | integer arithmetic, exact condition when it is right; false, partial |
| C88, C89 | Call Home thread and removal of its client as a system of atomic sections | invariants over interleavings with a ranking; false, partial |
| C42, C90 | first and next notification time over an abstract calendar (`localtime_r`/`mktime` as `Cal`), wake-up time | intervals as an invariant of the current position; a concrete UTC calendar shows the assumptions are met; false, partial |
| C91 | reading of all certificates | induction over the certificates; false, partial |
| C92, C93 | expiration thread as a system of atomic sections | invariants over interleavings; false, partial |
| C43, C44 | time arithmetic, poll loop | arithmetic, scripts of poll results |
| C45 | error object | list of children; invariant over setter sequences, RFC 6241 appendix A as specification |
| C46 | bind array with swap-in deletion | loop invariant (permutation); false, partial |
| C47 | module selection with `strcmp` order | false (the oldest is chosen, proved), partial |
| C48 | counter | induction |
| C49, C94 | constructors and `nc_rpc_free` over a heap with failing allocations | accounting of the allocated blocks through every constructor; false for failing allocations, partial |
| C95, C96 | `nc_send_rpc` up to the tree handed to the printer, `recv_reply_dup_rpc`; what libyang accepts is a parameter | a reader written after the YANG modules inverts the sender; false for rejected origin filters, partial. If libyang rejects nothing, an RPC is sent exactly if the context has the modules of its operation and parameters (`rpc_sent_ready`); XML text of the user is sent only if libyang can parse it (`rpc_xml_parsed`) |
| C50 | contexts with reference counts and the context of each thread | invariant: count = number of using threads, over sequences of whole operations; false for interleaved updates of the counter |
| C51 | password checks (model of C33) | decision logic, crypt as parameter with a contract |
| C52 | length accounting of the capability string | false (unchecked `sprintf`/`strcat`), partial under a length bound |
| C53 | `nc_ps_clear` over the array | loop invariant, permutation with filters |
| C54 | poll state machine of one session | induction over histories |
| C55 | object arrays with stale slots | refinement to a list, conservation of objects |
| C56 | reference check (model of C27) | soundness and completeness against an inductive definition of finite chains |
| C57, C58 | cipher suite names and arrays of both TLS libraries | induction over lists; arithmetic of the allocation |
| C59, C60, C61 | deadlines, poll loop with times, message lock timeout | linear arithmetic, induction over the script of system results |
| C62, C63 | rpc-error children (model of C45) | invariant over setter sequences; false parts with witnesses |
| C64 | poll structure (model of C15) | invariant of the remembered index over all operations |
| C65 | array elements as memory blocks, atomic sections of threads | invariant over interleavings; false (use after free), partial |
| C66, C67, C68 | client's view of server modules (`strstr` parsing, yang-library children, array from `realloc`) | induction over parameter and module lists; false parts with witnesses |
| C97, C101 | host key check with the user's typed answers, order of authentication steps | decision table as an iff; induction over the methods |
| C98, C99, C100, C102 | loop over methods and keys of the SSH client against an arbitrary server with state | induction over the methods left; false parts with witnesses, partial |
| C103, C104 | list of key pairs, `fgets`/`strcasestr` on the key file | list reasoning (permutation); false parts with witnesses, partial |
| C105, C106 | authorized keys file as text with C string functions, key type detection on a buffer with an end; libssh import and base64 are parameters | induction over the file; false parts with witnesses, partial |
| C107 | PAM conversation callback; the module is its list of messages | filters of lists; false with information messages, partial |
| C108 | loops with the clock (calls take no time, a sleep takes 100 µs) | induction over the steps; false for dialogues and for timeout 0, partial |
| C109–C113 | all functions editing configuration data as lists of calls with their path formats, the data as a list of nodes with paths, libyang's schema as a parameter | reading of a filled format proved for all names; checks of the tables of functions by evaluation, lifted to all names, values and data; false parts with witnesses |
| C114 | `Model/KeyUtil`: numbers to bytes and data of SSH; the reader in `Spec/KeyUtil` is written from RFC 4251, 4253 and 5656 (two's complement, shortest form) and shares nothing with the writer | by induction over the bytes of the number; a parameter zero is undefined behaviour (`_false`). |
| C115 | `Model/KeyUtil`: from the file to the data of the configuration and back to the text for the library, with the identity of the format in between | PEM is defined by RFC 7468 in `Spec/KeyUtil`; the libraries are parameters with the assumptions `Trusted`. `key_pair_complete` and `cert_read` are the other direction. |
| C116 | `Model/KeyUtil.readSsh2` over texts | files of RFC 4716 are generated in `Spec/KeyUtil` from headers and lines. Two witnesses for the files that are not read. |
| C117 | `Model/KeyUtil.sshPubkeyFile` | by cases of the first line; `pubkey_file_read` is the other direction. |
| C118 | `Model/ServerRpc`: receiving, the error reply, the callback, sending and the return value of one message; what was read, the lock and the connection are chosen freely for every message | a step relation (one message adds at most the one reply it needs) and induction over the messages; witness for the busy lock |
| C119 | `recvRpc`, `prepareErr` | by cases of the errors of libyang; the wanted errors are written from RFC 6241 in `Spec/ServerRpc` |
| C120 | `recvRpc` for invalid frames | by cases of lock and connection; witness with a second message |
| C121 | `rpcNode`, `callOp`, `sendReply`, `closeSession` | the callback wanted is defined from the schema (`Serves`), not from the model; induction over the messages |
| C122 | `quoted`, `findNode`, `chooseErr` | induction over the message; the n-th quoted part is defined by the position of the quotes (`NthQuoted`) |
| C123 | `getSchema`, `findSchema` over a list of modules; the latest module of libyang is a parameter with contract `Latest` | by cases; two witnesses |
| C124 | `replyData`, `addErr`, `printReply`, `replyFree` over a memory of trees where using or freeing a missing tree is undefined | induction over the errors |
| C125 | `Model/Crl.osslUris` over decoded extensions | induction over certificates, points and names; two witnesses |
| C126 | `mbedUris` with the functions of Mbed TLS on ASN.1 written out over positions in a buffer; faults are outcomes of their own, loops have fuel and running out of it is a fault | every step moves forward and stays below the end it got; induction over the fuel |
| C127 | the same; DER and the extensions of RFC 5280 are encoded in `Spec/Crl` | what was encoded is at its position (`At`), then induction over names, points, extensions and certificates; four witnesses |
| C128 | `fetch`, `addOssl`, `addMbed`; every download succeeds or fails with any data | induction over the downloads; five witnesses |
| C129 | `Model/ConfStore`: callbacks of the truststore on arrays, the walk of `parse` over YANG trees; `Spec/ConfStore`: configurations are maps, diffs are typed edits with their YANG trees | every edit is simulated: the array holds the map before and after; searches in arrays with distinct keys, removal is a permutation |
| C130 | the same for the keystore | the same; witness: removal of a public key |
| C131 | `Model/ConfUsers`: callbacks for users and host keys of one endpoint with the union of key array and bag name; `Spec/ConfUsers`: configurations, typed diffs in schema order, what the server then does | one entry of the arrays is followed through the walk (`Focus`), every edit is simulated on it; the changes that are not followed are exactly excluded (`lost`) and each has a witness |
| C132 | the same | names of host keys along all edits; witness: removal of the first of three |
| C133 | `Model/ConfTls`: callbacks for the identity and trusted certificates of one endpoint, with the unions of key data and names, certificates and bag names; `Spec/ConfTls`: configurations, typed diffs, what is presented and trusted | identity and both arrays are followed on their own (`Focus`), every edit is simulated; excluded changes (`lost`) have witnesses, the one from bags to certificates a general negation |
| C134 | `tlsVersion`, `opensslRange`, `mbedRange`, `accepts` in `Model/ConfTls` | bits of the mask along all edits; the range against the set of versions |
| C135 | `ctnNode` on top of `Model/Ctn` | every edit simulated on the sorted list; witnesses for changed names and map types |
| C136 | `Model/ConfEndpt`: callbacks for endpoints, transports, address and port with the listening sockets of the process; `Spec/ConfEndpt`: configurations, typed diffs, `ListenAs` | a change of one endpoint is followed on its own (`Part`), invariant on sockets and endpoints; with any operating system by monotony in what it grants; general negations for changes that are not followed |
| C137 | keepalives and idle timeout in the same model, keepalives of Call Home endpoints in `Model/ConfCh` | the same simulation; witness |
| C138 | the same model | invariant of the callback for any node (`parse_always`) |
| C139 | `Model/ConfCh`: callbacks for Call Home clients and their endpoints, with freed names and parameters; `Spec/ConfCh`: configurations with ordered endpoints, typed diffs, `EpsAs` | endpoints and clients are followed on their own (`Part`), element by element (`ListRel`); general negations for edits that are not followed |
| C140 | the settings of clients in the same model | settings are followed on their own; edits of endpoints leave them alone (`parse_frame`) |
| C141 | `Model/ConfSetup`: nc_server_config_setup_data and setup_diff over all modules, removal of the old configuration, the order of modules; `Spec/ConfSetup`: configuration of the whole server, data and typed diffs over all modules, `As` | one invariant per part (from `ConfStore`, `ConfEndpt`, `ConfCh`), induction on the steps; success under a granting operating system, then monotone in it |
| C142 | intervals and their texts in the same model | every edit keeps the multiset; the witness for the order is fed into `Model/CertExp` |
| C143 | the checks at the start and the failing cases of the same model | sockets that remain after accepted data are newer than all before (`Fresh`), for any data trees |
| C144 | the check for operation attributes in the same model | direct; witness by evaluation |
| C145 | `Model/SockConnect`: sock_connect, nc_sock_connect and the attempts of a Call Home endpoint, with the answers of the operating system as parameters and numbered sockets | invariant "sockets of others, and the one held", for every answer |
| C146 | same model | how the loop ends (`Ends`): found, hangs, nothing; induction on attempts for the false part |
| C147 | same model, the addresses may differ in every attempt | the pending socket goes to an address of an earlier attempt, induction |
| C148 | `Model/CtxFill`: nc_ctx_check_and_fill with all its helpers; a context is a list of modules, libyang, files, server and callback are parameters, RPCs are numbered | `body_cut` splits a successful run at the list of modules; invariants (`Inv`) up to there, induction on the list after it; `cfEnv` is a concrete environment that meets all assumptions; `provided_complete` (Lemmas/CtxFillServer) runs the code with modules sent by the server |
| C149 | same model, replies may break the session | induction on the list; the cases before the list one by one; `running_not_broken` by an invariant of all RPCs |
| C150 | same model, freeing in the wrong way is `ub` | no source but the callback gives anything that `free` does not free |
| C151 | same model | all exits go through `cleanup` |
| C152 | same model | `body_cut`; available environment |
| C153 | same model | two runs are equal, function by function |
| C154 | `Model/CertDates`: nc_server_notif_cert_exp_dates_get with its loops, times from `Model/CertExp` | all loops together are one `run` over the certificates of the configuration |
| C155 | same model, paths as built by asprintf | paths are cut at apostrophes (`pieces`, the literals of XPath 1.0); the specification of the paths is injective |
| C156 | `Model/Dnssec`: the SSHFP check of the client; resolver and DNS parser are parameters | inversion of the loop over the records |
| C157 | same model | records before are skipped |
| C158 | same model | from the result of the check |
| C159 | same model, reading outside of record data is `ub` | induction on the records |
| C160 | `Model/UnixSock`: nc_sock_listen_unix with a file system, world after each call kept | case analysis of the calls; history checked world by world |
| C161 | same model, adding and removing endpoints | invariant: listening endpoints are reached at their paths, paths differ |
| C162 | same model | invariant: open sockets are those of the endpoints |
| C163 | same model | from C160 |
| C164 | same model, connect of nc_connect_unix | snprintf leaves short paths alone |
| C165, C166 | same model, nc_accept_unix_session, nc_getpw | soundness and completeness of the lookup |
| C167 | same model, loops of nc_getpw, nc_server_ssh_getpwnam, nc_server_ssh_getspnam | well-founded induction on what is missing |
| C168 | `Model/ConnRes`: objects and descriptors as tokens through all connecting and accepting functions and nc_session_free | for any outcome of each call, any other objects; cases step by step |
| C169, C171 | same model | same |
| C170, C172 | same model, both TLS libraries | same; the failing cases as equations |
| C173, C174 | `Model/TransCfg`: the configuration object of the library along nc_accept_tls_session and nc_client_tls_session_new | limits of versions from C134; cases of library and side |
| C175 | `setAlgs`, `bindAlgs`, `negotiate` in `Model/TransCfg` | lists announced per kind, first common algorithm |
| C176 | `Model/TtyPrompt`: terminals with settings, open files, the three callbacks | cases of the ways to open, for any settings and other open files |
| C177 | `readLine` in `Model/TtyPrompt` | induction over the input with the size of the buffer a power of two |
| C178, C179 | `Model/HostKeys`: keystore lookup, temporary files with permissions, keys of libssh by type | induction over the host keys |
| C180 | `Model/ServerLife`: members of `server_opts` set by functions, log of calls and frees | invariant over programs: what is set is not freed |
| C181 | same model | two runs from servers that agree |
| C182 | `Model/Locks`: functions as sequences of taking and releasing locks, using data and joining threads, any number of threads, writer-preferring rwlocks | invariant over schedules: locks taken in the order of a rank; potential growing along waits; false for `nc_connect_ssh_channel` without a channel (lock kept): concrete runs |
| C183, C184, C185 | same model | invariant: data is used with its lock; false (schedules given), partial |
| C186, C187 | `Model/PollIo`: `nc_read_poll`, `nc_session_is_connected` with reports of the system as arguments | case analysis, induction over sequences of waits; false (POLLNVAL), partial |
| C188 | `nc_session_cpblt` on lists of texts | induction |
| C189, C190 | `Model/ClientOpts`: setters, getters and destroying of the texts of client settings, on blocks of memory; freed memory used or freed is `none` | invariant (each pointer has a block of its own, but those just freed) over all sequences of calls; false twice, partial |
| C191, C192, C193 | `Model/Codec`: `nc_base64_decode_wrap`, `nc_base64_encode_wrap`, `nc_tls_get_err_reasons`, `prv_vprintf` with sizes of buffers | induction on groups of characters, on the queue of errors; C191 and C192 false in part, partial |
| C194, C195 | `Model/SupAlgs`: `nc_server_config_oper_get_algs` and its four callers, `nc_server_init_ctx` | induction, evaluation over all listed algorithms against the names in the YANG modules; C194 false in part, partial |
| C196, C197 | `Model/Establish`: loops of `open_netconf_channel`, the TLS handshakes, `nc_accept_ssh_session` with its two parts, over sequences of answers with times | induction on the rounds of a loop, composed over the steps; C197 false in part, partial |
| C198, C199 | `Model/FixBuf`: every `sprintf` into an array of fixed size, an overflow is `none` | length of decimal texts by induction, value read back by an independent function; C199 false in part, exact bounds proved |
| C200 to C204 | `Model/TlsWrap`: read, write, handshake step and close notification of both TLS libraries; growing buffers and Base64 of Mbed TLS with the documented behaviour of its functions | C200/C201 by cases over all return values; C202 by induction on the results of `send`; C203 by induction on the doubling of the buffer; C204 by induction on groups of bytes and shape of accepted texts |
| C205 | `Model/Dialog`: the models of writing (C01), reading (C01, C02), serving (C115, C121), and receiving (C31, C32) put together, with the bytes between client and server as the only connection; `Spec/Dialog`: documents, answers, calls | invariant over acts: bytes on the way are frames of the RPCs not answered and of the replies and notifications not received; `framing11_roundtrip`, `framing10_first_eom_partial`, `callback_reply`, `reply_match_partial` as lemmas; `dialog_completes`: polls until no RPC is on the way, then receives until nothing is on the way or kept |
| C206–C208 | `Model/TlsMem`: structures as cells (not allocated, allocated, initialised with or without memory of the library), every wrapper that allocates step by step; `Spec/TlsMem`: `Leaves` | all combinations of failing allocations and library results computed by `simp`, addresses symbolic |
| C209 | `Model/TlsMem`: the verify callback with the list of copied certificates (`next` pointers), loops over it | invariant `Building`: the list consists of distinct cells allocated since the start; freeing it is induction over the list |
| C210 | `Model/TlsMem`: the test of the key format for both libraries and how its callers read the result | case analysis |
| C211, C212 | `Model/Compat`: the replacement of `getline` with `fgets`, the buffer of the caller and its size, and its users | the lines of a file one by one, equality with the functions of `Model/AuthKeys`, `Model/KeyUtil`; the negations for whole classes of files |
| C213 | `Model/Compat`: `strndup` on memory with an end | induction over the length |
| C214 | `Model/Compat`: threads that hash into and compare a shared buffer, any schedule | invariant over schedules |
| C215 | `Model/Compat`: `timegm` as the sequence of values of TZ | computed |
| C216 | `Model/Compat`: the polling loop for given results of `trylock` and times | induction over the polls |
| C217 | `Model/Compat`: what CMake finds, the clock that results, the clock each wait uses | case analysis of the combinations, times symbolic |
| C218, C219 | `Model/Login`: users and truststore as left by `Model/ConfUsers` and `Model/ConfStore` are the clients of `Model/SshAuth` | composes C129, C131 and C33: each client in memory verifies and demands exactly what its configuration says; for C219 an invariant that counts valid requests |
| C220, C221 | `Model/TlsLogin`: certificates and entries as left by `Model/ConfTls`, `Model/ConfStore` and `Model/Ctn`, loaded before the handshake and used by `Model/TlsAuth` | composes C129, C133, C135, C36 and C37: the trusted certificates are exactly the configured ones, the first entry that fits is the first one of the configuration; what the TLS library does is a parameter |
| C222, C223, C224 | `Model/ManyThreads`: `nc_ps_poll` for one session and `nc_server_notif_send` as steps of any number of threads, with the two locks, the status, every call of `nc_write` and every part accepted by the transport | invariant over all interleavings: who holds which lock, what has been read, called and written, and what is on the wire; messages are read back with the reader of C01 and C02; progress: every thread can finish alone once the holder of the IO lock has, then one thread reads and answers the rest |
| C225, C226 | `Model/ServerId`: private keys, certificates and host keys as left by `Model/ConfTls`, `Model/ConfUsers` and `Model/ConfStore`, loaded for a connection, host keys by `Model/HostKeys` | composes C129, C132, C133 and C179; `Spec/ServerId` reads the identity from the configured data alone (`TlsIdIs`, `HostIs`); what the libraries make of texts is a parameter |
| C227 | `Model/ConfUtil` as for C109; `Spec/ConfUtil2`: for every function the leaves it sets and which of its values goes where | per function a check of its list of calls (`setFits`: the leaf is set, not set again and not deleted; `leftFits`: which values may be left out), lemmas over `lyd_new_path` and `lyd_free_tree` for all configurations |
| C228 | `Model/Notif.new`, `free`, `send`: memory as a map from addresses to strings and trees | by cases; the later memory is any one that agrees on what the object keeps |
| C229 | `Model/Notif.send`, `notifText`; `Spec/Notif.readTime`: how a receiver reads the time | lemmas about reading up to the next markup |
| C230 | `Model/Notif.iter`, `turns` over `Model/ClientMsg.recvMsg`; parsing is a parameter | induction over the rounds with the messages that are still to come (`NotifTurns.todo`) |
| C231 | `Model/Notif.step`: the atomic steps of dispatch calls, threads and `nc_session_free` | invariants `Base` (the counter) and `Safe` (the flag is set while there are threads); a measure of the steps left |
| C232 | as C231; the log of calls and freed data | invariant `Seen` for every dispatch |
| C233 | `Model/ClientTls.connectTls`, `acceptCallHome`, `sessionNew`: files, store, lists, name, handshake; finding a chain is a parameter | what a session means (`sessionNew_cases`), the store has exactly the configured certificates (`store_configured`) |
| C234 | as C233; `Spec/ClientTls.Proper`, `FilesOk`, `ListsGood` | each step of `sessionNew` succeeds; witnesses with a library that finds a chain whenever there is one |
| C235 | as C233 with `Model/Crl.fetch` | the store of lists has exactly the lists that were downloaded from the points used (`got_in_store`) |
| C236 | as C233 | first certificate and key of lists of items |
| C237 | `Model/SshTalk.login`: the client of `Model/ClientSsh` with the server of `Model/SshAuth` answering each request | the server after the requests of the client (`served`, by the message loop of `Model/SshAuth`) is authenticated iff the last reply was success (`ask_step`, induction over keys and methods) |
| C238 | as C237; `Spec/SshTalk.Ready`, `OneGood` by the credentials of `Spec/SshAuth` | methods passed plus methods left is the number needed (`authLoop_right`); for system users a failed attempt changes nothing (`authLoop_one`) |
| C239 | `Model/PeerInfo`: `acceptInfo`, `sockConnect`, `sockPending`, the functions that make sessions with what they store, the getters; ports as bytes in memory | induction over the ways sessions come about (`Spec/PeerInfo.Made`); writing addresses is injective since they can be read again (`text_inj`); the decimal port is read back by the resolver (`portText_eq`) |
| C240 | `Model/PeerInfo`: `listenInet`, `bindInet` with the set of open sockets | the new socket is the first one and no other has its number (`upd_head`, `close_head`, `bindInet_head`) |
| C241 | `Model/PeerInfo`: `startConnect` | as C240 |
| C242 | `Model/TlsTalk`: the client of `Model/ClientTls` with the server of `Model/ServerId` and `Model/TlsLogin` at the other end, `Way` for both directions of connecting, `layer` for the handshake, `connect` with the hellos | composes C225 (certificate shown), C233 and C236 (what the client knows) and C220 (what the server knows) along the cases of the handshake (`layer_cases`, `connect_cases`, `peer_owns`, `verify_loggedIn`); the witnesses use a server that works (`tt_session`) |
| C243 | as C242; `ForEachOther` by files and configuration | C225 gives the certificate shown (`peer_configured`), C234 the acceptance by the client, C221 that by the server |
| C244 | `Model/ConfUse`: calls of the functions of `Model/ConfUtil`, the nodes read as the trees given to `Model/ConfSetup` | an invariant tells which nodes and values there are after each call (`inv_build`); so the data are those of a list of endpoints (`Inv.tree`, `names_nodup`), and C141 and C136 say what the server does with them |
| C245 | `Model/ConfUserUse`: calls of the functions of `Model/ConfUtil` for users, the nodes read as the tree given to `Model/ConfUsers`, whose options `Model/SshAuth` runs with | what a call does to the nodes below a user is put as edits of a view (`call_view`), which are the edits of the image of what is wanted (`edits_img`); the invariant (`inv_build`) gives the tree (`Inv.tree`), C131 the options and C218 the logins |
| C246 | `Model/ConfTlsUse`: calls of the functions of `Model/ConfUtil` for TLS endpoints, the nodes read as the trees given to `Model/ConfTls`, whose endpoints `Model/TlsLogin` accepts clients with | the calls as edits of a view below the endpoint (`edits_img`), the invariant (`inv_build`) gives tree, entries and reference (`Inv.tree`, `Inv.ctns`, `Inv.refOf`), C133 and C135 the endpoint, C220 and C221 the logins |
| C247 | `Model/ConfStoreUse`: calls of the functions of `Model/ConfUtil` for the stores between others, the nodes read as the trees given to `Model/ConfStore` | the calls as edits of a view below the two containers (`edits_img`), other functions do not touch them and the other way round (`Off`, `Kept`), so one invariant for both (`inv_build`) gives the trees (`Inv.tsTree`, `Inv.ksTree`), C129 and C130 the stores, C225 the identity shown, C245 and C246 the logins |
| C248 | `Model/ConfHostUse`: calls of the functions of `Model/ConfUtil` for host keys between those of `Model/ConfUserUse` and `Model/ConfStoreUse`, the nodes read as the trees given to `Model/ConfUsers` | the calls as edits of a view below `host-key` (`edits_img`), apart from the paths of users (`host_usr`) and of the stores, so one invariant for all (`both_call`, `kept`, `off`) gives the trees (`Inv.tree`, `Inv.conf`); then C226 for the host keys, C245 for the users |
| C249 | `Model/ConfChUse`: calls of the functions of `Model/ConfUtil` for Call Home, the nodes read as the tree given to `Model/ConfSetup` | the calls as edits of a view below the client (`edits_img`) and of the list of its endpoints (`run_eps`, `edits_ord`), so one invariant (`Inv`, `inv_call`) gives the trees (`Inv.tree`); then C141. Success of a function from the view (`call_some`, `call_found`); the converse leaves out the three functions that delete nodes with defaults, since the model has no default nodes (`deletesDefault`) |
| C250 | `Model/SockOpt`: the options of a socket through listening, accepting, connecting over several attempts, and setting keepalives | the choice of the bind by the lemmas about `Model/Accept` (`choose_spec`), induction over addresses and attempts; with C136 and C137 for the configuration; witnesses for the two parts that are false |
| C251 | `Model/RpcCb`: the field `priv` of operations in contexts, the global callback, `nc_server_init_cb_ctx` for every session accepted | induction over the events from the last one back: the field is what the application set or the default (`past_priv`), which of them if nothing changes while there are sessions (`past_settled`); the call itself is that of `Model/ServerRpc` |
| C252 | `Model/ChCtx`: the events of a Call Home thread: contexts acquired and given back, sessions created, offered, freed and read, for all answers in all rounds | the forms of a round (`connect_cases`, `wait_cases`, `thread_cases`), lists put together (`covered_append`, `nouse_append`, `owned_skip`), induction over the rounds |
| C253 | `Model/ChDispatch`: the callbacks set, the clients with the thread that is joined, all threads that run; `nc_server_ch_set_dispatch_data`, `nc_connect_ch_client_dispatch`, creation and deletion of clients | an invariant of histories from the last event back (`Inv`, `past_inv`): the threads of a client are those dispatched, the joined one is the last; histories with one dispatch (`once_calls`) and with callbacks set first (`auto_calls`) |
| C254 | `Model/CertThread`: the flag, `tid`, the threads that run, the data freed; start, stop, looks at the flag, threads ending by an error | an invariant of histories from the last event back (`Inv`, `past_inv`); with stops that wait only the thread of `tid` runs (`waiting_one`), without errors it runs (`noerror_runs`) |
| C255 | `Model/ChFree`: `status`, the flag `NC_SESSION_CH_THREAD`, where both threads are with regard to `ch_lock` and `ch_cond`; steps in any order | an invariant of all reachable states (`FreeInv`, `freeInv_step`) |
| C256 | `Model/ChanAccept`: the ring of one connection as a list, sessions given and freed; requests, accepts with the outcome of the handshake, ends and frees of sessions | an invariant of all histories (`Inv`, `inv_step`); without broken handshakes invalid sessions have an owner (`InvalidGiven`); each accept takes one from those that wait (`count_set`); for two threads the search and the handshake are apart (`acceptEnd`) |
| C257 | `Model/PamAuth`: the calls of PAM in their order, with any answers, and the choice between callback and PAM | by cases on the answers |
| C258 | `Model/MountData`: the ring of client sessions of one connection, their contexts, the callbacks of these and the schema-mount data; a failed assertion is a distinct outcome, the build without assertions a parameter | invariant of all histories (owners of contexts and data), counting of the data; witnesses for mixed contexts |


Not modelled: libyang parsing/printing/validation, libssh, OpenSSL/mbedTLS
internals, PAM, the file system, signals, real time and memory allocation
failure (unless said otherwise next to a definition).
