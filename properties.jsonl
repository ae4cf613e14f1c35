{"id": "C01", "title": "NETCONF 1.1 framing round trip", "statement": "Whatever message a session sends in NETCONF 1.1 mode, and however the printer splits it into writes, the peer's receive call returns exactly the bytes that were printed, and the bytes following the message on the wire are left unread.", "quantifier": "every message content, every split of that content into printer writes (escaped or not), every remaining stream after the message, every short-read behaviour of the transport", "why_tests_cant": "the split points depend on a 1024 byte buffer and on the sizes of each printer write; unboundedly many splits and contents", "anchors": ["src/io.c: nc_write_clb, nc_write_starttag_and_msg, nc_write_endtag, nc_read_msg_io, nc_read_until, nc_read_chunk"]}
{"id": "C02", "title": "NETCONF 1.0 end-of-message detection", "statement": "In NETCONF 1.0 mode the receive call returns exactly the bytes preceding the first `]]>]]>` on the wire and leaves everything after it unread.", "quantifier": "every byte stream containing the end marker", "why_tests_cant": "the matcher works on blocks, so correctness depends on every alignment of partial markers with the marker", "anchors": ["src/io.c: nc_read_until, nc_read_msg_io"]}
{"id": "C03", "title": "Message sequences never bleed into each other", "statement": "A sequence of messages sent one after another over a session is received as the same sequence, one message per receive call, with nothing lost, merged or reordered.", "quantifier": "every finite sequence of messages and every split of each of them into printer writes, in both protocol versions", "why_tests_cant": "histories of unbounded length", "anchors": ["src/io.c: nc_write_clb, nc_read_msg_io"]}
{"id": "C04", "title": "No memory corruption from hostile framing", "statement": "For every byte stream a peer can send, receiving a message performs no out-of-bounds write: the buffers that are filled are always at least as large as the data stored.", "quantifier": "every byte stream from the peer", "why_tests_cant": "the failing headers are isolated points in an infinite input space (values around 2^32 and 2^64)", "anchors": ["src/io.c: nc_read_msg_io, nc_read_chunk, nc_read"]}
{"id": "C05", "title": "Only well-formed chunked framing is accepted", "statement": "A NETCONF 1.1 message is delivered only if it was framed exactly as RFC 6242 prescribes (each chunk header is LF # size LF with a decimal size without a leading zero between 1 and 4294967295, at least one chunk, LF ## LF at the end).", "quantifier": "every byte stream from the peer", "why_tests_cant": "must hold for every malformed stream", "anchors": ["src/io.c: nc_read_msg_io"]}
{"id": "C06", "title": "Output buffer is never overrun and keeps byte order", "statement": "While printing any message the fixed 1024 byte output buffer is never written past its end, and the concatenation of everything handed to the transport is the printed text in order, followed by the end marker.", "quantifier": "every sequence of printer writes of every size, with or without XML escaping", "why_tests_cant": "the overflow condition depends on the history of earlier writes", "anchors": ["src/io.c: nc_write_clb, nc_write_clb_flush, nc_write_xmlclb"]}
{"id": "C07", "title": "XML escaping is reversible and never emits markup", "statement": "Text sent as XML content (capabilities in hello) is escaped such that it contains no raw `<` or `>`, every `&` starts one of the escapes, and un-escaping gives the original text, independently of where the buffer flushes.", "quantifier": "every text and every fill level of the output buffer", "why_tests_cant": "the escape may straddle a buffer flush", "anchors": ["src/io.c: nc_write_clb"]}
{"id": "C08", "title": "Successful send means the whole message was written", "statement": "If sending a message reports success, the transport accepted every byte of the framed message.", "quantifier": "every message and every pattern of transport write results (partial writes, would-block, hard errors) at every position", "why_tests_cant": "fault injection at every write position", "anchors": ["src/io.c: nc_write_msg_io, nc_write, nc_write_clb"]}
{"id": "C09", "title": "RPC message ids are fresh and reported correctly", "statement": "Every RPC sent on a session carries a message-id different from all earlier ones on that session, and the id handed back to the caller is the one put on the wire.", "quantifier": "every history of sends (successful or failed) and every interleaving of sending threads", "why_tests_cant": "interleavings of concurrent senders", "anchors": ["src/io.c: nc_write_msg_io", "src/session_client.c: nc_send_rpc"]}
{"id": "C10", "title": "Protocol version negotiation", "statement": "A session uses NETCONF 1.1 exactly when the peer advertised the base:1.1 capability, 1.0 when it advertised only base:1.0, and is refused when it advertised neither.", "quantifier": "every list of capability strings with arbitrary surrounding white space", "why_tests_cant": "capability strings and their order are arbitrary", "anchors": ["src/session.c: parse_cpblts"]}
{"id": "C11", "title": "Client accepts only a valid hello", "statement": "The client accepts a server hello only if it carries exactly one session-id in 1..4294967295 and exactly one capability list, and then uses that very session-id.", "quantifier": "every hello document (sequence of children with arbitrary names, namespaces and text)", "why_tests_cant": "arbitrary documents and arbitrary numeric text", "anchors": ["src/session.c: nc_client_recv_hello_io"]}
{"id": "C12", "title": "Server accepts only a valid client hello", "statement": "The server accepts a client hello only if the document is a hello carrying exactly one capability list (with a base capability) and no session-id.", "quantifier": "every document a client may send as its first message", "why_tests_cant": "arbitrary documents", "anchors": ["src/session.c: nc_server_recv_hello_io"]}
{"id": "C13", "title": "Advertised with-defaults modes match the configuration", "statement": "The with-defaults capability advertised by the server names exactly the basic mode and the additionally supported modes that the application configured.", "quantifier": "every basic mode and every set of additional modes accepted by the API", "why_tests_cant": "all configurations of modes", "anchors": ["src/session.c: nc_server_get_cpblts_version", "src/session_server.c: nc_server_set_capab_withdefaults"]}
{"id": "C14", "title": "Capability list has no duplicates", "statement": "Whatever modules and extra capabilities are present, the list the server advertises never contains two entries with the same URI (the part before `?`), starts with base:1.0 and base:1.1, and contains every capability offered.", "quantifier": "every sequence of added capability strings", "why_tests_cant": "unbounded sequences", "anchors": ["src/session.c: add_cpblt, nc_server_get_cpblts_version"]}
{"id": "C15", "title": "Poll session set behaves as a set", "statement": "Adding and deleting sessions from a poll structure leaves exactly the sessions added and not deleted since, each occurring as often as it was added, and the count API agrees.", "quantifier": "every sequence of fewer than 65536 add and delete operations", "why_tests_cant": "unbounded histories of operations", "anchors": ["src/session_server.c: nc_ps_add_session, _nc_ps_del_session, nc_ps_del_session, nc_ps_session_count, nc_ps_clear"]}
{"id": "C16", "title": "Poll structure lock is mutually exclusive and FIFO", "statement": "At most one thread owns a poll structure at a time and waiting threads obtain it in order of arrival.", "quantifier": "every number of threads and every interleaving of lock, unlock and lock-timeout events", "why_tests_cant": "schedules; the failing one needs hundreds of steps", "anchors": ["src/session_server.c: nc_ps_lock, nc_ps_unlock, nc_ps_queue_add_id, nc_ps_queue_remove_id"]}
{"id": "C17", "title": "RPC lock mutual exclusion", "statement": "At most one thread at a time processes an RPC (or frees) a given server session.", "quantifier": "every interleaving of lock, unlock and lock-timeout events of any number of threads", "why_tests_cant": "schedules", "anchors": ["src/session.c: nc_session_rpc_lock, nc_session_rpc_unlock"]}
{"id": "C18", "title": "Polling is fair", "statement": "When several sessions have pending requests, repeated polling serves each of them before serving any of them a second time.", "quantifier": "every number of sessions, every pattern of readiness and errors of the others, every previous history, sessions possibly being added but none deleted in between", "why_tests_cant": "unbounded number of sessions and poll histories", "anchors": ["src/session_server.c: nc_ps_poll"]}
{"id": "C19", "title": "Terminated sessions are reported with the right flags", "statement": "When polling discovers that a session has ended, the result says so exactly once, and additionally flags an error exactly when the session ended for any reason other than a regular close or kill.", "quantifier": "every session state and termination reason, every poll history", "why_tests_cant": "all combinations of reasons over histories", "anchors": ["src/session_server.c: nc_ps_poll_sess, nc_ps_poll, nc_ps_poll_session_io"]}
{"id": "C20", "title": "Idle timeout is honoured", "statement": "A session is terminated for inactivity only if no RPC arrived for at least the configured idle time, never while it has active notification subscriptions and never if it is a Call Home session; and it is terminated at the first poll after that time.", "quantifier": "every time of the last RPC, every poll time, every poll timeout argument", "why_tests_cant": "all time values", "anchors": ["src/session_server.c: nc_ps_poll_session_io, nc_ps_poll_sess, nc_ps_poll"]}
{"id": "C21", "title": "Session identifiers are unique", "statement": "All NETCONF sessions accepted by one server process have distinct, non-zero session-ids.", "quantifier": "every number of sessions accepted over the process lifetime, up to the 2^32-1 identifiers that exist", "why_tests_cant": "counter wrap-around needs 2^32 sessions", "anchors": ["src/session_server.c: nc_accept_inout, nc_accept, nc_connect_ch_endpt", "src/session_server_ssh.c: nc_session_accept_ssh_channel"]}
{"id": "C22", "title": "Termination reason and killer stay consistent", "statement": "For every sequence of calls setting the termination reason and the killer's session-id, a killer id is reported only for a session whose reason is `killed`.", "quantifier": "every sequence of setter calls", "why_tests_cant": "unbounded histories", "anchors": ["src/session_server.c: nc_session_set_term_reason, nc_session_set_killed_by, nc_session_set_status"]}
{"id": "C23", "title": "No pending connection is starved by accept", "statement": "When several listening endpoints have pending connections, accept takes one and remembers the others so that following accept calls take them without waiting; each returned connection is attributed to the endpoint it arrived on.", "quantifier": "every number of endpoints and every pattern of readiness over any number of calls", "why_tests_cant": "histories of readiness patterns", "anchors": ["src/session_server.c: nc_sock_accept_binds"]}
{"id": "C24", "title": "Endpoint removal leaves the other endpoints intact", "statement": "Removing a listening endpoint removes exactly that endpoint together with its own listening socket; all other endpoints stay paired with their sockets.", "quantifier": "every sequence of additions (with names not in use) and removals, for every number of endpoints", "why_tests_cant": "unbounded histories", "anchors": ["src/server_config.c: nc_server_config_create_endpoint, nc_server_config_del_endpt_ssh, nc_server_config_del_endpt_tls", "src/session_server.c: _nc_server_del_endpt_unix_socket, nc_server_add_endpt_unix_socket_listen"]}
{"id": "C25", "title": "Replacing the configuration releases every old endpoint once and keeps UNIX endpoints", "statement": "Deleting the whole listen configuration releases each SSH/TLS endpoint exactly once and keeps exactly the UNIX-socket endpoints, never leaving a released endpoint in use.", "quantifier": "every list of endpoints of any transports in any order", "why_tests_cant": "all orders and lengths", "anchors": ["src/server_config.c: nc_server_config_listen, nc_server_config_del_endpt_ssh, nc_server_config_setup_data"]}
{"id": "C26", "title": "Call Home endpoint removal leaves the other endpoints intact", "statement": "Removing an endpoint of a Call Home client by configuration removes exactly that endpoint and keeps the others usable.", "quantifier": "every list of endpoints and every removed position", "why_tests_cant": "all lengths and positions", "anchors": ["src/server_config.c: nc_server_config_ch_del_endpt, nc_server_config_destroy_ch_client"]}
{"id": "C27", "title": "Endpoint references are always checked and acyclic", "statement": "Applying a configuration always terminates, and succeeds only if following endpoint references from any endpoint ends after finitely many steps at an existing endpoint of the same transport.", "quantifier": "every reference graph", "why_tests_cant": "all graphs; the failing ones make the check itself not terminate", "anchors": ["src/server_config.c: nc_server_config_check_endpt_reference_cycle, nc_server_config_check_endpt_references"]}
{"id": "C28", "title": "cert-to-name entries stay ordered by id", "statement": "After any sequence of creating, replacing and deleting cert-to-name entries, the entries are tried in increasing id order, ids are unique, and each id has the last configured mapping.", "quantifier": "every sequence of operations", "why_tests_cant": "unbounded histories", "anchors": ["src/server_config.c: nc_server_config_create_cert_to_name, nc_server_config_del_ctn"]}
{"id": "C29", "title": "Algorithm list edits do what they say", "statement": "After configuring and removing SSH algorithms (or TLS ciphers), the list used for new sessions contains exactly the configured ones in order of their creation.", "quantifier": "every sequence of algorithm additions and deletions", "why_tests_cant": "all strings, including algorithms that are prefixes or suffixes of other algorithms", "anchors": ["src/server_config.c: nc_server_config_delete_substring, nc_server_config_transport_params"]}
{"id": "C30", "title": "Configuration operations are inherited correctly", "statement": "When a configuration diff is applied, each node is processed once in document order with its own operation or else that of its nearest ancestor, nothing below a deleted node is processed, and a diff without any operation is refused.", "quantifier": "every diff tree", "why_tests_cant": "all tree shapes and depths", "anchors": ["src/server_config.c: nc_server_config_parse_tree"]}
{"id": "C31", "title": "Client never loses or reorders incoming messages", "statement": "Whatever mix of replies and notifications arrives and in whatever order the application asks for replies and notifications, each message is delivered exactly once and messages of one kind are delivered in arrival order.", "quantifier": "every arrival sequence and every sequence of receive calls", "why_tests_cant": "unbounded interleavings of arrivals and calls", "anchors": ["src/session_client.c: recv_msg, get_msg_type"]}
{"id": "C32", "title": "Replies are matched to their request", "statement": "The client reports a reply as matching only if its message-id equals the id of the request; otherwise it is reported as a mismatch.", "quantifier": "every message-id text, including non-numeric and overflowing values", "why_tests_cant": "arbitrary text", "anchors": ["src/session_client.c: recv_reply_check_msgid, recv_reply"]}
{"id": "C33", "title": "SSH client authentication requires every configured method", "statement": "A local user is considered authenticated only after each authentication method configured for that user has succeeded, with a user name that never changed during the authentication.", "quantifier": "every set of configured methods and every sequence of authentication attempts", "why_tests_cant": "unbounded sequences of attempts", "anchors": ["src/session_server_ssh.c: nc_server_ssh_auth"]}
{"id": "C34", "title": "No channel is opened before SSH authentication", "statement": "Until a client has authenticated, no SSH channel and no netconf subsystem is opened for it, and after authentication no further authentication is processed.", "quantifier": "every sequence of SSH messages", "why_tests_cant": "unbounded message sequences", "anchors": ["src/session_server_ssh.c: nc_session_ssh_msg, nc_server_ssh_channel_open, nc_server_ssh_channel_subsystem"]}
{"id": "C35", "title": "Sessions sharing one SSH connection are freed independently", "statement": "Freeing one of several NETCONF sessions on one SSH connection leaves the remaining ones linked and usable; the connection itself is closed exactly when the last running one is freed, and then all unaccepted channels are freed too.", "quantifier": "every number of sessions on a connection and every order of freeing", "why_tests_cant": "unbounded numbers and orders", "anchors": ["src/session.c: nc_session_free, nc_session_free_transport", "src/session_server_ssh.c: nc_server_ssh_channel_subsystem"]}
{"id": "C36", "title": "TLS clients are accepted only with a trusted certificate", "statement": "A TLS client is accepted only if its certificate chain verified completely against the configured CA certificates, or its certificate is one of the configured end-entity certificates; and only if it maps to a user name.", "quantifier": "every sequence of per-certificate verification results", "why_tests_cant": "all chains and all combinations of verification errors", "anchors": ["src/session_openssl.c: nc_server_tls_verify_cb", "src/session_server_tls.c: nc_server_tls_verify_cert"]}
{"id": "C37", "title": "cert-to-name maps by the first matching entry", "statement": "The user name of a TLS client comes from the first cert-to-name entry (in id order) whose fingerprint equals the fingerprint of a certificate in the presented chain (or that has no fingerprint) and that yields a name; entries of the referenced endpoint are used only if none of the own ones match.", "quantifier": "every list of entries and every certificate chain", "why_tests_cant": "all combinations of entries and chains", "anchors": ["src/session_server_tls.c: _nc_server_tls_cert_to_name, nc_server_tls_cert_to_name, nc_server_tls_get_username"]}
{"id": "C38", "title": "Common-name mapping returns the common name", "statement": "With the common-name mapping, the user name is the value of the CN attribute of the certificate's subject.", "quantifier": "every subject name", "why_tests_cant": "arbitrary attribute values", "anchors": ["src/session_server_tls.c: nc_server_tls_get_username"]}
{"id": "C39", "title": "Authorized-keys path template expansion", "statement": "The authorized-keys path format is expanded by replacing %h, %u, %U and %% by home directory, user name, uid and a percent sign; every other use of % is an error; all other characters are kept.", "quantifier": "every format string and user record", "why_tests_cant": "all format strings", "anchors": ["src/session_server_ssh.c: nc_server_ssh_get_system_keys_path, nc_server_ssh_str_append"]}
{"id": "C40", "title": "Call Home endpoint rotation", "statement": "A Call Home client tries an endpoint the configured number of times before moving to the next one, cyclically visits all its endpoints, and restarts according to the configured start-with policy.", "quantifier": "every number of endpoints, every maximum number of attempts and every pattern of success and failure", "why_tests_cant": "unbounded histories", "anchors": ["src/session_server.c: nc_ch_client_thread"]}
{"id": "C41", "title": "Periodic Call Home with anchor time", "statement": "With a periodic connection and an anchor time, the next connection attempt is scheduled at the next instant after now that differs from the anchor by a multiple of the period.", "quantifier": "every current time, anchor time and period", "why_tests_cant": "all time values", "anchors": ["src/session_server.c: nc_ch_client_thread"]}
{"id": "C42", "title": "Certificate expiration notifications are scheduled on time", "statement": "The expiration thread wakes up at the earliest scheduled notification of any certificate, or at once if one is already due, and successive notification times of a certificate strictly increase up to its expiration.", "quantifier": "every set of certificates, intervals and current time", "why_tests_cant": "all combinations of dates and intervals", "anchors": ["src/session_server.c: nc_server_notif_cert_exp_wakeup_time_get, nc_server_notif_cert_exp_next_notif_time_get, nc_server_notif_cert_exp_init_intervals"]}
{"id": "C43", "title": "Timeout arithmetic", "statement": "The remaining time computed for an absolute deadline is correct to the millisecond, is non-positive exactly when the deadline passed, and deadlines are always valid (nanoseconds below one second).", "quantifier": "every current time and every timeout", "why_tests_cant": "all time values, including the representable limits", "anchors": ["src/session.c: nc_timeouttime_get, nc_timeouttime_cur_diff, nc_realtime_get"]}
{"id": "C44", "title": "Ready descriptors are reported by poll", "statement": "If the system reports readiness, or a signal interrupts waiting before the timeout, the poll wrapper reports the readiness or continues waiting for the remaining time, and it never waits longer than requested.", "quantifier": "every sequence of signals and every elapsed time between them", "why_tests_cant": "timing of signals", "anchors": ["src/session.c: nc_poll"]}
{"id": "C45", "title": "NETCONF errors comply with RFC 6241", "statement": "An rpc-error created through the API has an error-type allowed for its error-tag, and the values read back equal the values last set, for any sequence of setters.", "quantifier": "every tag, type and sequence of setter calls", "why_tests_cant": "unbounded sequences of setters", "anchors": ["src/messages_server.c: nc_err, nc_err_set_app_tag, nc_err_set_path, nc_err_set_msg, nc_err_get_tag, nc_err_get_type"]}
{"id": "C46", "title": "Client Call Home bind removal", "statement": "Removing client-side Call Home listening binds by address/port removes exactly the matching binds and keeps the rest; a bind that was added is there beside the others, and removing it again by its address, port and transport restores them.", "quantifier": "every list of binds and every filter", "why_tests_cant": "all lists", "anchors": ["src/session_client.c: nc_client_ch_add_bind_listen, nc_client_ch_del_bind"]}
{"id": "C47", "title": "Newest module revision is chosen", "statement": "When the server lists several revisions of a module and none is requested explicitly, the client picks the newest one.", "quantifier": "every list of modules and revisions", "why_tests_cant": "all lists and orders", "anchors": ["src/session_client.c: retrieve_module_data_imp"]}
{"id": "C48", "title": "Notification subscription counter", "statement": "A session counts as having subscriptions exactly while more increments than decrements happened, and surplus decrements do not go below zero.", "quantifier": "every sequence of fewer than 2^32 increments and decrements", "why_tests_cant": "unbounded histories", "anchors": ["src/session_server.c: nc_session_inc_notif_status, nc_session_dec_notif_status, nc_session_get_notif_status"]}
{"id": "C49", "title": "RPC objects own exactly what they were given", "statement": "Freeing an RPC object releases every string that it copied or was given ownership of exactly once and no string that stayed with the caller.", "quantifier": "every RPC kind, every combination of present and absent arguments, every ownership mode", "why_tests_cant": "all combinations", "anchors": ["src/messages_client.c: nc_rpc_edit, nc_rpc_get, nc_rpc_free, ..."]}
{"id": "C50", "title": "Thread contexts are freed exactly when unused", "statement": "A client thread context shared between threads stays allocated while any thread uses it and is freed exactly once when the last one releases it.", "quantifier": "every sequence of get, set and thread exit operations", "why_tests_cant": "unbounded histories", "anchors": ["src/session_client.c: nc_client_context_free, nc_client_get_thread_context, nc_client_set_thread_context"]}
{"id": "C51", "title": "Password checks", "statement": "A password is accepted only if it equals the stored clear text or its hash equals the stored hash; a user whose account has expired, whose password is locked or who has an empty stored password never authenticates with a non-empty password.", "quantifier": "every stored password entry and every offered password", "why_tests_cant": "all strings and dates", "anchors": ["src/session_server_ssh.c: nc_server_ssh_compare_password, nc_server_ssh_get_pwd_hash, nc_server_ssh_auth_password"]}
{"id": "C52", "title": "Capability building stays inside its buffer", "statement": "Building the server's capability list never writes past the end of the string buffer, whatever the names and numbers of namespaces, features and deviations of the loaded modules.", "quantifier": "all lengths of namespaces, names, revisions and all lists of feature and deviation names", "why_tests_cant": "unbounded name lengths and counts; an overflow may go unnoticed in a test run", "anchors": ["src/session.c: nc_server_get_cpblts_version"]}
{"id": "C53", "title": "Clearing a poll structure", "statement": "Clearing a poll structure of terminated sessions frees exactly the sessions that are no longer running, each exactly once, and keeps exactly the running ones; clearing everything frees every session exactly once.", "quantifier": "every content of the poll structure and every pattern of running and terminated sessions", "why_tests_cant": "the loop deletes from the array it walks; a skipped or doubly freed element depends on the positions", "anchors": ["src/session_server.c: nc_ps_clear, _nc_ps_del_session"]}
{"id": "C54", "title": "The end of a session is reported exactly once", "statement": "Whatever happens to a session, at most one poll reports that it ended, and if it has ended, then the next poll that works with it (or an earlier one) reports it.", "quantifier": "every history of polls with every transport event, request outcome and change of the session made by other code", "why_tests_cant": "needs all interleavings of polls, requests and external changes of the session", "anchors": ["src/session_server.c: nc_ps_poll, nc_ps_poll_sess, nc_ps_poll_session_io, nc_server_send_reply_io"]}
{"id": "C55", "title": "Keys, users and certificates are removed individually", "statement": "Removing a host key, SSH user, public key, certificate or Call Home client by configuration removes exactly that object; every object ever configured is either still in use or was freed exactly once; removing all of them frees each exactly once.", "quantifier": "every sequence of additions and removals followed by removal of everything", "why_tests_cant": "unbounded histories; double frees show only for particular orders and counts", "anchors": ["src/server_config.c: nc_server_config_realloc, nc_server_config_del_hostkey, nc_server_config_del_auth_client, nc_server_config_del_auth_client_pubkey, nc_server_config_del_cert, nc_server_config_ch_del_client"]}
{"id": "C56", "title": "Accepted endpoint references are exactly the finite ones", "statement": "A configuration passes the endpoint reference check exactly if, from every listening and Call Home endpoint, following references ends after finitely many steps and each step leads to an existing listening endpoint of the same transport (SSH or TLS).", "quantifier": "every set of endpoints with distinct names and every reference graph", "why_tests_cant": "all graphs of all sizes, not only the shapes in the test configurations", "anchors": ["src/server_config.c: nc_server_config_check_endpt_references, nc_server_config_check_endpt_reference_cycle"]}
{"id": "C57", "title": "Cipher suites reach the TLS library under its own names", "statement": "Every configured TLS cipher suite is handed to the TLS library, in order, under the name the library uses for it (OpenSSL: upper case with underscores; mbedTLS: upper case, TLS 1.3 suites starting with TLS1-3-).", "quantifier": "every sequence of configured cipher suites, both TLS libraries", "why_tests_cant": "all texts; builds with the second library are rarely tested", "anchors": ["src/session_openssl.c: nc_tls_process_cipher_suite_wrap, nc_tls_append_cipher_suite_wrap", "src/session_mbedtls.c: nc_tls_process_cipher_suite_wrap"]}
{"id": "C58", "title": "The mbedTLS cipher array is large enough", "statement": "Adding a cipher suite in a build with mbedTLS writes only inside the allocated array.", "quantifier": "every number of cipher suites", "why_tests_cant": "small overflows stay inside the allocator's rounding and go unnoticed", "anchors": ["src/session_mbedtls.c: nc_tls_append_cipher_suite_wrap"]}
{"id": "C59", "title": "Deadlines below 2^31 ms are exact", "statement": "A deadline lies exactly the requested number of milliseconds ahead of the current time, is a valid time, and the remaining time computed from it is the exact difference rounded towards zero to milliseconds.", "quantifier": "every current time and every distance below 2^31 ms", "why_tests_cant": "all carries between nanoseconds and seconds", "anchors": ["src/session.c: nc_timeouttime_get, nc_timeouttime_cur_diff"]}
{"id": "C60", "title": "Waiting in poll is bounded", "statement": "Waiting for descriptors with a non-negative timeout returns less than one millisecond after the requested time, however often it is interrupted by signals.", "quantifier": "every timeout, every number and times of signals", "why_tests_cant": "signal timing cannot be enumerated", "anchors": ["src/session.c: nc_poll"]}
{"id": "C61", "title": "Waiting for the message lock counts towards the timeout", "statement": "When a client waits for the lock of the message queue before receiving, the time spent is subtracted from the timeout the caller gave.", "quantifier": "every timeout and waiting time", "why_tests_cant": "needs contention between threads at particular times", "anchors": ["src/session.c: nc_session_client_msgs_lock"]}
{"id": "C62", "title": "rpc-errors follow the XML schema order", "statement": "The children of an rpc-error are in the order of the XML schema of RFC 6241 (type, tag, severity, app-tag, path, message, info) and each occurs at most once, for any sequence of setters.", "quantifier": "every error and every sequence of setter calls", "why_tests_cant": "unbounded sequences of setters", "anchors": ["src/messages_server.c: nc_err, nc_err_set_app_tag, nc_err_set_path, nc_err_set_msg, nc_err_set_sid"]}
{"id": "C63", "title": "The language of an error message is the one given", "statement": "After setting an error message with a language, the message of the rpc-error is marked with that language.", "quantifier": "every error and every sequence of setter calls", "why_tests_cant": "unbounded sequences of setters", "anchors": ["src/messages_server.c: nc_err_set_msg"]}
{"id": "C64", "title": "Polling accesses only the sessions in the poll structure", "statement": "Whatever was added, removed, cleared and polled before, a poll looks only at sessions that are in the structure and returns one of them.", "quantifier": "every sequence of operations and every behaviour of the sessions", "why_tests_cant": "unbounded histories; a stale index shows only for certain sizes", "anchors": ["src/session_server.c: nc_ps_poll, _nc_ps_del_session, nc_ps_clear"]}
{"id": "C65", "title": "Removing a session from a poll structure is safe while other threads poll", "statement": "With several threads using a poll structure, removing a session never makes a polling thread access freed memory.", "quantifier": "every interleaving of any number of threads", "why_tests_cant": "race in a window while an RPC is processed", "anchors": ["src/session_server.c: nc_ps_poll, nc_ps_del_session"]}
{"id": "C66", "title": "Module list from yang-library is complete", "statement": "The client's list of server modules read from yang-library has every listed module with its revision, features and submodules, and is properly terminated.", "quantifier": "every content of the yang-library data", "why_tests_cant": "unbounded lists of modules, features and submodules", "anchors": ["src/session_client.c: build_module_info_yl"]}
{"id": "C67", "title": "Modules announced in capabilities are understood", "statement": "The client reads module name, revision and features from a capability URI as RFC 7950 (5.6.4) defines its parameters.", "quantifier": "every namespace and every list of parameters", "why_tests_cant": "unbounded parameter lists and texts", "anchors": ["src/session_client.c: build_module_info_cpblts"]}
{"id": "C68", "title": "Submodule revisions come from their own module", "statement": "When a submodule is requested without revision, its revision is the one listed with the module that includes it.", "quantifier": "every list of modules and every request", "why_tests_cant": "needs several modules with submodules of the same name", "anchors": ["src/session_client.c: retrieve_module_data_imp"]}
{"id": "C69", "title": "A system user needs one valid credential", "statement": "With users taken from the system, a client is authenticated only after it proved to be that user by a valid password, an authorized key or keyboard-interactive answers.", "quantifier": "every sequence of SSH messages and every user database", "why_tests_cant": "unbounded sequences of messages", "anchors": ["src/session_server_ssh.c: nc_server_ssh_auth, nc_session_ssh_msg"]}
{"id": "C70", "title": "A public key needs a valid signature", "statement": "A client is authenticated by public key only if the key is authorized for the user and the request carries a valid signature.", "quantifier": "every set of authorized keys, every key and signature state", "why_tests_cant": "needs requests libssh does not normally produce", "anchors": ["src/session_server_ssh.c: nc_server_ssh_auth_pubkey, nc_server_ssh_auth_pubkey_compare_key"]}
{"id": "C71", "title": "One NETCONF session per SSH channel", "statement": "At any time at most one NETCONF session uses an SSH channel.", "quantifier": "every sequence of SSH messages", "why_tests_cant": "unbounded sequences of messages in unusual order", "anchors": ["src/session_server_ssh.c: nc_server_ssh_channel_subsystem"]}
{"id": "C72", "title": "Every channel of an authenticated client can become a session", "statement": "When an authenticated client requests the netconf subsystem on a channel that has no session yet, the request is granted.", "quantifier": "every sequence of SSH messages", "why_tests_cant": "unbounded sequences of messages in unusual order", "anchors": ["src/session_server_ssh.c: nc_server_ssh_channel_open, nc_server_ssh_channel_subsystem"]}
{"id": "C73", "title": "The user name comes from the client's own certificate", "statement": "A user name derived from a certificate (common name or alternative name) is derived from the certificate the client presented as its own, not from another certificate of the chain.", "quantifier": "every list of cert-to-name entries and every certificate chain", "why_tests_cant": "all combinations of entries and chains", "anchors": ["src/session_server_tls.c: nc_server_tls_cert_to_name", "src/session_mbedtls.c: nc_server_tls_verify_cb"]}
{"id": "C74", "title": "Comparing fingerprints stays inside the configured text", "statement": "Comparing a configured fingerprint with a certificate reads only characters of the fingerprint.", "quantifier": "every text the YANG type tls-fingerprint allows", "why_tests_cant": "reading one byte too many is not visible in tests", "anchors": ["src/session_server_tls.c: nc_server_tls_cert_to_name"]}
{"id": "C75", "title": "Alternative names map to user names as the YANG module defines", "statement": "With the mappings san-rfc822-name, san-dns-name, san-ip-address and san-any, the user name is the first alternative name of the wanted kind, DNS names and hosts of email addresses in lower case, IPv4 addresses as dotted decimals and IPv6 addresses as 32 lower case hexadecimal digits; different addresses give different names.", "quantifier": "every list of alternative names", "why_tests_cant": "arbitrary names", "anchors": ["src/session_server_tls.c: nc_server_tls_get_username", "src/session_openssl.c: nc_tls_get_san_value_type_wrap"]}
{"id": "C76", "title": "Malformed configured certificates do not crash the server", "statement": "Whatever data are configured as end-entity certificates, a connecting client never makes the server use a NULL pointer.", "quantifier": "every configuration and every client certificate", "why_tests_cant": "needs a configuration with data that are not a certificate", "anchors": ["src/session_server_tls.c: _nc_server_tls_verify_peer_cert", "src/session_openssl.c: nc_server_tls_certs_match_wrap"]}
{"id": "C77", "title": "The application can turn down TLS clients", "statement": "A TLS client for which the verify callback of the application returns 0 is not accepted.", "quantifier": "every sequence of verification results", "why_tests_cant": "all combinations of verification results", "anchors": ["src/session_server_tls.c: nc_server_tls_verify_cert", "src/session_openssl.c: nc_server_tls_verify_cb"]}
{"id": "C78", "title": "The certificate of an accepted TLS client is available", "statement": "nc_session_get_client_cert returns the certificate the accepted client presented as its own.", "quantifier": "every sequence of verification results", "why_tests_cant": "all combinations of verification results", "anchors": ["src/session_openssl.c: nc_server_tls_verify_cb", "src/session_server_tls.c: nc_session_get_client_cert"]}
{"id": "C79", "title": "Lost TLS connections are noticed", "statement": "When sending or receiving fails because the connection is lost, the TLS library is told so, and not to try again.", "quantifier": "every system error", "why_tests_cant": "needs failing system calls", "anchors": ["src/session_mbedtls.c: nc_server_tls_send, nc_server_tls_recv"]}
{"id": "C80", "title": "Malformed frames from a server do not crash the client", "statement": "Whatever bytes a server sends, receiving a reply or notification returns a result; an invalid frame is reported as an error and no invalid memory is accessed.", "quantifier": "every sequence of frames, valid or not, and every sequence of receive calls", "why_tests_cant": "needs a hostile server and every position of the invalid frame", "anchors": ["src/session_client.c: recv_msg, get_msg_type", "src/io.c: nc_read_msg_io"]}
{"id": "C81", "title": "Replies are reported only if they are valid", "statement": "nc_recv_reply reports a reply only if the content of the message could be parsed as the reply to the request.", "quantifier": "every outcome of parsing and every message-id", "why_tests_cant": "needs invalid replies of every kind", "anchors": ["src/session_client.c: recv_reply"]}
{"id": "C82", "title": "Closing a client session ends", "statement": "Freeing a client session returns after finitely many messages, whatever the server keeps sending.", "quantifier": "every infinite sequence of incoming messages", "why_tests_cant": "an endless stream cannot be tested", "anchors": ["src/session.c: nc_session_free, nc_session_free_close_session"]}
{"id": "C83", "title": "The client knows whether notification threads run", "statement": "nc_session_ntf_thread_running returns true exactly while a notification thread of the session runs.", "quantifier": "every sequence of starts and ends of threads", "why_tests_cant": "depends on when threads end", "anchors": ["src/session_client.c: nc_session_ntf_thread_running, nc_recv_notif_thread, nc_recv_notif_dispatch"]}
{"id": "C84", "title": "A failed attempt to open another SSH channel leaves the connection usable", "statement": "If opening a new NETCONF session on the SSH connection of an existing session fails for any reason, the existing session can be used as before.", "quantifier": "every number of sessions on the connection and every point of failure", "why_tests_cant": "needs a server refusing the channel at each point", "anchors": ["src/session_client_ssh.c: nc_connect_ssh_channel, open_netconf_channel", "src/session.c: nc_session_free"]}
{"id": "C85", "title": "Accepting never blocks beyond its timeout", "statement": "accept(2) is only called on a listening socket with a connection waiting, so that a call to accept a session waits no longer than its timeout.", "quantifier": "every number of endpoints, every sequence of arriving connections, calls and reconfigurations", "why_tests_cant": "depends on reconfigurations between two calls and on which connections arrive together", "anchors": ["src/session_server.c: nc_sock_accept_binds, nc_server_set_address_port"]}
{"id": "C86", "title": "A Call Home period of zero does not crash the server", "statement": "A periodic Call Home client with any period the YANG module allows, with or without an anchor time, is scheduled without a crash.", "quantifier": "every current time, anchor time and period", "why_tests_cant": "needs the boundary value together with an anchor time and a session that ended", "anchors": ["src/session_server.c: nc_ch_client_thread"]}
{"id": "C87", "title": "Periodic Call Home clients are contacted within one period", "statement": "After a session of a periodic Call Home client ended, the next attempt to connect is made within one period, whatever the anchor time.", "quantifier": "every current time, anchor time and period", "why_tests_cant": "needs waiting for a period", "anchors": ["src/session_server.c: nc_ch_client_thread, nc_server_ch_client_thread_is_running_wait"]}
{"id": "C88", "title": "Call Home sessions are given to the application or closed", "statement": "Every session a Call Home thread established is given to the application or is closed and its context released, whenever the client is removed.", "quantifier": "every interleaving of the thread with the removal of its client", "why_tests_cant": "depends on the moment of the removal", "anchors": ["src/session_server.c: nc_ch_client_thread", "src/server_config.c: nc_server_config_destroy_ch_client"]}
{"id": "C89", "title": "Call Home clients can be removed at any time", "statement": "Removing a Call Home client by configuration at any time stops its thread and accesses no invalid memory.", "quantifier": "every interleaving of the thread with the removal of its client", "why_tests_cant": "depends on the moment of the removal", "anchors": ["src/session_server.c: nc_ch_client_thread, nc_connect_ch_client_dispatch", "src/server_config.c: nc_server_config_destroy_ch_client, nc_server_config_ch_del_client"]}
{"id": "C90", "title": "Notifications of an expired certificate are daily", "statement": "From the day of the expiration of a certificate on, the application is notified every day, as the YANG module says.", "quantifier": "every certificate, list of intervals and current time", "why_tests_cant": "needs intervals of weeks and a moving clock", "anchors": ["src/session_server.c: nc_server_notif_cert_exp_next_notif_time_get", "modules/libnetconf2-netconf-server@2024-07-09.yang: certificate-expiration-notif-intervals"]}
{"id": "C91", "title": "One unreadable certificate does not silence the others", "statement": "If some configured certificate cannot be read, notifications about the others are still sent and the thread can be started again.", "quantifier": "every list of certificates", "why_tests_cant": "needs a certificate that becomes unreadable after it was configured", "anchors": ["src/session_server.c: nc_server_notif_cert_exp_dates_get, nc_server_notif_cert_exp_thread, nc_server_notif_cert_expiration_thread_start"]}
{"id": "C92", "title": "Stopping the certificate expiration thread ends it", "statement": "After nc_server_notif_cert_expiration_thread_stop told the thread to stop, the thread ends without waiting for its next notification; until then it goes on as long as the certificates can be read.", "quantifier": "every interleaving of the thread with the calling thread", "why_tests_cant": "depends on the moment of the call", "anchors": ["src/session_server.c: nc_server_notif_cert_exp_thread, nc_server_notif_cert_expiration_thread_stop"]}
{"id": "C93", "title": "The certificate expiration thread follows the configuration", "statement": "After every change of the configuration the thread computes its notifications from the new certificates and intervals before it waits again.", "quantifier": "every interleaving of the thread with changes of the configuration", "why_tests_cant": "depends on the moment of the change", "anchors": ["src/session_server.c: nc_server_notif_cert_exp_thread", "src/server_config.c: nc_server_config_setup_diff, nc_server_config_setup_data"]}
{"id": "C94", "title": "RPC objects contain all arguments or are not created", "statement": "A constructor of an RPC returns an object that contains every argument it was called with, or NULL; documented arguments are accepted.", "quantifier": "every RPC kind, every combination of arguments, every ownership mode, every failing allocation", "why_tests_cant": "needs failing allocations at every place and all combinations of arguments", "anchors": ["src/messages_client.c: nc_rpc_get, nc_rpc_edit, nc_rpc_getdata, ..."]}
{"id": "C95", "title": "A sent RPC says what its object says", "statement": "The operation nc_send_rpc sends, read by the YANG modules, has exactly the parameters of the RPC object; an RPC with a parameter libyang rejects is not sent, and if libyang rejects nothing, an RPC is sent exactly if the context has the modules of its operation and parameters.", "quantifier": "every RPC kind, all values of its parameters, every answer of libyang", "why_tests_cant": "27 kinds with many optional parameters; the rejection of one parameter may be hidden by the next", "anchors": ["src/session_client.c: nc_send_rpc"]}
{"id": "C96", "title": "Replies are parsed for the operation that was sent", "statement": "A reply to an RPC is parsed with the operation, of the same module and name, that was sent for this RPC.", "quantifier": "every RPC kind and set of implemented modules", "why_tests_cant": "two long switch statements have to agree", "anchors": ["src/session_client.c: nc_send_rpc, recv_reply_dup_rpc"]}
{"id": "C97", "title": "Host keys are accepted as the known hosts mode says", "statement": "Connecting goes on exactly in the cases documented for the mode: a known key; a changed key only with accept or skip; an unknown key never with strict, only after the user typed yes with ask. The known hosts file is changed only for unknown keys, never with strict or skip.", "quantifier": "every mode, state of the key, sequence of lines typed by the user", "why_tests_cant": "five modes, six states of the key and arbitrary typed input", "anchors": ["src/session_client_ssh.c: nc_client_ssh_auth_hostkey_check", "src/session.h: NC_SSH_KNOWNHOSTS_MODE"]}
{"id": "C98", "title": "An SSH connection is reported as authenticated only if the server accepted it", "statement": "nc_connect_ssh goes on to open the channel only after the server answered an authentication request with success.", "quantifier": "every server behaviour, key list, passphrase result, preference setting", "why_tests_cant": "needs misbehaving servers, unreadable keys and wrong passphrases in every combination", "anchors": ["src/session_client_ssh.c: connect_ssh_session"]}
{"id": "C99", "title": "Authentication methods are used as the preferences say", "statement": "Only methods that the server offers and that are not disabled are used, in the order of their preferences; the client gives up only after trying all of them.", "quantifier": "every preference setting, server behaviour, key list", "why_tests_cant": "all orders of all preferences against all server reactions", "anchors": ["src/session_client_ssh.c: connect_ssh_session", "src/session_client.h: nc_client_ssh_set_auth_pref"]}
{"id": "C100", "title": "Default order of authentication methods", "statement": "Unless preferences are set, interactive authentication is tried first, then the password, then public keys, as documented.", "quantifier": "every key, password", "why_tests_cant": "tests set the preferences explicitly", "anchors": ["src/session_client.h: nc_client_ssh_set_auth_pref", "src/session_client.c: nc_client_context_location"]}
{"id": "C101", "title": "Credentials are used only for checked servers and wanted keys", "statement": "Nothing is sent to authenticate unless the host key check succeeded; signatures and passphrases only for configured keys the server said to accept, passphrases only for encrypted keys.", "quantifier": "every server behaviour, mode, key list", "why_tests_cant": "hostile servers may answer anything in any state", "anchors": ["src/session_client_ssh.c: connect_ssh_session"]}
{"id": "C102", "title": "Authentication with several methods", "statement": "A client with all required credentials is authenticated by a server that requires several methods.", "quantifier": "every set of required methods, every way to offer them, key list", "why_tests_cant": "servers differ in when they offer the next method", "anchors": ["src/session_client_ssh.c: connect_ssh_session"]}
{"id": "C103", "title": "The list of key pairs reflects the successful calls", "statement": "Adding appends the pair or fails without a change, no pair is in the list twice; removing removes the given pair and keeps the others.", "quantifier": "every list, path, file content, index", "why_tests_cant": "needs all file contents and negative indices", "anchors": ["src/session_client_ssh.c: _nc_client_ssh_add_keypair, _nc_client_ssh_del_keypair"]}
{"id": "C104", "title": "Passphrases are asked for encrypted keys", "statement": "Before an encrypted private key is used the passphrase callback is called.", "quantifier": "every key file, server behaviour", "why_tests_cant": "depends on the format of the file", "anchors": ["src/session_client_ssh.c: _nc_client_ssh_add_keypair, connect_ssh_session"]}
{"id": "C105", "title": "System users are accepted with exactly the keys of their authorized keys file", "statement": "A public key is accepted for a system user only if it is the second field of a line of the file whose first field is a supported type; every key of the file is accepted.", "quantifier": "every file content, key", "why_tests_cant": "all texts a user may write into the file", "anchors": ["src/session_server_ssh.c: nc_server_ssh_read_authorized_keys_file, nc_server_ssh_auth_pubkey_compare_key"]}
{"id": "C106", "title": "The type of public keys is detected without reading behind them", "statement": "For every stored public key, whatever its content, its type is detected correctly and no byte behind the decoded data is read.", "quantifier": "every decoded key data", "why_tests_cant": "short and cut data, the effect of a read behind the end is not visible in a test", "anchors": ["src/session_server_ssh.c: nc_server_ssh_get_pubkey_type, nc_server_ssh_create_ssh_pubkey"]}
{"id": "C107", "title": "PAM modules get the answers to their questions", "statement": "The client is asked the questions of the PAM module in order with their echo flags; the module finds the response to each of its messages at the index of the message.", "quantifier": "every list of messages, every list of answers", "why_tests_cant": "depends on the PAM modules of the machine", "anchors": ["src/session_server_ssh.c: nc_pam_conv_clb"]}
{"id": "C108", "title": "Authentication ends within the configured time", "statement": "SSH authentication ends within auth-timeout, a client that answers in time is not refused; with auth-timeout 0 there is no limit.", "quantifier": "every sequence of requests and times of the client", "why_tests_cant": "arbitrary times of the client's answers", "anchors": ["src/session_server_ssh.c: nc_accept_ssh_session_auth, nc_server_ssh_kbdint_get_nanswers"]}
{"id": "C109", "title": "Deleting takes back what was added to configuration data", "statement": "After an nc_server_config_add_* function succeeded, the nc_server_config_del_* function of the same entry succeeds with the same names; the entry is gone, nothing else is deleted and no other value is left of what was added.", "quantifier": "every pair of functions, all names and values, every configuration", "why_tests_cant": "44 pairs of functions over arbitrary configurations", "anchors": ["src/server_config_util.c: nc_server_config_create, nc_server_config_delete", "src/server_config_util_ssh.c: nc_server_config_del_ssh_truststore_ref", "src/server_config_util_tls.c", "src/server_config.h"]}
{"id": "C110", "title": "Configuration functions change only the entry they name", "statement": "An nc_server_config_add_* or nc_server_config_del_* function changes nothing outside the entry given by its names, whether it succeeds or not, and keeps the configuration.", "quantifier": "every function, all names and values, every configuration", "why_tests_cant": "arbitrary names, including those with characters special in paths", "anchors": ["src/server_config_util.c: nc_server_config_create, nc_server_config_delete, nc_server_config_check_delete", "src/server_config_util_ssh.c", "src/server_config_util_tls.c"]}
{"id": "C111", "title": "Configuration functions leave one case of a choice", "statement": "After a successful nc_server_config_add_* function, its case of a choice (in place, keystore, truststore, keys of the system, persistent, periodic, SSH, TLS) is configured and none of the other cases.", "quantifier": "every function, all names and values, every configuration", "why_tests_cant": "arbitrary configurations before the call", "anchors": ["src/server_config_util.c: nc_server_config_check_delete", "src/server_config_util_ssh.c", "src/server_config_util_tls.c"]}
{"id": "C112", "title": "Configuration data are created if there are none", "statement": "Called with *config being NULL and valid values, every nc_server_config_add_* function creates the configuration, as its documentation says.", "quantifier": "every function, all names and values", "why_tests_cant": "all functions with all names", "anchors": ["src/server_config_util.c: nc_server_config_create, nc_server_config_check_delete", "src/server_config.h"]}
{"id": "C113", "title": "Entries can be deleted all at once", "statement": "Called with NULL for the last name, the nc_server_config_del_* functions delete all the entries of that list, as their documentation says.", "quantifier": "every function documented so, every configuration", "why_tests_cant": "all functions and configurations", "anchors": ["src/server_config_util.c: nc_server_config_delete", "src/server_config.h"]}
{"id": "C114", "title": "Public keys are given in the format of SSH", "statement": "The public key made of an RSA or EC key is the data RFC 4253 and RFC 5656 define for exactly that key; keys SSH has no name for are refused.", "quantifier": "all RSA parameters and EC points of any size, all groups", "why_tests_cant": "arbitrary numbers: sign bit, length and leading zeros", "anchors": ["src/server_config_util.c: nc_server_config_util_pkey_to_ssh_pubkey, nc_server_config_util_rsa_pubkey_param_to_bin", "src/session_openssl.c: nc_tls_mpi2bin_wrap"]}
{"id": "C115", "title": "The server uses the key and certificate of the file", "statement": "A key pair or certificate read from a file and put into the configuration makes the server use the key and certificate of that file, whatever format the file has; temporary key files are complete. A file that the libraries can read is not refused.", "quantifier": "all files, all formats, all libraries writing PEM", "why_tests_cant": "arbitrary files and keys; disk full", "anchors": ["src/server_config_util.c: nc_server_config_util_get_asym_key_pair, nc_server_config_util_get_privkey, nc_server_config_util_pem_strip_header_footer, nc_server_config_util_read_certificate", "src/session.c: nc_base64der_to_cert, nc_privkey_format_to_str", "src/session_server_tls.c: nc_base64der_to_privkey", "src/session_server_ssh.c: nc_server_ssh_privkey_data_to_tmp_file"]}
{"id": "C116", "title": "SSH2 public key files are read", "statement": "Of every file by RFC 4716 the base64 of the key is read, all of it and nothing else.", "quantifier": "all files by RFC 4716", "why_tests_cant": "arbitrary headers and lines", "anchors": ["src/server_config_util.c: nc_server_config_util_read_ssh2_pubkey"]}
{"id": "C117", "title": "A public key file gives its key or an error", "statement": "A public key file is read by its format; if success is returned, there is a key and it is the key of the file; a file with a key of a kind that SSH knows is not refused.", "quantifier": "all files, all behaviour of the libraries", "why_tests_cant": "failures inside of libraries", "anchors": ["src/server_config_util.c: nc_server_config_util_get_ssh_pubkey_file, nc_server_config_util_read_openssh_pubkey, nc_server_config_util_read_spki_pubkey"]}
{"id": "C118", "title": "Every request is answered exactly once", "statement": "While a server session runs, every message that needs a reply gets exactly one rpc-reply, in the order of the messages and with the attributes of its rpc element; no reply is made up.", "quantifier": "all sequences of messages, all callbacks, all interleavings of the I/O lock, all behaviour of the connection", "why_tests_cant": "sequences of any length with failures at any point", "anchors": ["src/session_server.c: nc_ps_poll, nc_server_recv_rpc_io, nc_server_send_reply_io", "src/io.c: nc_write_msg_io"]}
{"id": "C119", "title": "Bad messages get the errors of RFC 6241", "statement": "A message that is no valid request is never executed and is answered with the error RFC 6241 defines for it (missing-attribute without message-id, malformed-message without envelope).", "quantifier": "all messages, all errors of libyang", "why_tests_cant": "arbitrary wrong messages", "anchors": ["src/session_server.c: nc_server_recv_rpc_io, nc_server_prepare_rpc_err"]}
{"id": "C120", "title": "Framing errors end the session", "statement": "A message with a framing error ends the session (RFC 6242, 4.2); nothing is executed for it.", "quantifier": "all sessions, all states of the connection", "why_tests_cant": "failures while the error is reported", "anchors": ["src/session_server.c: nc_server_recv_rpc_io, nc_ps_poll"]}
{"id": "C121", "title": "Operations reach their callback", "statement": "Every valid request calls the callback of its operation, or else the global one, exactly once and in order; the client gets what the callback gave, operation-failed if it gave nothing, operation-not-supported if there is no callback; close-session is answered and ends the session without error.", "quantifier": "all requests, all callbacks, all sequences", "why_tests_cant": "arbitrary schemas, actions inside of data", "anchors": ["src/session_server.c: nc_server_send_reply_io, nc_set_global_rpc_clb, nc_clb_default_close_session"]}
{"id": "C122", "title": "Errors name the attribute that is not known", "statement": "A request refused because of an attribute is answered with unknown-attribute, naming the attribute and the element.", "quantifier": "all messages and paths of libyang", "why_tests_cant": "arbitrary names and values in messages", "anchors": ["src/session_server.c: nc_server_prepare_rpc_err, nc_rpc_err_get_quoted_string, nc_rpc_err_find_lysc_node"]}
{"id": "C123", "title": "get-schema gives the schema asked for", "statement": "get-schema gives the text of the module or submodule with the requested name and version in the requested format, and an error if there is none or more than one.", "quantifier": "all contexts, all requests", "why_tests_cant": "arbitrary sets of modules and revisions", "anchors": ["src/session_server.c: nc_clb_default_get_schema"]}
{"id": "C124", "title": "Replies own what they were given", "statement": "A data reply is sent and leaves its data as they were; freeing it frees the data exactly as the parameter type says. Errors of a reply are all sent in order and freed exactly once, sent or not.", "quantifier": "all replies, all numbers of errors, all other trees", "why_tests_cant": "double free and leaks for any number of errors", "anchors": ["src/messages_server.c: nc_server_reply_data, nc_server_reply_err, nc_server_reply_add_err, nc_server_reply_get_last_err, nc_server_reply_free", "src/io.c: nc_write_msg_io"]}
{"id": "C125", "title": "All distribution points of revocation lists are found (OpenSSL)", "statement": "The URIs looked for are those of the full names of all distribution points of the own certificate and all trusted certificates, in order; certificates never make the process crash.", "quantifier": "all certificates, all numbers of distribution points and names", "why_tests_cant": "arbitrary certificates with optional parts", "anchors": ["src/session_openssl.c: nc_server_tls_get_crl_distpoint_uris_wrap"]}
{"id": "C126", "title": "Reading distribution points is safe for all certificates (Mbed TLS)", "statement": "Whatever the bytes of the extensions of certificates are, looking for distribution points ends and uses no memory but that of the extensions and none that was freed.", "quantifier": "all byte sequences as extensions, any number of certificates", "why_tests_cant": "arbitrary ASN.1, nesting and lengths", "anchors": ["src/session_mbedtls.c: nc_server_tls_get_crl_distpoint_uris_wrap, nc_server_tls_parse_crl_dist_points"]}
{"id": "C127", "title": "All distribution points of revocation lists are found (Mbed TLS)", "statement": "The URIs looked for are those of the full names of all distribution points of the own certificate and all trusted certificates, and no others.", "quantifier": "all certificates in DER, all numbers of extensions, points and names", "why_tests_cant": "arbitrary certificates in DER", "anchors": ["src/session_mbedtls.c: nc_server_tls_get_crl_distpoint_uris_wrap, nc_server_tls_parse_crl_dist_points"]}
{"id": "C128", "title": "Revocation lists that can be had are used", "statement": "If a revocation list cannot be downloaded, all the others are used; lists are read as DER and as PEM; success means that they are checked.", "quantifier": "all sequences of downloads, failing at any point, in any number of chunks", "why_tests_cant": "failures of the network in the middle of a download", "anchors": ["src/session.c: nc_session_tls_crl_from_cert_ext_fetch, nc_session_curl_cb, nc_session_curl_fetch", "src/session_openssl.c: nc_server_tls_add_crl_to_store_wrap", "src/session_mbedtls.c: nc_server_tls_add_crl_to_store_wrap"]}
{"id": "C129", "title": "The truststore follows the configuration", "statement": "After nc_server_config_setup_data the truststore of the server holds exactly the certificate bags, public key bags, certificates and public keys of the data, whatever it held before; after every sequence of diffs given to nc_server_config_setup_diff it holds exactly those of the patched configuration, each once and with its current data.", "quantifier": "all configurations, all sequences of diffs that fit them", "why_tests_cant": "histories of changes of unbounded length; removal moves entries of arrays that later changes refer to", "anchors": ["src/server_config_ts.c: nc_server_config_fill_truststore, nc_server_config_parse_truststore, nc_server_config_ts_public_key, nc_server_config_ts_cert_data", "src/server_config.c: nc_server_config_parse_tree, nc_server_config_setup_diff"]}
{"id": "C130", "title": "The keystore follows the configuration", "statement": "After nc_server_config_setup_data the keystore of the server holds exactly the asymmetric keys and their certificates of the data; after every sequence of diffs it holds exactly those of the patched configuration with their current keys and formats.", "quantifier": "all configurations, all sequences of diffs that fit them", "why_tests_cant": "histories of changes of unbounded length", "anchors": ["src/server_config_ks.c: nc_server_config_fill_keystore, nc_server_config_parse_keystore, nc_server_config_ks_public_key, nc_server_config_ks_certificate", "src/server_config.c: nc_server_config_parse_tree, nc_server_config_setup_diff"]}
{"id": "C131", "title": "SSH users and host keys follow the configuration", "statement": "After nc_server_config_setup_data and after every sequence of diffs given to nc_server_config_setup_diff, an SSH endpoint has exactly the users and host keys of the resulting configuration, and each user authenticates with exactly the public keys (given there, of a truststore bag, or of the system), the password and the methods configured for them; nothing that was removed is accepted any longer.", "quantifier": "all configurations, all sequences of diffs that fit them", "why_tests_cant": "histories of changes of unbounded length; the arrays of keys and the name of a bag share memory, so that effects show only some changes later", "anchors": ["src/server_config.c: nc_server_config_public_key, nc_server_config_truststore_reference, nc_server_config_use_system_keys, nc_server_config_public_keys, nc_server_config_del_auth_client_pubkeys, nc_server_config_use_system_auth, nc_server_config_user, nc_server_config_keystore_reference", "src/session_p.h: struct nc_auth_client"]}
{"id": "C132", "title": "Order of SSH host keys", "statement": "The host keys of an SSH endpoint are used in the order of the configuration (the list is ordered by the user), after the configuration is set up and after every diff.", "quantifier": "all configurations, all sequences of diffs that fit them", "why_tests_cant": "histories of changes of unbounded length", "anchors": ["src/server_config.c: nc_server_config_host_key, nc_server_config_del_hostkey, nc_server_config_create_host_key", "src/session_server_ssh.c: nc_ssh_bind_add_hostkeys"]}
{"id": "C133", "title": "TLS parameters of an endpoint follow the configuration", "statement": "After nc_server_config_setup_data and after every sequence of diffs given to nc_server_config_setup_diff, a TLS endpoint presents exactly the key and certificate of the resulting configuration (given there or in the keystore), and checks clients against exactly the CA and end-entity certificates configured (given there or in a truststore bag); using the endpoint never follows an invalid pointer.", "quantifier": "all configurations, all sequences of diffs that fit them", "why_tests_cant": "histories of changes of unbounded length; the structures are unions, so that effects show only when a client connects or some changes later", "anchors": ["src/server_config.c: nc_server_config_cert_data, nc_server_config_asymmetric_key, nc_server_config_certificate, nc_server_config_truststore_reference, nc_server_config_del_certs, nc_server_config_client_authentication, nc_server_config_public_key_format", "src/session_server_tls.c: nc_server_tls_load_server_cert_key, nc_server_tls_load_trusted_certs", "src/session_p.h: struct nc_server_tls_opts"]}
{"id": "C134", "title": "TLS versions accepted are those configured", "statement": "An endpoint with configured TLS versions accepts exactly those of them that the TLS library supports; without configured versions it accepts what the library supports by default. This holds after set up and after every sequence of diffs.", "quantifier": "all configurations, all sequences of diffs that fit them, all sets of versions supported by the library", "why_tests_cant": "the set of versions after histories of changes of unbounded length", "anchors": ["src/server_config.c: nc_server_config_tls_version", "src/session_openssl.c: nc_server_tls_set_tls_versions_wrap", "src/session_mbedtls.c: nc_server_tls_set_tls_versions_wrap"]}
{"id": "C135", "title": "cert-to-name entries follow the configuration", "statement": "After every sequence of diffs client certificates are mapped to user names by exactly the cert-to-name entries of the resulting configuration: with their map types, names and fingerprints, in the order of their ids.", "quantifier": "all configurations, all sequences of diffs that fit them", "why_tests_cant": "histories of changes of unbounded length", "anchors": ["src/server_config.c: nc_server_config_cert_to_name, nc_server_config_create_cert_to_name, nc_server_config_fingerprint, nc_server_config_parse_netconf_server"]}
{"id": "C136", "title": "The server listens exactly where it is configured to", "statement": "After nc_server_config_setup_data and after every sequence of diffs given to nc_server_config_setup_diff, the server listens, with the configured transport, at the address and port (or default port of the transport) of every configured endpoint, and nowhere else; a diff is applied whenever the operating system would let the server listen as the resulting configuration says.", "quantifier": "all configurations, all sequences of diffs that fit them, all answers of the operating system", "why_tests_cant": "histories of changes of unbounded length; what works depends on the order in which sockets are opened and closed and on the operating system", "anchors": ["src/server_config.c: nc_server_config_endpoint, nc_server_config_ssh, nc_server_config_tls, nc_server_config_local_address, nc_server_config_local_port, nc_server_config_del_ssh_opts, nc_server_config_del_tls_opts", "src/session_server.c: nc_server_set_address_port, nc_sock_listen_inet"]}
{"id": "C137", "title": "TCP keepalives and idle timeout follow the configuration", "statement": "After set up and after every sequence of diffs that was applied, every endpoint, of the server and of Call Home clients, sends TCP keepalives with the configured idle time, number of probes and interval (or their defaults), and the idle timeout of sessions is the configured one (or 180 s).", "quantifier": "all configurations, all sequences of diffs that fit them", "why_tests_cant": "histories of changes of unbounded length", "anchors": ["src/server_config.c: nc_server_config_keepalives, nc_server_config_idle_time, nc_server_config_max_probes, nc_server_config_probe_interval, nc_server_config_idle_timeout"]}
{"id": "C138", "title": "No listening socket is leaked by configuration", "statement": "Whatever data and diffs are given to the server, valid or not, applied or failed half way, and whatever the operating system answers: every listening socket that was opened and not closed belongs to an endpoint of the server.", "quantifier": "all data trees and sequences of diff trees, all answers of the operating system", "why_tests_cant": "arbitrary trees with failures at every possible point", "anchors": ["src/session_server.c: nc_server_set_address_port", "src/server_config.c: nc_server_config_local_address, nc_server_config_local_port, nc_server_config_endpoint"]}
{"id": "C139", "title": "Call Home clients are contacted at the configured endpoints in order", "statement": "After nc_server_config_setup_data and after every sequence of diffs given to nc_server_config_setup_diff, the server has exactly the configured Call Home clients, each with the configured endpoints in the configured order: transport, remote address and port (or the default port of the transport), local address and port.", "quantifier": "all configurations, all sequences of diffs that fit them", "why_tests_cant": "histories of changes of unbounded length, ordered lists, memory that is freed but still used", "anchors": ["src/server_config.c: nc_server_config_netconf_client, nc_server_config_endpoint, nc_server_config_ch_del_endpt, nc_server_config_destroy_ch_client, nc_server_config_get_ch_endpt, nc_server_config_remote_address, nc_server_config_remote_port, nc_server_config_ssh, nc_server_config_tls"]}
{"id": "C140", "title": "Call Home connection type and reconnect strategy follow the configuration", "statement": "After set up and after every sequence of diffs that was applied successfully, every configured Call Home client has the configured connection type (persistent, or periodic with period, anchor time and idle timeout) and reconnect strategy (start-with, max-wait, max-attempts), with the defaults of the YANG module where nothing is given.", "quantifier": "all configurations, all sequences of diffs that fit them, including edits of endpoints that are not followed", "why_tests_cant": "histories of changes of unbounded length; defaults must come back whenever containers and leaves disappear", "anchors": ["src/server_config.c: nc_server_config_persistent, nc_server_config_periodic, nc_server_config_period, nc_server_config_anchor_time, nc_server_config_idle_timeout, nc_server_config_reconnect_strategy, nc_server_config_start_with, nc_server_config_max_wait, nc_server_config_max_attempts"]}
{"id": "C141", "title": "The server is as configured after any mix of complete data and diffs", "statement": "After any sequence of nc_server_config_setup_data calls with valid data (which replace the whole configuration) and nc_server_config_setup_diff calls with fitting diffs, the calls succeed as far as the operating system lets the server listen, and keystore, truststore, listening sockets, idle timeout, Call Home clients and certificate expiration intervals are those configured.", "quantifier": "all sequences of valid data and fitting diffs over all modules, with and without Call Home callbacks, all answers of the operating system", "why_tests_cant": "histories of unbounded length over the whole configuration; what earlier calls left behind only shows in later ones", "anchors": ["src/server_config.c: nc_server_config_setup_data, nc_server_config_setup_diff, nc_server_config_fill_netconf_server, nc_server_config_fill_libnetconf2_netconf_server, nc_server_config_parse_tree, nc_server_config_listen, nc_server_config_ch", "src/server_config_ks.c: nc_server_config_fill_keystore", "src/server_config_ts.c: nc_server_config_fill_truststore"]}
{"id": "C142", "title": "Certificate expiration intervals follow the configuration", "statement": "After set up and after every sequence of diffs, the server uses exactly the configured certificate expiration notification intervals, each once, with the anchor and period their texts denote; removing an interval leaves the others as they were. (The container has the if-feature certificate-expiration-notification, which the application has to enable.)", "quantifier": "all lists of valid intervals, all sequences of diffs that fit them", "why_tests_cant": "histories of changes of unbounded length; effect on later notification times", "anchors": ["src/server_config.c: nc_server_config_interval, nc_server_config_create_interval, nc_server_config_del_interval, nc_server_config_yang_value2cert_exp_time, nc_server_config_ln2_netconf_server, nc_server_config_parse_libnetconf2_netconf_server"]}
{"id": "C143", "title": "Complete data that are not applied leave the server as it was", "statement": "If nc_server_config_setup_data returns an error, the configuration in use before the call is still in use.", "quantifier": "all configurations before, all data given", "why_tests_cant": "needs every reason for failing in every state, and the sockets of the state left behind", "anchors": ["src/server_config.c: nc_server_config_setup_data, nc_server_config_listen", "src/session_server.c: nc_server_set_address_port"]}
{"id": "C144", "title": "Complete data with operation attributes are refused", "statement": "If any node of the data given to nc_server_config_setup_data has an operation attribute, the call fails and nothing changes.", "quantifier": "all data trees, all positions of the attribute, all orders of the top-level containers", "why_tests_cant": "the attribute may be anywhere in data of any shape", "anchors": ["src/server_config.c: nc_server_config_setup_data"]}
{"id": "C145", "title": "Connecting to a host loses no socket", "statement": "Whatever the operating system answers, nc_sock_connect uses no closed socket, leaves all other sockets alone, and every socket it opened or found pending is afterwards returned, kept as pending for the next call, or closed; the address reported is that of the socket returned. A Call Home endpoint never has more than its one pending socket.", "quantifier": "all lists of addresses, all answers of the operating system at every step, any number of attempts", "why_tests_cant": "every combination of failures of eight system calls over lists of addresses and sequences of attempts", "anchors": ["src/session_client.c: nc_sock_connect, sock_connect", "src/session_server.c: nc_connect_ch_endpt"]}
{"id": "C146", "title": "A host is reached if one of its addresses answers", "statement": "Connecting to a host tries its addresses in order and uses the first one that answers; this holds for clients and for Call Home connections of a server.", "quantifier": "all lists of addresses and their behaviour, any number of attempts", "why_tests_cant": "behaviour over unboundedly many attempts with connections that neither succeed nor fail in time", "anchors": ["src/session_client.c: nc_sock_connect, sock_connect", "src/session_server.c: nc_connect_ch_endpt"]}
{"id": "C147", "title": "Call Home connects to the configured address", "statement": "A Call Home connection of the server goes to an address of the host configured for the endpoint at that time.", "quantifier": "all sequences of attempts and changes of the configuration in between", "why_tests_cant": "the connection that is pending when the configuration changes is used by a later attempt", "anchors": ["src/session_client.c: nc_sock_connect", "src/session_server.c: nc_connect_ch_endpt", "src/server_config.c: nc_server_config_remote_address"]}
{"id": "C148", "title": "A strict session knows the modules of the server", "statement": "If a client session is established and still strict (not marked NC_SESSION_CLIENT_NOT_STRICT), all modules that the server implements according to its yang-library data or capabilities are implemented in the context of the session, in the revision announced, and nothing was removed from the context; such a session is established if all modules are available.", "quantifier": "all lists of capabilities and yang-library data, all contexts before, all answers of local files, server, user callback and libyang", "why_tests_cant": "the product of module lists, context contents and sources of the texts is unbounded", "anchors": ["src/session_client.c: nc_ctx_check_and_fill, nc_ctx_fill, nc_ctx_load_module, nc_ctx_fill_ietf_netconf, build_module_info_yl"]}
{"id": "C149", "title": "A session that broke while its context was filled is not returned", "statement": "If the connection breaks during the get-schema or get-data requests that fill the context, establishing the session fails.", "quantifier": "all servers that may break at any request, all lists of modules, own and shared contexts", "why_tests_cant": "the break may come at any of unboundedly many requests, and other sources may hide it", "anchors": ["src/session_client.c: nc_ctx_check_and_fill, nc_ctx_fill, build_module_info_yl, get_oper_data, retrieve_module_data_getschema"]}
{"id": "C150", "title": "Data of the schema callback are freed as it demands", "statement": "Module data given by the callback of nc_client_set_schema_callback are freed with the function that the callback returned, or not at all if there is none, whatever modules are loaded.", "quantifier": "all callbacks, servers, lists of modules and contexts", "why_tests_cant": "which source gives a module depends on files, server and callback in every combination", "anchors": ["src/session_client.c: retrieve_module_data, nc_ctx_load_module, nc_client_set_schema_callback"]}
{"id": "C151", "title": "A user's context gets its options and callback back", "statement": "After a session was established, or not, on a context of the user, its import callback and its options are those of before; with automatic filling disabled the context is not touched.", "quantifier": "all contexts, servers, failures at any point", "why_tests_cant": "every exit of the function from every state of the options", "anchors": ["src/session_client.c: nc_ctx_check_and_fill, nc_client_set_auto_context_fill"]}
{"id": "C152", "title": "Which servers a client accepts", "statement": "A client establishes a session with every server that announces a base capability and whose modules can all be loaded; it never does with one that does not implement the module ietf-netconf.", "quantifier": "all lists of capabilities, all yang-library data, all environments", "why_tests_cant": "acceptance depends on unboundedly many capability lists", "anchors": ["src/session_client.c: nc_ctx_fill_ietf_netconf, nc_ctx_check_and_fill, build_module_info_cpblts"]}
{"id": "C153", "title": "Files without revision do not replace modules with one", "statement": "A local file without revision in its name has no influence on a session where the server announced a revision: everything goes as if the file did not exist.", "quantifier": "all sets of local files, all servers, callbacks and contexts", "why_tests_cant": "needs the comparison of two whole runs for all environments", "anchors": ["src/session_client.c: retrieve_module_data_localfile, retrieve_module_data"]}
{"id": "C154", "title": "All certificates of the server are watched", "statement": "The certificate expiration notifications cover every certificate of the server configuration (endpoints, Call Home endpoints, keystore, truststore), each once and with its own expiration time, as long as each single certificate can be read; one that cannot be read does not affect the others.", "quantifier": "all configurations, calendars, intervals and times", "why_tests_cant": "quantifies over configurations of any size with any certificate unreadable", "anchors": ["src/session_server.c: nc_server_notif_cert_exp_dates_get, nc_server_notif_cert_exp_dates_endpt_get, nc_server_notif_cert_exp_date_append"]}
{"id": "C155", "title": "A notification names the certificate that expires", "statement": "The XPath given with a certificate expiration notification denotes the expiration date of exactly the certificate concerned, so that different certificates have different paths.", "quantifier": "all configurations and names, as strings of any length", "why_tests_cant": "names are arbitrary strings that become part of an XPath expression", "anchors": ["src/session_server.c: nc_server_notif_cert_exp_xpath_get, nc_server_notif_cert_exp_dates_get"]}
{"id": "C156", "title": "DNS vouches for a host key only with DNSSEC", "statement": "With DNSSEC support, a client accepts an unknown host key without asking, and remembers it, only if a validated reply to its query, with the AD flag, has an SSHFP record of the type of the key with its fingerprint.", "quantifier": "all DNS replies, key types and fingerprints", "why_tests_cant": "replies are chosen by an attacker", "anchors": ["src/session_client_ssh.c: sshauth_hostkey_hash_dnssec_check, nc_client_ssh_do_dnssec_sshfp_check"]}
{"id": "C157", "title": "A host key that DNSSEC vouches for is accepted", "statement": "If a secured reply has a well-formed SSHFP record with the fingerprint of the host key, the key is accepted, whatever other records there are.", "quantifier": "all DNS replies with any number of records in any order", "why_tests_cant": "order and number of records", "anchors": ["src/session_client_ssh.c: sshauth_hostkey_hash_dnssec_check, nc_client_ssh_do_dnssec_sshfp_check"]}
{"id": "C158", "title": "The user is told the truth about DNS", "statement": "When a user is asked about an unknown host key and told that a matching fingerprint was found using DNS, the reply of the resolver had a matching record.", "quantifier": "all DNS replies and types of host keys", "why_tests_cant": "all combinations of replies, failures and key types", "anchors": ["src/session_client_ssh.c: nc_client_ssh_do_dnssec_sshfp_check"]}
{"id": "C159", "title": "DNS replies are read within their records", "statement": "No DNS reply makes the client read beyond the data of an SSHFP record.", "quantifier": "all DNS replies with records of any length", "why_tests_cant": "replies are chosen by an attacker, and reading a few bytes too far is not visible in tests", "anchors": ["src/session_client_ssh.c: sshauth_hostkey_hash_dnssec_check"]}
{"id": "C160", "title": "A UNIX endpoint listens at its path with its permissions", "statement": "A UNIX endpoint that was added listens at exactly the path given and has the mode and owners given from the first moment a client can connect; no other file is touched, and paths that do not fit are refused.", "quantifier": "all paths, permissions, file systems and refusals of the operating system", "why_tests_cant": "paths of any length and any failing call, including states between the calls", "anchors": ["src/session_server.c: nc_sock_listen_unix"]}
{"id": "C161", "title": "UNIX endpoints stay reachable", "statement": "After any sequence of adding and removing UNIX endpoints, each endpoint that is reported as listening is reached at its path.", "quantifier": "all sequences of calls with any refusals of the operating system", "why_tests_cant": "sequences of any length", "anchors": ["src/session_server.c: nc_server_add_endpt_unix_socket_listen, nc_server_del_endpt_unix_socket, nc_sock_listen_unix"]}
{"id": "C162", "title": "No socket of a UNIX endpoint is leaked", "statement": "After any sequence of adding and removing UNIX endpoints the sockets that are open are exactly those of the endpoints, whichever calls fail.", "quantifier": "all sequences of calls with any refusals of the operating system", "why_tests_cant": "sequences of any length with failures at any step", "anchors": ["src/session_server.c: nc_server_add_endpt_unix_socket_listen, nc_server_del_endpt_unix_socket, nc_sock_listen_unix"]}
{"id": "C163", "title": "Adding a UNIX endpoint can be tried again", "statement": "If adding a UNIX endpoint fails, it can be added again by the same call once the reason is gone.", "quantifier": "all states of the server and refusals", "why_tests_cant": "all states of the server", "anchors": ["src/session_server.c: nc_server_add_endpt_unix_socket_listen, nc_server_del_endpt_unix_socket"]}
{"id": "C164", "title": "A client reaches the UNIX socket at the path it was given", "statement": "nc_connect_unix() connects to the socket that listens at the path given, or fails.", "quantifier": "all paths and file systems", "why_tests_cant": "paths of any length", "anchors": ["src/session_client.c: nc_connect_unix", "src/session_server.c: nc_sock_listen_unix"]}
{"id": "C165", "title": "The user of a UNIX session is the owner of the client process", "statement": "The user name of a session accepted on a UNIX socket is the name of the UID of the client as reported by the operating system, and each client with a name is accepted.", "quantifier": "all passwd databases and clients", "why_tests_cant": "all databases, with entries of any size", "anchors": ["src/session_server.c: nc_accept_unix_session, nc_get_uid", "src/io.c: nc_getpw"]}
{"id": "C166", "title": "A UNIX client that is turned down leaves nothing behind", "statement": "When a client of a UNIX socket is turned down, its socket is closed and all memory is freed.", "quantifier": "all clients, databases and failures", "why_tests_cant": "failures at any step", "anchors": ["src/session_server.c: nc_accept_unix_session"]}
{"id": "C167", "title": "System users are found whatever the size of their entry", "statement": "Looking up a system user ends and gives the entry of the database, whatever its size.", "quantifier": "all databases, sizes of entries and first sizes of the buffer", "why_tests_cant": "entries of any size", "anchors": ["src/io.c: nc_getpw", "src/session_server_ssh.c: nc_server_ssh_getpwnam, nc_server_ssh_getspnam"]}
{"id": "C168", "title": "Closing a session releases all it owns exactly once", "statement": "However a session was established (given descriptors, UNIX socket, SSH, TLS, libssh session, Call Home, accepted by a server), nc_session_free() releases every object and descriptor that was acquired for it, each exactly once, and nothing else; with all calls succeeding there is a session.", "quantifier": "all ways to establish a session, both TLS libraries, all outcomes of the calls on the way", "why_tests_cant": "combinations of outcomes of a dozen calls that cannot be provoked", "anchors": ["src/session.c: nc_session_free, nc_session_free_transport", "src/session_client.c: nc_connect_inout, nc_connect_unix", "src/session_client_ssh.c: nc_connect_ssh, nc_connect_libssh", "src/session_client_tls.c: nc_connect_tls", "src/session_server.c: nc_accept"]}
{"id": "C169", "title": "A failed SSH connection attempt leaves nothing behind", "statement": "When nc_connect_ssh() or nc_connect_inout() returns NULL, all memory and the socket acquired on the way are released, each exactly once, whichever step failed.", "quantifier": "all outcomes of the calls", "why_tests_cant": "failures at each step, including memory", "anchors": ["src/session_client_ssh.c: nc_connect_ssh", "src/session_client.c: nc_connect_inout"]}
{"id": "C170", "title": "A failed connection attempt over UNIX, TLS, libssh or Call Home leaves nothing behind", "statement": "When nc_connect_unix(), nc_connect_tls(), nc_connect_libssh() or accepting a Call Home connection gives no session, all memory and the socket are released, whichever step failed.", "quantifier": "all outcomes of the calls, both TLS libraries", "why_tests_cant": "failures at each step, including memory", "anchors": ["src/session_client.c: nc_connect_unix", "src/session_client_tls.c: nc_connect_tls, nc_client_tls_session_new, nc_accept_callhome_tls_sock", "src/session_client_ssh.c: _nc_connect_libssh, nc_accept_callhome_ssh_sock"]}
{"id": "C171", "title": "Connecting frees nothing twice", "statement": "No function that connects a client or accepts Call Home frees memory or closes a descriptor twice, whichever step fails.", "quantifier": "all outcomes of the calls, both TLS libraries", "why_tests_cant": "failures at each step, including memory", "anchors": ["src/session_client.c: nc_connect_inout, nc_connect_unix", "src/session_client_ssh.c: nc_connect_ssh, _nc_connect_libssh, nc_accept_callhome_ssh_sock", "src/session_client_tls.c: nc_connect_tls, nc_client_tls_session_new, nc_accept_callhome_tls_sock"]}
{"id": "C172", "title": "A client that is not accepted leaves nothing behind", "statement": "When nc_accept() gives no session, the socket of the client is closed exactly once and all memory is released, whichever step failed.", "quantifier": "all transports, outcomes of the calls and both TLS libraries", "why_tests_cant": "failures at each step, including memory", "anchors": ["src/session_server.c: nc_accept, nc_accept_unix_session", "src/session_server_ssh.c: nc_accept_ssh_session", "src/session_server_tls.c: nc_accept_tls_session"]}
{"id": "C173", "title": "TLS versions and cipher suites configured are those used", "statement": "A TLS session accepted by the server uses a configured version and a configured cipher suite if there are any; all configured ones that the library supports can be used.", "quantifier": "all sets of versions, lists of cipher suites, both TLS libraries", "why_tests_cant": "what is negotiated depends on the peer; tests use one client", "anchors": ["src/session_server_tls.c: nc_accept_tls_session", "src/session_openssl.c: nc_server_tls_set_cipher_suites_wrap, nc_server_tls_set_tls_versions_wrap", "src/session_mbedtls.c: nc_tls_setup_config_from_ctx_wrap, nc_server_tls_set_cipher_suites_wrap"]}
{"id": "C174", "title": "No TLS session without a trusted certificate of the peer", "statement": "Neither the client nor the server completes a TLS handshake with a peer without a trusted certificate, whatever parameters are configured; the cert-to-name callback of the server is always set.", "quantifier": "all parameters, versions, cipher suites, both sides and both TLS libraries", "why_tests_cant": "all combinations of parameters and libraries", "anchors": ["src/session_server_tls.c: nc_accept_tls_session", "src/session_client_tls.c: nc_client_tls_session_new", "src/session_openssl.c: nc_server_tls_set_verify_wrap, nc_client_tls_set_verify_wrap", "src/session_mbedtls.c: nc_server_tls_set_verify_wrap, nc_client_tls_set_verify_wrap, nc_tls_setup_config_from_ctx_wrap"]}
{"id": "C175", "title": "SSH algorithms configured are those negotiated", "statement": "An SSH session of the server uses configured host key, key exchange, encryption and MAC algorithms if there are any, in both directions; a list without any known algorithm refuses all sessions.", "quantifier": "all lists of algorithms and all offers of the client", "why_tests_cant": "what is negotiated depends on the offer of the client; tests use one client", "anchors": ["src/session_server_ssh.c: nc_accept_ssh_session"]}
{"id": "C176", "title": "Asking for a password leaves the terminal as it was and does not show it", "statement": "The default callbacks of the client for passwords, keyboard-interactive answers and passphrases read typed text with the echo of the terminal off (unless the server asked for a shown answer), and afterwards no file is open and all terminals have their settings back, whatever failed.", "quantifier": "all outcomes of the calls, all terminals and settings", "why_tests_cant": "needs terminals that fail at each step", "anchors": ["src/session_client_ssh.c: nc_open_tty_noecho, nc_open_in, nc_open_out, nc_close_inout, sshauth_password, sshauth_interactive, sshauth_privkey_passphrase"]}
{"id": "C177", "title": "The answer typed by the user is used exactly", "statement": "The default callbacks return exactly the line the user typed, however long it is, and write nothing outside of their buffer.", "quantifier": "all lines", "why_tests_cant": "lengths beyond what a test types", "anchors": ["src/session_client_ssh.c: sshauth_password, sshauth_interactive, sshauth_privkey_passphrase"]}
{"id": "C178", "title": "Private host keys do not stay in temporary files", "statement": "After an SSH session was accepted or refused, no temporary file with a private host key is left; such files can only be read by their owner and the file mode creation mask of the process is as before.", "quantifier": "all lists of host keys, all outcomes of the calls", "why_tests_cant": "failures at each step for each key", "anchors": ["src/session_server_ssh.c: nc_server_ssh_privkey_data_to_tmp_file, nc_ssh_bind_add_hostkeys"]}
{"id": "C179", "title": "All host keys of an endpoint are used", "statement": "An SSH session is accepted only if all host keys of the endpoint, its own and those of the keystore, can be used, and then clients can verify the server by any of them.", "quantifier": "all lists of host keys and keystores, all outcomes of the calls", "why_tests_cant": "any number of keys of any types", "anchors": ["src/session_server_ssh.c: nc_ssh_bind_add_hostkeys, nc_server_ssh_ks_ref_get_key"]}
{"id": "C180", "title": "Data given with callbacks of the server is freed once and not used after that", "statement": "Data an application gives with a function to free it (nc_server_set_content_id_clb, nc_server_ssh_set_interactive_auth_clb) is freed at most once, by nc_server_destroy(), and no callback is called with it after that.", "quantifier": "all sequences of calls, also with the server being initialised again", "why_tests_cant": "unbounded sequences of calls; reusing freed memory goes unnoticed", "anchors": ["src/session_server.c: nc_server_destroy, nc_server_init, nc_server_set_content_id_clb", "src/session_server_ssh.c: nc_server_ssh_set_interactive_auth_clb", "src/session.c: nc_server_get_cpblts_version"]}
{"id": "C181", "title": "A server that is destroyed and initialised again is a new one", "statement": "After nc_server_destroy() and nc_server_init() no setting of the old server is in force: capabilities, with-defaults modes, callbacks, PAM and authorized keys settings, session numbers.", "quantifier": "all sequences of calls before and after", "why_tests_cant": "unbounded sequences of calls", "anchors": ["src/session_server.c: nc_server_destroy, nc_server_init, nc_server_set_capability, nc_server_set_capab_withdefaults", "src/session_server_ssh.c: nc_server_ssh_set_pam_conf_filename, nc_server_ssh_set_authkey_path_format", "src/session_server_tls.c: nc_server_tls_set_verify_clb"]}
{"id": "C182", "title": "Threads using the library never block each other for ever", "statement": "However many threads use the server and its sessions, together with threads of Call Home clients and of certificate notifications, they never wait in a circle for locks or for each other to end, a lock is held by one writer or by readers only, and when nothing can go on all calls have returned and all locks are free.", "quantifier": "all numbers of threads, sequences of calls and schedules", "why_tests_cant": "a deadlock needs one of unboundedly many interleavings", "anchors": ["src/session_server.c: nc_accept, nc_ps_poll, nc_ps_clear, nc_ch_client_thread, nc_server_notif_cert_exp_thread, nc_server_notif_cert_expiration_thread_stop", "src/server_config.c: nc_server_config_setup_diff, nc_server_config_setup_data, nc_server_config_destroy_ch_client", "src/session.c: nc_session_free, nc_session_io_lock"]}
{"id": "C183", "title": "The configuration is not changed while it is used", "statement": "While one thread changes listening endpoints, the keystore, the truststore or settings of SSH, no other thread of the library reads or changes them.", "quantifier": "all numbers of threads, sequences of calls and schedules", "why_tests_cant": "a data race needs one of unboundedly many interleavings and may have no visible effect in a test", "anchors": ["src/server_config.c: nc_server_config_setup_diff, nc_server_config_setup_data", "src/session_server.c: nc_accept, nc_connect_ch_endpt, nc_server_endpt_count", "src/session_server_ssh.c: nc_server_ssh_ks_ref_get_key", "src/session_server_tls.c: nc_server_tls_ks_ref_get_cert_key"]}
{"id": "C184", "title": "Call Home clients are not changed while they are used", "statement": "While one thread changes the Call Home clients or the configuration of one of them, no other thread of the library reads or changes the same.", "quantifier": "all numbers of threads, sequences of calls and schedules", "why_tests_cant": "a data race needs one of unboundedly many interleavings and may have no visible effect in a test", "anchors": ["src/session_server.c: nc_server_ch_client_lock, nc_server_ch_client_is_endpt, nc_server_ch_is_client, nc_connect_ch_client_dispatch, nc_ch_client_thread", "src/server_config.c: nc_server_config_ch_del_client, nc_server_config_create_netconf_client"]}
{"id": "C185", "title": "Intervals of certificate notifications are not changed while they are used", "statement": "While one thread changes the intervals of certificate expiration notifications, the thread sending these notifications does not read them.", "quantifier": "all numbers of threads, sequences of calls and schedules", "why_tests_cant": "a data race needs one of unboundedly many interleavings and may have no visible effect in a test", "anchors": ["src/session_server.c: nc_server_notif_cert_exp_intervals_get, nc_server_notif_cert_exp_dates_get, nc_server_notif_cert_exp_thread"]}
{"id": "C186", "title": "Waiting for a message tells data, silence and lost connections apart", "statement": "Waiting for data on a session gives 1 only if there is something to read, 0 exactly if the session is usable and nothing happened, and otherwise fails and leaves a session that is over with the reason; what the peer sent before closing is still read, and a session that is over stays so.", "quantifier": "all sessions, transports, sequences of waits and reports of poll, libssh and OpenSSL", "why_tests_cant": "combinations of events of all transports cannot be produced at will", "anchors": ["src/io.c: nc_read_poll, nc_read_msg_poll_io"]}
{"id": "C187", "title": "Lost connections are known before writing and closing", "statement": "A session is treated as connected only if its descriptor is open and poll reports neither hang-up nor error, and a connection without these is not taken for lost.", "quantifier": "all sessions and all reports of poll", "why_tests_cant": "events of the kernel cannot be produced at will", "anchors": ["src/io.c: nc_session_is_connected, nc_write", "src/session.c: nc_session_free_transport"]}
{"id": "C188", "title": "Capabilities of the server are found", "statement": "nc_session_cpblt() gives the first capability of the server that is the one asked for with any suffix, and NULL exactly if there is none.", "quantifier": "all lists of capabilities and all texts", "why_tests_cant": "unbounded lists and texts", "anchors": ["src/session_client.c: nc_session_cpblt"]}
{"id": "C189", "title": "Settings of the client are what was given last", "statement": "After any calls of the setters of certificates, trusted CAs, user names, known hosts and schema search path, a call following the documentation succeeds, the getters give exactly the texts given, all other settings (also those for Call Home) stay as they are, and a refused call changes nothing.", "quantifier": "all sequences of calls, texts and failures of memory allocation", "why_tests_cant": "unbounded sequences of calls; memory cannot be made short at will", "anchors": ["src/session_client_tls.c: _nc_client_tls_set_cert_key_paths, _nc_client_tls_set_trusted_ca_paths, _nc_client_tls_get_cert_key_paths", "src/session_client_ssh.c: _nc_client_ssh_set_username, _nc_client_ssh_set_knownhosts_path", "src/session_client.c: nc_client_set_schema_searchpath"]}
{"id": "C190", "title": "Memory of client settings is freed exactly once", "statement": "Setting and destroying client settings never uses or frees freed memory, every setting has its own memory, none is lost, and nc_client_destroy() frees all of it.", "quantifier": "all sequences of calls, texts and failures of memory allocation", "why_tests_cant": "unbounded sequences of calls; memory cannot be made short at will", "anchors": ["src/session_client_tls.c: _nc_client_tls_set_cert_key_paths, _nc_client_tls_destroy_opts", "src/session_client_ssh.c: _nc_client_ssh_destroy_opts", "src/session_client.c: nc_client_destroy"]}
{"id": "C191", "title": "Keys are converted to and from Base64 without loss", "statement": "Converting to and from Base64 never writes behind its buffers, bytes are converted to the text RFC 4648 prescribes, only texts of groups of four Base64 characters with blanks around them are accepted, and bytes converted to text and back are the same bytes.", "quantifier": "all texts and byte sequences", "why_tests_cant": "unbounded lengths", "anchors": ["src/session_openssl.c: nc_base64_decode_wrap, nc_base64_encode_wrap"]}
{"id": "C192", "title": "Failures of TLS are logged with all their reasons", "statement": "For any queue of OpenSSL errors the text logged has all reasons in order, separated by \"; \", and building it is safe.", "quantifier": "all queues of errors and failures of memory allocation", "why_tests_cant": "queues of errors cannot be made at will", "anchors": ["src/session_openssl.c: nc_tls_get_err_reasons, nc_tls_read_wrap"]}
{"id": "C193", "title": "Log messages are complete", "statement": "A message of a wanted level is given whole to the callback or written on one line with level and session, exactly once, whatever its length; others are not output, and when something fails it is output whole or not at all.", "quantifier": "all messages, levels, sessions and failures of memory allocation", "why_tests_cant": "unbounded lengths; failures cannot be made at will", "anchors": ["src/log.c: prv_vprintf, nc_verbosity, nc_set_print_clb_session"]}
{"id": "C194", "title": "Algorithms listed as supported can be configured", "statement": "The operational lists of SSH algorithms have every supported algorithm once with its module or are not given at all, and configuring a listed algorithm gives libssh the SSH name of that algorithm.", "quantifier": "all kinds of algorithms, listed algorithms and failures of libyang and memory allocation", "why_tests_cant": "failures cannot be made at will; names are only checked by libssh when a client connects", "anchors": ["src/server_config.c: nc_server_config_oper_get_algs, nc_server_config_oper_get_encryption_algs, nc_server_config_transport_params"]}
{"id": "C195", "title": "Contexts for servers are complete", "statement": "After nc_server_init_ctx() succeeds, ietf-netconf with all features and ietf-netconf-monitoring are implemented and nothing else changed; a ready context is not changed; after a failure no context is left behind and a given one lost nothing.", "quantifier": "all contexts and failures of libyang", "why_tests_cant": "arbitrary contexts and failures", "anchors": ["src/session_server.c: nc_server_init_ctx"]}
{"id": "C196", "title": "Opening a channel and the TLS handshake keep their limits", "statement": "A client opening its SSH channel, or a peer making the TLS handshake, gives up when the limit passes and not earlier, succeeds exactly when the peer answered each step in time, waits forever without a limit, and has a channel exactly after success.", "quantifier": "all limits and all sequences of answers of the peer and their times", "why_tests_cant": "unbounded waiting and arbitrary times of answers", "anchors": ["src/session_client_ssh.c: open_netconf_channel", "src/session_client_tls.c: nc_client_tls_session_new", "src/session_server_tls.c: nc_accept_tls_session"]}
{"id": "C197", "title": "A server does not wait for an idle SSH client longer than the transport timeout", "statement": "A client has the transport timeout for the key exchange, the configured time to authenticate and the transport timeout to open the channel; a session is accepted exactly when all were done in that order in time.", "quantifier": "all timeouts, sequences of messages of the client and their times", "why_tests_cant": "waiting for hours; arbitrary times of messages", "anchors": ["src/session_server_ssh.c: nc_accept_ssh_session, nc_accept_ssh_session_auth, nc_accept_ssh_session_open_netconf_channel"]}
{"id": "C198", "title": "Numbers printed into fixed arrays fit", "statement": "Every number the library prints into an array of fixed size (RPC numbers, session-id of errors, ports, periods, user ids, content identifier, chunk headers) stays in its array and reads back as the number.", "quantifier": "all values of the types of the numbers", "why_tests_cant": "one character too many is silent without instrumentation; all 32-bit values", "anchors": ["src/io.c: nc_write_starttag_and_msg", "src/messages_server.c: nc_err_set_sid", "src/session_client.c: nc_send_rpc, nc_sock_connect", "src/server_config_util.c: nc_server_config_add_address_port, nc_server_config_add_ch_period, nc_server_config_add_ch_idle_timeout, nc_server_config_add_ch_reconnect_strategy", "src/session_server_ssh.c: nc_server_ssh_uid_to_str", "src/session.c: nc_server_get_cpblts_version"]}
{"id": "C199", "title": "Texts of failures and of the YANG library capability stay in their arrays", "statement": "Describing why polling a session failed, and building the capability of the YANG library, never writes past the array used.", "quantifier": "all texts of libssh, of the C library and of the application", "why_tests_cant": "long texts of libssh come from a hostile peer", "anchors": ["src/session_server.c: nc_ps_poll_session_io, nc_ps_poll_sess", "src/session.c: nc_server_get_cpblts_version"]}
{"id": "C200", "title": "Reading over TLS means the same with both libraries", "statement": "Whatever happens to a TLS connection, reading gives the data, tells that there is nothing yet, or ends the session with the right reason (dropped after an orderly close, other for failures), with OpenSSL and with Mbed TLS; a result of -1 comes exactly with the end of the session.", "quantifier": "all return values of the libraries and all causes", "why_tests_cant": "failures of connections cannot be produced at will, and one build has one library", "anchors": ["src/session_openssl.c: nc_tls_read_wrap, nc_tls_write_wrap", "src/session_mbedtls.c: nc_tls_read_wrap, nc_tls_write_wrap"]}
{"id": "C201", "title": "A TLS handshake is finished only if the library says so", "statement": "A step of the handshake reports success exactly if the TLS library finished it, waiting only if the library has to wait, and anything else as a failure, on both sides and with both libraries.", "quantifier": "all return values of the libraries", "why_tests_cant": "failing handshakes cannot be enumerated", "anchors": ["src/session_openssl.c: nc_server_tls_handshake_step_wrap, nc_client_tls_handshake_step_wrap", "src/session_mbedtls.c: nc_server_tls_handshake_step_wrap, nc_client_tls_handshake_step_wrap"]}
{"id": "C202", "title": "Freeing a TLS session does not hang", "statement": "Telling the peer that the TLS connection is closed ends after finitely many attempts, whatever the peer and the connection do.", "quantifier": "all sequences of results of sending", "why_tests_cant": "a peer that does not read for ever", "anchors": ["src/session.c: nc_session_free_transport", "src/session_mbedtls.c: nc_tls_close_notify_wrap", "src/session_openssl.c: nc_tls_close_notify_wrap"]}
{"id": "C203", "title": "Names and keys of any length are converted whole with Mbed TLS", "statement": "Converting a distinguished name, key or point to text gives all of it, whatever its length, in a buffer that is large enough.", "quantifier": "all names, keys and points and failures of memory allocation", "why_tests_cant": "unbounded lengths", "anchors": ["src/session_mbedtls.c: nc_server_tls_dn2str, nc_tls_export_privkey_pem_wrap, nc_tls_export_pubkey_pem_wrap, nc_tls_ec_point_to_bin_wrap"]}
{"id": "C204", "title": "Mbed TLS converts keys to and from Base64 like OpenSSL", "statement": "With Mbed TLS, converting to and from Base64 never writes behind its buffers, gives the same text as OpenSSL, accepts only complete Base64 texts, and bytes converted to text and back are the same bytes.", "quantifier": "all texts and byte sequences", "why_tests_cant": "unbounded lengths; one build has one library", "anchors": ["src/session_mbedtls.c: nc_base64_decode_wrap, nc_base64_encode_wrap"]}
{"id": "C205", "title": "A client and a server understand each other", "statement": "Whatever RPCs an application sends and whenever, and however the connection splits and delays messages, as long as the connection works every RPC reaches its callback exactly once and in order, its reply arrives once, in order, with its message-id and the content the callback gave, notifications arrive whole and in order, replies and notifications do not get mixed up, nothing is lost, and the session ends only if a callback ends it. At every moment everything sent so far can still be received.", "quantifier": "all sequences of sending, polling, notifying and receiving, both versions of NETCONF, all short reads and writes, all callbacks", "why_tests_cant": "tests run a few exchanges with one interleaving; the statement is about all orders, all splits of messages and any number of RPCs", "anchors": ["src/session_client.c: nc_send_rpc, nc_recv_reply, nc_recv_notif, recv_msg, recv_reply, get_msg_type", "src/session_server.c: nc_ps_poll, nc_server_recv_rpc_io, nc_server_send_reply_io, nc_server_notif_send", "src/io.c: nc_read_msg_io, nc_write_msg_io"]}
{"id": "C206", "title": "Objects of Mbed TLS are neither leaked nor freed twice", "statement": "Whatever allocations and library calls fail, creating certificates, public keys, TLS sessions, configurations and CRL stores with Mbed TLS touches no memory that is not allocated and initialised, and exactly what is returned is allocated afterwards; destroying it gives everything back.", "quantifier": "all results of allocations and of library calls", "why_tests_cant": "tests cannot make single allocations fail, and leaks are not visible to them", "anchors": ["src/session_mbedtls.c: nc_tls_session_new_wrap, nc_tls_config_new_wrap, nc_tls_cert_new_wrap, nc_tls_pem_to_cert_wrap, nc_tls_import_cert_file_wrap, nc_tls_import_pubkey_file_wrap, nc_tls_is_der_subpubkey_wrap"]}
{"id": "C207", "title": "Private keys are loaded safely when memory runs out", "statement": "Whatever allocations and library calls fail, loading a private key with Mbed TLS touches no memory that is not allocated and initialised, and exactly the returned key (and certificate) is allocated afterwards.", "quantifier": "all results of allocations and of library calls", "why_tests_cant": "tests cannot make single allocations fail", "anchors": ["src/session_mbedtls.c: nc_tls_rng_new, nc_tls_rng_destroy, nc_tls_pem_to_privkey_wrap, nc_tls_import_privkey_file_wrap, nc_client_tls_load_cert_key_wrap"]}
{"id": "C208", "title": "Public key parameters are exported safely when memory runs out", "statement": "Whatever allocations and library calls fail, creating the SSH public key of a private key with Mbed TLS touches no memory that is not allocated and initialised, and only what is returned stays allocated.", "quantifier": "all results of allocations and of library calls", "why_tests_cant": "tests cannot make single allocations fail", "anchors": ["src/session_mbedtls.c: nc_tls_get_rsa_pubkey_params_wrap, nc_tls_get_ec_pubkey_params_wrap", "src/server_config_util.c: nc_server_config_util_pkey_to_ssh_pubkey"]}
{"id": "C209", "title": "Verifying the chain of a client leaves nothing behind", "statement": "With Mbed TLS, the copy of the client's certificate chain is freed exactly once in each handshake, whatever chain the client sends and whatever fails; only the certificate of the session stays allocated, and it is there when the client was verified.", "quantifier": "all chains, verification results and results of allocations", "why_tests_cant": "tests use a few chains, leaks and double frees are not visible to them", "anchors": ["src/session_mbedtls.c: nc_server_tls_verify_cb, nc_server_tls_append_cert_to_chain, nc_tls_cert_dup, nc_tls_get_verify_err_str"]}
{"id": "C210", "title": "The format of public keys is enforced when memory runs out", "statement": "A public key configured for an SSH host key or user is not in the SubjectPublicKeyInfo format, and that of a TLS server certificate is, whatever allocations fail while it is checked.", "quantifier": "all keys and all results of allocations", "why_tests_cant": "tests cannot make single allocations fail", "anchors": ["src/session.c: nc_is_pk_subject_public_key_info", "src/session_mbedtls.c: nc_tls_is_der_subpubkey_wrap", "src/session_openssl.c: nc_tls_is_der_subpubkey_wrap", "src/server_config.c: nc_server_config_public_key"]}
{"id": "C211", "title": "Keys of system users are the same on every system", "statement": "On a system without getline, an authorized keys file gives the same keys, or is refused, exactly as on a system that has it.", "quantifier": "all contents of the file", "why_tests_cant": "the replacement is never compiled where the tests run", "anchors": ["compat/compat.c: getline", "src/session_server_ssh.c: nc_server_ssh_read_authorized_keys_file"]}
{"id": "C212", "title": "Key files can be read on every system", "statement": "On a system without getline, a private or public key file gives the same key, or is refused, exactly as on a system that has it.", "quantifier": "all contents of the files, all results of the libraries", "why_tests_cant": "the replacement is never compiled where the tests run", "anchors": ["compat/compat.c: getline", "src/server_config_util.c: nc_server_config_util_get_privkey, nc_server_config_util_get_ssh_pubkey_file, nc_server_config_util_read_ssh2_pubkey"]}
{"id": "C213", "title": "Copies of parts of texts stay within them", "statement": "The replacement of strndup reads nothing behind the given length or the end of the string; the copy is terminated and is the text up to whichever comes first.", "quantifier": "all memory contents and lengths, with and without memory left", "why_tests_cant": "the replacement is never compiled where the tests run", "anchors": ["compat/compat.c: strndup"]}
{"id": "C214", "title": "Concurrent password checks do not mix", "statement": "On a system without crypt_r, a password is accepted exactly if its hash is the stored one, however the checks of several clients overlap.", "quantifier": "all hash functions, passwords and schedules of any number of threads", "why_tests_cant": "a race of two threads that a test cannot force, in a replacement that is not compiled where the tests run", "anchors": ["compat/compat.c: crypt_r", "src/session_server_ssh.c: nc_server_ssh_compare_password"]}
{"id": "C215", "title": "Reading certificate times leaves the time zone alone", "statement": "On a system without timegm, times of certificates are converted for UTC whatever the time zone of the process, and no thread ever sees another time zone.", "quantifier": "all times and time zones", "why_tests_cant": "what other threads see during the call, in a replacement that is not compiled where the tests run", "anchors": ["compat/compat.c: timegm", "src/session_openssl.c: nc_tls_get_cert_expiration_time_wrap"]}
{"id": "C216", "title": "Timed locks are exact and end", "statement": "The replacement of pthread_mutex_timedlock locks exactly if the lock is found free in time, gives up only when the time has passed, never sleeps beyond that, and ends after a bounded number of polls.", "quantifier": "all deadlines and all sequences of results of trylock and clock readings", "why_tests_cant": "depends on other threads and the clock, in a replacement that is not compiled where the tests run", "anchors": ["compat/compat.c: pthread_mutex_timedlock"]}
{"id": "C217", "title": "Timed waits use the clock of their deadline", "statement": "Whatever of the functions the system has, timed waits for mutexes and condition variables end when the time has passed on the clock of the library.", "quantifier": "all combinations of available functions, all lengths, all progress of both clocks", "why_tests_cant": "one build has one combination of functions only", "anchors": ["compat/compat.c: pthread_mutex_clocklock, pthread_cond_clockwait", "CMakeModules/UseCompat.cmake", "src/session.c: nc_timeouttime_get, nc_session_rpc_lock"]}
{"id": "C218", "title": "Only configured users log in over SSH", "statement": "Whatever configuration data and diffs have been applied, a client is authenticated over SSH only as a user of the configuration in force, of the endpoint or one it refers to, and only after valid requests of that user, as many as methods are configured for them; a user removed by a diff never gets in.", "quantifier": "all data, all sequences of diffs, all chains of endpoints, all truststores, all sequences of client messages", "why_tests_cant": "couples the whole history of the configuration with everything a client can send", "anchors": ["src/server_config.c: nc_server_config_parse_tree, nc_server_config_del_auth_client", "src/session_server_ssh.c: nc_server_ssh_auth, nc_session_ssh_msg"]}
{"id": "C219", "title": "Every configured user can log in over SSH", "statement": "Whatever configuration data and diffs have been applied, a client that sends a valid request for each method configured for a user, possibly with invalid ones and other messages in between, is authenticated as this user.", "quantifier": "all data, all sequences of diffs, all chains of endpoints, all truststores, all users, all sequences of client messages", "why_tests_cant": "couples the whole history of the configuration with everything a client can send", "anchors": ["src/server_config.c: nc_server_config_parse_tree", "src/session_server_ssh.c: nc_session_ssh_msg, nc_server_ssh_ts_ref_get_keys"]}
{"id": "C220", "title": "Only configured clients log in over TLS", "statement": "Whatever configuration data and diffs have been applied, a client is accepted over TLS only if its chain leads to a configured authority or its certificate is a configured one, of the endpoint or the one it refers to, and only under the user name that the configured cert-to-name entries give for the chain, if the application agrees; without configured certificates nobody is accepted.", "quantifier": "all data, all sequences of diffs, all pairs of endpoints, all truststores, all certificate chains and reports of the TLS library", "why_tests_cant": "couples the whole history of the configuration with all chains a client can present", "anchors": ["src/server_config.c: nc_server_config_parse_tree, nc_server_config_create_cert_to_name", "src/session_server_tls.c: nc_accept_tls_session, nc_server_tls_load_trusted_certs, nc_server_tls_verify_cert"]}
{"id": "C221", "title": "Every configured client can log in over TLS", "statement": "Whatever configuration data and diffs have been applied, a client whose chain is verified with the configured authorities, or that has a configured certificate whose issuer is not known, is accepted under the user name that the configured cert-to-name entries give.", "quantifier": "all data, all sequences of diffs, all pairs of endpoints, all truststores, all certificate chains and reports of the TLS library", "why_tests_cant": "couples the whole history of the configuration with all chains a client can present", "anchors": ["src/server_config.c: nc_server_config_parse_tree", "src/session_server_tls.c: nc_accept_tls_session, nc_server_tls_verify_peer_cert"]}
{"id": "C222", "title": "Threads deal with the requests of a session one at a time", "statement": "However many threads poll a session and send notifications, at most one of them is busy with a message of the client; messages are read, callbacks are called and replies are sent in the order of arrival, each valid request leads to one call of its own callback, and each reply carries the attributes of its request and what that callback gave. No thread ever gets stuck: all of them can finish what they do.", "quantifier": "all sequences of messages, all interleavings of any number of threads, all outcomes of the transport and of callbacks", "why_tests_cant": "races between threads depend on the scheduling, of which tests see few", "anchors": ["src/session_server.c: nc_ps_poll, nc_ps_poll_sess, nc_ps_poll_session_io, nc_server_recv_rpc_io, nc_server_send_reply_io, nc_server_notif_send", "src/io.c: nc_write_msg_io, nc_read_msg_io"]}
{"id": "C223", "title": "Messages sent by different threads are not mixed", "statement": "However many threads send replies and notifications on a session, the client receives whole messages one after the other and behind them at most the beginning of one more.", "quantifier": "all messages, all interleavings of any number of threads, all ways the transport accepts data", "why_tests_cant": "races between threads and partial writes depend on the scheduling and on the network", "anchors": ["src/io.c: nc_write_msg_io, nc_write", "src/session_server.c: nc_server_notif_send, nc_server_send_reply_io"]}
{"id": "C224", "title": "Every request is answered, whichever thread gets it", "statement": "A session that runs and on which no thread works has answered every message it read, in order, each with the attributes of the request and what its own callback gave, however many threads polled it or sent notifications. From every moment on, all messages can be read and answered, and the session does not end by itself.", "quantifier": "all sequences of messages, all interleavings of any number of threads, all outcomes of the transport and of callbacks", "why_tests_cant": "races between threads depend on the scheduling, of which tests see few", "anchors": ["src/session_server.c: nc_ps_poll, nc_server_recv_rpc_io, nc_server_send_reply_io", "src/io.c: nc_write_msg_io"]}
{"id": "C225", "title": "TLS clients are shown the configured certificate", "statement": "Whatever data and diffs of the keystore and of an endpoint have been applied, a TLS client is shown exactly the certificate and private key that the configuration has at that time, its own or those of the keystore it refers to, and is refused if there are none that can be read; changes of the keystore are followed without touching the endpoint.", "quantifier": "all data and all sequences of diffs of the keystore and of an endpoint, all meanings of the Base64 texts", "why_tests_cant": "couples the whole history of two parts of the configuration with what every later connection uses", "anchors": ["src/server_config.c: nc_server_config_parse_tree", "src/session_server_tls.c: nc_server_tls_load_server_cert_key, nc_server_tls_ks_ref_get_cert_key"]}
{"id": "C226", "title": "SSH clients are shown the configured host keys", "statement": "Whatever data and diffs of the keystore and of an endpoint have been applied, an SSH client is shown configured host keys only, its own or those of the keystore it refers to; every configured one is shown that is the only one of its type; clients are refused exactly if a host key cannot be used or a temporary file cannot be written.", "quantifier": "all data and all sequences of diffs of the keystore and of an endpoint, all meanings of the Base64 texts, all failures of file operations", "why_tests_cant": "couples the whole history of two parts of the configuration with what every later connection uses", "anchors": ["src/server_config.c: nc_server_config_parse_tree", "src/session_server_ssh.c: nc_ssh_bind_add_hostkeys, nc_server_ssh_ks_ref_get_key"]}
{"id": "C227", "title": "Configuration functions store the values they are given", "statement": "Every nc_server_config_add_* function succeeds if there is a configuration and its values are valid, whatever is configured already; when it succeeded, each value is in the leaf of the YANG modules meant for it, replacing an older one, and no other leaf got a value. A value that may be left out leaves its leaf alone; without one that may not the function fails.", "quantifier": "all 43 functions, all configurations, all names without apostrophes, all values", "why_tests_cant": "tests call a few of the functions on one configuration each and look at a few leaves", "anchors": ["src/server_config_util.c: nc_server_config_create, nc_server_config_append, nc_server_config_check_delete, nc_server_config_add_address_port, nc_server_config_add_ch_period", "src/server_config_util_ssh.c: nc_server_config_add_ssh_hostkey, nc_server_config_add_ssh_user_pubkey", "src/server_config_util_tls.c: nc_server_config_add_tls_server_cert, nc_server_config_add_tls_ctn"]}
{"id": "C228", "title": "Notification objects own exactly what they were given", "statement": "An object made by nc_server_notif_new is sent with the time and the event it was made of, even after the caller freed them if copies were asked for; nc_server_notif_free frees exactly the copies, or the given event and time, or nothing, as asked; a call that fails allocates nothing.", "quantifier": "all event trees, all times, all parameter treatments, every failure of an allocation, everything the caller does with its own memory later", "why_tests_cant": "tests create one object per treatment and do not make allocations fail", "anchors": ["src/messages_server.c: nc_server_notif_new, nc_server_notif_free", "src/session_server.c: nc_server_notif_send", "src/io.c: nc_write_msg_io"]}
{"id": "C229", "title": "Notifications are sent only to subscribers, with their time", "statement": "nc_server_notif_send writes only to server sessions that count as having a subscription; what the client reads is a notification whose eventTime is the time of the object, followed by its event.", "quantifier": "all sessions, all objects, all times", "why_tests_cant": "tests send notifications with well-formed times to subscribed sessions", "anchors": ["src/session_server.c: nc_server_notif_send, nc_session_get_notif_status", "src/io.c: nc_write_msg_io"]}
{"id": "C230", "title": "A notification thread calls its callback with every notification, in order", "statement": "A thread made by nc_recv_notif_dispatch calls the callback with every notification the client can parse, those buffered before it started first, in the order of their arrival and each once, whenever other threads receive replies; it ends with notificationComplete or when the session is broken, and not before.", "quantifier": "all sequences of messages and silence, all notifications buffered before, all interleavings with threads receiving replies", "why_tests_cant": "tests send few notifications and no replies meanwhile", "anchors": ["src/session_client.c: nc_recv_notif_dispatch, nc_recv_notif_dispatch_data, nc_recv_notif_thread, nc_recv_notif, recv_notif"]}
{"id": "C231", "title": "No notification thread uses a freed session", "statement": "However many notification threads a session has and whatever they do when nc_session_free is called, none of them uses the session after it is freed, and nc_session_free does not wait for ever for them.", "quantifier": "all numbers of dispatch calls and threads, all interleavings of their steps with nc_session_free", "why_tests_cant": "depends on the interleaving of threads", "anchors": ["src/session_client.c: nc_recv_notif_dispatch_data, nc_recv_notif_thread", "src/session.c: nc_session_free"]}
{"id": "C232", "title": "The data of a notification callback are freed once and not used later", "statement": "The data given to nc_recv_notif_dispatch_data are freed exactly once if it succeeded, after the last call of the callback, and not at all if it failed; they are freed by the time nc_session_free returns.", "quantifier": "all numbers of dispatch calls and threads, all interleavings of their steps with nc_session_free", "why_tests_cant": "depends on the interleaving of threads", "anchors": ["src/session_client.c: nc_recv_notif_dispatch_data, nc_recv_notif_thread", "src/session.c: nc_session_free"]}
{"id": "C233", "title": "A TLS client talks only to the server it asked for", "statement": "A session made by nc_connect_tls is with a peer that owns the private key of the certificate it has shown; that certificate is for the host asked for (localhost if none) and comes, over certificates in their period, from one in the files set with nc_client_tls_set_trusted_ca_paths. The same holds for Call Home with a bind made by nc_client_tls_ch_add_bind_hostname_listen with a name.", "quantifier": "all certificates, files, hosts, peers, both TLS libraries", "why_tests_cant": "tests connect to one server with one chain", "anchors": ["src/session_client_tls.c: nc_connect_tls, nc_client_tls_session_new, nc_client_tls_connect_check, nc_accept_callhome_tls_sock", "src/session_openssl.c: nc_client_tls_load_trusted_certs_wrap, nc_client_tls_set_hostname_wrap", "src/session_mbedtls.c: nc_client_tls_load_trusted_certs_wrap, nc_client_tls_set_hostname_wrap"]}
{"id": "C234", "title": "A TLS client accepts every proper server", "statement": "If the files of the client are in order, a server that owns the key of its certificate, which is for the host or address asked for and has a chain to a configured certificate, is accepted.", "quantifier": "all certificates, files, hosts, peers, revocation lists, both TLS libraries", "why_tests_cant": "tests connect to one server with one chain", "anchors": ["src/session_client_tls.c: nc_connect_tls, nc_client_tls_session_new", "src/session_openssl.c: nc_client_tls_load_cert_key_wrap, nc_tls_setup_config_from_ctx_wrap", "src/session_mbedtls.c: nc_client_tls_load_cert_key_wrap, nc_tls_setup_config_from_ctx_wrap"]}
{"id": "C235", "title": "A TLS client refuses revoked servers", "statement": "A client never gets a session with a server whose certificate is revoked by a list that can be fetched from a distribution point named by a configured authority or by the certificate itself.", "quantifier": "all certificates, lists, failures of downloads, peers, both TLS libraries", "why_tests_cant": "tests have no revocation lists for the client", "anchors": ["src/session_client_tls.c: nc_client_tls_session_new", "src/session.c: nc_session_tls_crl_from_cert_ext_fetch", "src/session_openssl.c: nc_tls_setup_config_from_ctx_wrap", "src/session_mbedtls.c: nc_tls_setup_config_from_ctx_wrap"]}
{"id": "C236", "title": "A TLS client shows the certificate of its file and uses the key it was given", "statement": "The certificate of a session is the first in the file set with nc_client_tls_set_cert_key_paths; the key is the first of the key file, or of the certificate file if no key file was set.", "quantifier": "all files with certificates and keys in any order, both TLS libraries", "why_tests_cant": "tests have one certificate per file and always set a key file", "anchors": ["src/session_openssl.c: nc_client_tls_load_cert_key_wrap", "src/session_mbedtls.c: nc_client_tls_load_cert_key_wrap", "src/session_client_tls.c: nc_client_tls_session_new"]}
{"id": "C237", "title": "Client and server agree on whether an SSH authentication succeeded", "statement": "A client of the library connecting to a server of the library over SSH reports success exactly if the server has authenticated it, as the user name set on the client; otherwise it reports failure and the session on the server is not authenticated.", "quantifier": "all configured users and their methods, system users, credentials, key files, preferences of the client, host key modes", "why_tests_cant": "tests use a few fixed users, each with one method; agreement is about every combination of what both sides have", "anchors": ["src/session_client_ssh.c: connect_ssh_session", "src/session_server_ssh.c: nc_server_ssh_auth, nc_session_ssh_msg, nc_server_ssh_auth_pubkey"]}
{"id": "C238", "title": "A user with the right credentials gets in over SSH", "statement": "A client of the library with a right credential for every method configured for its user on the server (password, one of several key pairs, answers, none), none of these methods being disabled, is authenticated, in whatever order it prefers the methods; for users of the system one right credential is enough.", "quantifier": "all combinations of configured methods and preferences, any number of key pairs some of which do not work, all places of keys and passwords", "why_tests_cant": "tests try a few combinations with one preferred method", "anchors": ["src/session_client_ssh.c: connect_ssh_session, nc_client_ssh_set_auth_pref", "src/session_server_ssh.c: nc_server_ssh_auth, nc_server_ssh_auth_password, nc_server_ssh_auth_pubkey, nc_server_ssh_auth_kbdint, nc_server_ssh_auth_none"]}
{"id": "C239", "title": "A session tells where its peer is", "statement": "nc_session_get_host and nc_session_get_port of an SSH or TLS session give the IP address and port at the other end of its connection, whether a server accepted it, a client made it, the server called home or the client was called home, and for further sessions of an SSH session; different peers can be told apart; nc_session_get_path gives the path of a UNIX socket.", "quantifier": "all addresses of both families, ports, names and their addresses, orders of addresses, chains of further SSH sessions", "why_tests_cant": "tests do not look at host, port and path; the claim is about every address and every way to a session", "anchors": ["src/session.c: nc_session_get_host, nc_session_get_port, nc_session_get_path", "src/session_server.c: sock_host_inet, sock_host_inet6, sock_host_unix, nc_sock_accept_binds, nc_accept, nc_connect_ch_endpt", "src/session_client.c: nc_saddr2str, nc_sock_connect, nc_connect_unix, nc_accept_callhome", "src/session_client_ssh.c: nc_connect_ssh, nc_connect_ssh_channel, nc_accept_callhome_ssh_sock", "src/session_client_tls.c: nc_connect_tls, nc_accept_callhome_tls_sock"]}
{"id": "C240", "title": "Listening is at exactly the address and port given", "statement": "A listening socket of a server endpoint or a Call Home bind of a client is bound to the IP address written in its address and to its port, in network byte order, with address reuse; every IP address can be listened at if the system allows it; a client given the same address and port connects to that socket; a failed attempt leaves no socket.", "quantifier": "all texts, addresses of both families, ports, answers of the operating system, sets of open sockets", "why_tests_cant": "tests listen at 127.0.0.1 and ::1 and never see calls of the system fail", "anchors": ["src/session_server.c: nc_sock_bind_inet, nc_sock_listen_inet", "src/session_client.c: nc_client_ch_add_bind_listen, nc_sock_connect"]}
{"id": "C241", "title": "Call Home connections come from the configured local address and port", "statement": "If a local address or a local port is configured for a Call Home endpoint, its connections come from that address (any address of the family if only the port is configured) and that port; otherwise the system chooses; a failed attempt leaves no socket.", "quantifier": "all local addresses and ports, peers of both families, answers of the operating system", "why_tests_cant": "tests configure no local address", "anchors": ["src/session_client.c: sock_connect, nc_sock_connect", "src/session_server.c: nc_sock_bind_inet, nc_connect_ch_endpt"]}
{"id": "C242", "title": "Client and server of the library know each other over TLS", "statement": "If nc_connect_tls of the client or nc_accept of the server, or with Call Home nc_accept_callhome or the thread of the server, gives a session, then the server has shown the certificate of its current configuration and has its configured key, this certificate was issued for the name asked for by an authority in the files of the client, the client owns the key of the certificate in its file, and the session of the server has this certificate and the user name that the current configuration gives for it. After the TLS handshake both sides have a session or none has. The server uses no memory that is not there.", "quantifier": "all configurations of keystore, truststore and both endpoints, all sequences of changes, files of the client, certificates, host names, TLS versions and pairs of TLS libraries", "why_tests_cant": "tests connect one client with fixed files to one fixed server; that no combination of files, configuration and changes lets a stranger in on either side cannot be tried", "anchors": ["src/session_client_tls.c: nc_client_tls_session_new, nc_connect_tls, nc_accept_callhome_tls_sock", "src/session_server_tls.c: nc_accept_tls_session, nc_server_tls_load_server_cert_key, nc_server_tls_load_trusted_certs, nc_server_tls_verify_cert", "src/session_server.c: nc_accept, nc_connect_ch_endpt"]}
{"id": "C243", "title": "A client and a server set up for each other over TLS make a session", "statement": "If the files of the client have its certificate, its key and an authority of the configured certificate of the server, which is for the host, no revocation list is against it, and the configuration of the server gives a user name to the client's certificate, then nc_connect_tls and nc_accept give sessions, that of the server with this user name; so do both sides of Call Home.", "quantifier": "all configurations, sequences of changes, files, certificates, host names, TLS versions and pairs of TLS libraries", "why_tests_cant": "tests connect a few fixed clients to fixed servers", "anchors": ["src/session_client_tls.c: nc_client_tls_session_new, nc_connect_tls, nc_accept_callhome_tls_sock", "src/session_server_tls.c: nc_accept_tls_session, nc_server_tls_load_server_cert_key, nc_server_tls_load_trusted_certs, nc_server_tls_verify_cert", "src/session_server.c: nc_accept, nc_connect_ch_endpt"]}
{"id": "C244", "title": "The server listens where the configuration functions were told", "statement": "After any calls of nc_server_config_add_address_port and nc_server_config_del_endpt that succeed, a server that nc_server_config_setup_data is called for with the resulting data listens for every endpoint with the transport, address and port of the last call for it and nowhere else, whatever it was configured to before. The calls succeed if libyang takes the names and values and only endpoints are removed that are there.", "quantifier": "all sequences of calls, names, addresses, ports and transports; all earlier configurations of the server", "why_tests_cant": "tests make one endpoint or two with fixed names and set up one server; sequences of additions, changes and removals on top of an earlier configuration are not tried", "anchors": ["src/server_config_util.c: nc_server_config_add_address_port, nc_server_config_del_endpt, nc_server_config_create, nc_server_config_delete", "src/server_config.c: nc_server_config_setup_data, nc_server_config_local_address, nc_server_config_local_port", "src/session_server.c: nc_server_set_address_port"]}
{"id": "C245", "title": "The SSH users configured by functions, and only they, log in", "statement": "After any calls of the functions that add public keys, keys of the system, truststore references, passwords and keyboard-interactive authentication to users of an SSH endpoint, and of those that delete them or the user, that succeed, a server set up with the data authenticates exactly the users that were called for and not deleted: nobody gets in without valid requests for as many methods as the user has at that time, with the keys and the password of the last calls, and a user that proves all methods gets in. A call after them succeeds if and only if what it deletes is there, given that libyang takes the names and values.", "quantifier": "all sequences of calls, all names, keys, hashes and all sequences of requests of a client; all truststores", "why_tests_cant": "tests configure a fixed user once and log in with the right credentials; changes and removals in all orders followed by all kinds of attempts to log in are not tried", "anchors": ["src/server_config_util_ssh.c: nc_server_config_add_ssh_user_pubkey, nc_server_config_add_ssh_user_authkey, nc_server_config_add_ssh_truststore_ref, nc_server_config_add_ssh_user_password, nc_server_config_add_ssh_user_interactive, nc_server_config_del_ssh_user", "src/server_config.c: nc_server_config_user, nc_server_config_public_key, nc_server_config_truststore_reference, nc_server_config_password", "src/session_server_ssh.c: nc_server_ssh_auth"]}
{"id": "C246", "title": "The TLS clients configured by functions, and only they, log in", "statement": "After any calls of the functions that add identities, certificates of authorities and of clients, truststore references, cert-to-name entries and references to other endpoints to TLS endpoints, and of those that delete them, that succeed, a server set up with the data has exactly the endpoints called for and not deleted, each presents the identity given last, and accepts a client only if its chain leads to an authority, or its certificate is one, given by the calls that count at that time for the endpoint or the one it refers to; the user name is that of the first of the given entries that gives one, and such clients get in. A call after them succeeds if and only if what it deletes is there and the number and map type of an entry are valid, given that libyang takes the names and values.", "quantifier": "all sequences of calls, all names, certificates and entries, all truststores, all chains and reports of the TLS library", "why_tests_cant": "tests configure a fixed endpoint once and connect with a fixed certificate; changes, removals and references in all orders followed by clients with all kinds of chains are not tried", "anchors": ["src/server_config_util_tls.c: nc_server_config_add_tls_server_cert, nc_server_config_add_tls_keystore_ref, nc_server_config_add_tls_client_cert, nc_server_config_add_tls_ca_cert, nc_server_config_add_tls_ca_cert_truststore_ref, nc_server_config_add_tls_ctn, nc_server_config_add_tls_endpoint_client_ref", "src/server_config.c: nc_server_config_certificate, nc_server_config_cert_to_name, nc_server_config_endpoint_reference", "src/session_server_tls.c: nc_accept_tls_session, nc_server_tls_verify_cert"]}
{"id": "C247", "title": "The keystore and the truststore configured by functions serve the endpoints that refer to them", "statement": "After any calls of the functions that add keys and their certificates to the keystore and certificates and public keys to bags of the truststore, and of those that delete them, between any calls of the functions for TLS endpoints or SSH users, that succeed, the stores of a server set up with the data hold exactly what the calls say. Clients of a TLS endpoint are shown exactly the key and certificate that the keystore has under the names given for the endpoint, whatever the order of the calls; authorities, certificates and public keys of the bags that endpoints and users refer to decide about logins as those given directly. A function for the stores succeeds if and only if one for an endpoint was called before and what it deletes is there, given that libyang takes the names and values; with no data before it always fails, though the documentation says that the data are created.", "quantifier": "all sequences of calls, all names, keys and certificates, all stores before, all chains and reports of the TLS library, all SSH requests", "why_tests_cant": "tests fill the stores once with fixed entries; orders in which references come before or after entries, replacements and removals, each followed by clients of all kinds, are not tried", "anchors": ["src/server_config_util.c: nc_server_config_add_keystore_asym_key, nc_server_config_add_keystore_cert, nc_server_config_add_truststore_pubkey, nc_server_config_add_truststore_cert, nc_server_config_create", "src/server_config_ks.c: nc_server_config_ks_asymmetric_key, nc_server_config_fill_keystore", "src/server_config_ts.c: nc_server_config_ts_certificate_bag, nc_server_config_fill_truststore", "src/session_server_tls.c: nc_server_tls_ks_ref_get_cert_key"]}
{"id": "C248", "title": "An SSH endpoint configured by functions shows the host keys and knows the users that the calls say", "statement": "After any calls of the functions that add and delete host keys of an SSH endpoint (with their keys, or as references to the keystore), users of it with their methods, and entries of the stores, in any order, that succeed, a server can be set up with the data. SSH clients are shown only host keys that the calls say: the keys given last under that name, or those that the keystore has after all calls under the name given last; for each host key one of its type is shown, itself if no other has its type; clients are accepted if all can be used. Users log in exactly as the calls say. A function succeeds if and only if what it deletes is there, given that libyang takes the names and values.", "quantifier": "all sequences of calls, all names and keys, all stores before, all requests of clients", "why_tests_cant": "tests configure one or two host keys once; replacing keys by references and back, keys of the keystore given later, and removals, between calls for users and stores, followed by clients, are not tried", "anchors": ["src/server_config_util_ssh.c: _nc_server_config_add_ssh_hostkey, nc_server_config_add_ssh_hostkey, nc_server_config_del_ssh_hostkey, nc_server_config_add_ssh_keystore_ref, nc_server_config_del_ssh_keystore_ref", "src/server_config.c: nc_server_config_host_key, nc_server_config_keystore_reference", "src/session_server_ssh.c: nc_ssh_bind_add_hostkeys"]}
{"id": "C249", "title": "The server calls the clients that the functions for Call Home were told, at their endpoints in order and at the times given", "statement": "After any calls of the functions that add and delete addresses of Call Home clients, endpoints, clients, connection types with period, anchor time and idle timeout, and reconnect strategies, in any order, that succeed, a server can be set up with the data, whatever was configured before. For every client that the calls leave it has exactly one client, with the endpoints in the order in which they were first given, each with the transport, address and port given last, to be connected to persistently or periodically as the last calls say (what is not given has the default), and tried as the strategy says; it has no other clients. A function succeeds if what it deletes is there, given that libyang takes the names and values, except that one that says when to connect cannot be the first call.", "quantifier": "all sequences of calls, all names, addresses, ports and times, all configurations before", "why_tests_cant": "tests configure one client with one or two endpoints once; changes of the connection type back and forth, of addresses, and removals between additions for several clients are not tried", "anchors": ["src/server_config_util.c: nc_server_config_add_ch_address_port, nc_server_config_del_ch_client, nc_server_config_del_ch_endpt, nc_server_config_add_ch_persistent, nc_server_config_add_ch_period, nc_server_config_del_ch_period, nc_server_config_add_ch_anchor_time, nc_server_config_del_ch_anchor_time, nc_server_config_add_ch_idle_timeout, nc_server_config_del_ch_idle_timeout, nc_server_config_add_ch_reconnect_strategy, nc_server_config_del_ch_reconnect_strategy", "src/server_config.c: nc_server_config_setup_data, nc_server_config_netconf_client"]}
{"id": "C250", "title": "Connections of sessions are non-blocking, send without delay and have the keepalives configured", "statement": "A connection that the server accepts has the TCP keepalives of the endpoint at whose address it was accepted, as configured then, is non-blocking and sends without delay; if the operating system does not set these keepalives no session starts. The same holds for a connection of a Call Home endpoint, also if the configuration was changed while the connection was under way, and for connections of clients, which have fixed keepalives.", "quantifier": "all endpoints and configurations, all answers of the operating system, all sequences of attempts to connect, all threads of a client", "why_tests_cant": "tests connect over a local network, where no connection is pending for longer than an attempt, from the main thread, and look at no socket options", "anchors": ["src/session.c: nc_sock_configure_ka", "src/session_server.c: nc_sock_listen_inet, nc_sock_accept_binds, nc_accept, nc_connect_ch_endpt", "src/session_client.c: sock_connect, nc_sock_connect, nc_accept_callhome, nc_client_context_location"]}
{"id": "C251", "title": "Requests are given to the callback the application has set, the global one, or the default one, in this order", "statement": "Whatever callbacks the application sets for operations and globally, in whatever contexts and order, and whenever sessions are accepted: a request is given, once, to the callback set for its operation in the context of the session; if there is none to the global one; if there is none either, get-schema and close-session are dealt with by default and other operations are answered as not supported. Default callbacks are not used while a global callback is set.", "quantifier": "all sequences of settings, contexts made and sessions accepted", "why_tests_cant": "tests set callbacks once before the first session; changes while there are sessions in several contexts are not tried", "anchors": ["src/session_server.c: nc_server_init_cb_ctx, nc_set_global_rpc_clb, nc_server_send_reply_io, nc_accept, nc_accept_inout, nc_connect_ch_endpt", "src/session_server.h: nc_set_global_rpc_clb"]}
{"id": "C252", "title": "A Call Home thread gives back the contexts it acquired, after the sessions that use them are freed", "statement": "Whatever happens to the connections of a Call Home thread and whatever the callbacks answer: a context got from acquire_ctx_cb is given back with release_ctx_cb when the attempt fails or the session is refused, after the session is freed, and never otherwise by the library; every established session is given to new_session_cb once, sessions of failed attempts never; a session is freed by the library or is the application's, not both; a session is not touched after it was freed", "quantifier": "all sequences of attempts of a Call Home thread with all answers of the peer, the system, the configuration and the callbacks", "why_tests_cant": "tests use one connection that succeeds; failures at every place, refused sessions, and clients removed at a certain moment are not tried", "anchors": ["src/session_server.c: nc_connect_ch_endpt, nc_server_ch_client_thread_session_cond_wait, nc_ch_client_thread", "src/session_server_ch.h: nc_connect_ch_client_dispatch"]}
{"id": "C253", "title": "Call Home clients are called by one thread with the callbacks set for them, and by none after they are deleted", "statement": "Whatever callbacks the application sets, whichever clients are created and deleted, and whichever threads the application dispatches: a client created while callbacks are set gets a thread with these callbacks, whatever is set later; a client is called by one thread at most, and by none once it is deleted; nc_connect_ch_client_dispatch succeeds exactly if the client exists and a thread can be created, and changes nothing otherwise; deleting a client is defined", "quantifier": "all sequences of calls and of creations and deletions of clients, with all answers of pthread_create", "why_tests_cant": "tests set the callbacks once, create one client and delete it at the end; clients without thread, with two, or created again are not tried", "anchors": ["src/session_server.c: nc_server_ch_set_dispatch_data, nc_connect_ch_client_dispatch", "src/server_config.c: nc_server_config_netconf_client, nc_server_config_create_netconf_client, nc_server_config_ch_del_client, nc_server_config_destroy_ch_client", "src/session_server_ch.h: nc_server_ch_set_dispatch_data, nc_connect_ch_client_dispatch"]}
{"id": "C254", "title": "The thread for expiring certificates can be started and stopped again and again; there is one at most, and the data given for it are freed once", "statement": "Whatever starts and stops an application makes and whenever threads look at the flag or fail: the data of a start that succeeds are freed once, when its thread ends, those of a start that fails never; a start with a callback succeeds if memory and a thread can be had and none runs; there is one thread at most; after a stop the thread ends, before the return of the stop if it waits; nothing undefined happens", "quantifier": "all sequences of nc_server_notif_cert_expiration_thread_start and _stop, of looks of threads at the flag and of threads ending by themselves", "why_tests_cant": "tests start and stop the thread once; failing pthread_create, stops that do not wait followed by a start, and threads ended by an unreadable certificate are not tried", "anchors": ["src/session_server.c: nc_server_notif_cert_expiration_thread_start, nc_server_notif_cert_expiration_thread_stop, nc_server_notif_cert_exp_thread, nc_server_notif_cert_exp_thread_is_running", "src/session_server.h: nc_server_notif_cert_expiration_thread_start, nc_server_notif_cert_expiration_thread_stop"]}
{"id": "C255", "title": "A session of Call Home is freed only when its thread is done with it", "statement": "However the steps of nc_session_free and of the Call Home thread waiting for the end of the session interleave: the thread does not use the session after it is freed; the signal of nc_session_free is not lost, so that while it waits the thread is awake or done and two steps of it let nc_session_free end; the thread goes on to the next connection only once the session is not running any more", "quantifier": "all interleavings of the steps of both threads, all answers about the client and its idle timeout, spurious wake-ups, sessions becoming invalid at any time", "why_tests_cant": "which of the threads runs when is up to the scheduler; tests see few interleavings and never a thread that is held up for a second", "anchors": ["src/session.c: nc_session_free", "src/session_server.c: nc_server_ch_client_thread_session_cond_wait"]}
{"id": "C256", "title": "Further channels of an SSH connection become sessions, each once, and the connection is closed with the last one", "statement": "Whatever channels a client requests on one SSH connection, however their handshakes end, and in whatever order an application accepts, polls and frees sessions: nc_session_accept_ssh_channel and nc_ps_accept_ssh_channel find a channel exactly if one waits and a polled session of the connection is running; what they give is a running session the application did not have; no session is given or freed twice; accepting as often as channels wait, each gets its handshake; the connection is open as long as the application has a session of it and closed once it has freed all", "quantifier": "all sequences of requests, accepts of any sets of polled sessions with any outcome, sessions becoming invalid and frees", "why_tests_cant": "tests accept one further channel whose handshake succeeds; failing handshakes and several waiting channels are not tried", "anchors": ["src/session_server_ssh.c: nc_session_accept_ssh_channel, nc_ps_accept_ssh_channel, nc_server_ssh_channel_subsystem", "src/session.c: nc_session_free_transport, nc_session_free", "src/session_server.h: nc_session_accept_ssh_channel, nc_ps_accept_ssh_channel"]}
{"id": "C257", "title": "Keyboard-interactive authentication lets in whom PAM lets in", "statement": "A client using the keyboard-interactive method is let in exactly if the method is enabled for the user and the callback of the application accepts it, or, without a callback, PAM is configured, started, authenticates the user and finds the account valid, or finds its token expired and has it changed. PAM is asked in that order, each time only if it agreed before, and ended last, exactly once, if it was started", "quantifier": "all users, callbacks, configurations and answers of PAM", "why_tests_cant": "the test has one PAM module of its own, which asks for a new token each time; other answers of modules, accounts that expired or are locked are not tried", "anchors": ["src/session_server_ssh.c: nc_server_ssh_auth_kbdint_pam, nc_server_ssh_auth_kbdint"]}
{"id": "C258", "title": "Contexts and schema-mount data of client sessions sharing an SSH connection", "statement": "On an SSH connection with several client sessions, each with a context of its own or of the application, a context made by the library is destroyed at most once, and while it exists its callback is given a live session, the one that owns it. Schema-mount data received for a session are held by one session or freed once, and freeing a session, or failing to make a further one, leaves the others unchanged. Not so if sessions of both kinds are mixed: freeing a session with a context of the application, or failing to make one, while the next session of the connection has schema-mount data fails an assertion, or without assertions these data are lost", "quantifier": "all histories of making further sessions, receiving schema-mount data and freeing sessions of one connection", "why_tests_cant": "tests have one session, or several with one kind of context, and a server without schema mount", "anchors": ["src/session_client.c: nc_client_session_new_ctx, nc_ly_ext_data_clb, nc_client_set_new_session_context_schema_mount", "src/session_client_ssh.c: nc_connect_ssh_channel", "src/session.c: nc_session_free"]}
