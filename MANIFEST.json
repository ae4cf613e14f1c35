{
 "claims": [
  {
   "property": "C01",
   "status": "proved",
   "theorems": [
    "Verif.Props.framing11_roundtrip"
   ],
   "note": "writer and reader of io.c, every split of the text, every short write/read pattern; single printer writes below 2^32-1024 bytes"
  },
  {
   "property": "C02",
   "status": "partial",
   "theorems": [
    "Verif.Props.framing10_first_eom_partial",
    "Verif.Props.framing10_first_eom_false"
   ],
   "note": "false in general (content ending in a prefix of the marker hides the marker); proved for contents not ending in ] or ]]> and shorter than 2 GiB"
  },
  {
   "property": "C03",
   "status": "partial",
   "theorems": [
    "Verif.Props.framing11_sequence",
    "Verif.Props.framing10_sequence_partial",
    "Verif.Props.framing10_sequence_false"
   ],
   "note": "full for NETCONF 1.1; NETCONF 1.0 inherits the restriction of C02"
  },
  {
   "property": "C04",
   "status": "partial",
   "theorems": [
    "Verif.Props.reader_no_ub_partial",
    "Verif.Props.reader10_no_ub_partial",
    "Verif.Props.until_buffer_safe",
    "Verif.Props.reader_no_ub_false",
    "Verif.Props.reader10_no_ub_false"
   ],
   "note": "false: chunk header -1, NETCONF 1.0 messages of 2 GiB; undefined behaviour only with a header value of at least 2^32 or such messages"
  },
  {
   "property": "C05",
   "status": "partial",
   "theorems": [
    "Verif.Props.framing11_strict_partial",
    "Verif.Props.framing11_strict_false"
   ],
   "note": "false: junk and lenient sizes accepted; the accepted language is characterised"
  },
  {
   "property": "C06",
   "status": "proved",
   "theorems": [
    "Verif.Props.write_buffer_bounded",
    "Verif.Props.write_order"
   ],
   "note": "bounds for every transport behaviour; order without hard errors, single writes below 2^32-1024 bytes"
  },
  {
   "property": "C07",
   "status": "proved",
   "theorems": [
    "Verif.Props.xml_escape_roundtrip"
   ],
   "note": "hello content"
  },
  {
   "property": "C08",
   "status": "partial",
   "theorems": [
    "Verif.Props.send_success_complete_partial",
    "Verif.Props.send_success_complete_inval_partial",
    "Verif.Props.send_success_prefix_partial",
    "Verif.Props.send_success_complete_false"
   ],
   "note": "false: callback results ignored; proved without hard write errors"
  },
  {
   "property": "C10",
   "status": "partial",
   "theorems": [
    "Verif.Props.version_negotiation_partial",
    "Verif.Props.version_negotiation_false"
   ],
   "note": "false: strncmp with the length of the received text accepts prefixes of the base URIs; exact for lists without such prefixes"
  },
  {
   "property": "C11",
   "status": "partial",
   "theorems": [
    "Verif.Props.client_hello_partial",
    "Verif.Props.client_hello_accepts",
    "Verif.Props.client_hello_false"
   ],
   "note": "false: repeated session-id and missing capability list accepted; everything else of the claim proved, plus completeness"
  },
  {
   "property": "C12",
   "status": "partial",
   "theorems": [
    "Verif.Props.server_hello_partial",
    "Verif.Props.server_hello_false"
   ],
   "note": "false: root element and presence of a capability list unchecked; the rest proved"
  },
  {
   "property": "C13",
   "status": "partial",
   "theorems": [
    "Verif.Props.with_defaults_partial",
    "Verif.Props.with_defaults_args",
    "Verif.Props.with_defaults_false"
   ],
   "note": "false: mode constants are not bits and nothing is advertised without additional modes; exact characterisation of the good choices"
  },
  {
   "property": "C14",
   "status": "proved",
   "theorems": [
    "Verif.Props.capability_list"
   ],
   "note": "every sequence of offered capabilities"
  },
  {
   "property": "C52",
   "status": "partial",
   "theorems": [
    "Verif.Props.capability_buffer_partial",
    "Verif.Props.capability_buffer_false"
   ],
   "note": "false: sprintf and two strcat calls unchecked; proved under a length bound"
  },
  {
   "property": "C16",
   "status": "partial",
   "theorems": [
    "Verif.Props.ps_lock_partial",
    "Verif.Props.ps_lock_false"
   ],
   "note": "mutual exclusion and FIFO for every schedule in which fewer than 256 tickets are issued during one stay; ps_lock_false: the 8-bit ticket wraps and two callers own the lock. Missing: pthread scheduling/fairness"
  },
  {
   "property": "C17",
   "status": "partial",
   "theorems": [
    "Verif.Props.rpc_lock_partial",
    "Verif.Props.poll_one_rpc",
    "Verif.Props.rpc_lock_free_false"
   ],
   "note": "exclusion of RPC processing for every schedule; rpc_lock_free_false: nc_session_free continues without the lock after its timeout"
  },
  {
   "property": "C15",
   "status": "proved",
   "theorems": [
    "Verif.Props.poll_set"
   ],
   "note": "fewer than 65536 operations (16-bit count)"
  },
  {
   "property": "C18",
   "status": "proved",
   "theorems": [
    "Verif.Props.poll_fair",
    "Verif.Props.poll_fair_progress",
    "Verif.Props.poll_fair_delete_false"
   ],
   "note": "safety for every pattern of readiness, errors and additions; progress without internal errors; deletions reset the order (poll_fair_delete_false), excluded by the quantifier"
  },
  {
   "property": "C19",
   "status": "partial",
   "theorems": [
    "Verif.Props.termination_once",
    "Verif.Props.termination_flags_partial",
    "Verif.Props.termination_flags_false"
   ],
   "note": "exactly-once proved; the error flag is wrong for killed sessions found by polling, dropped/other after a request, closed/killed with an unreadable request"
  },
  {
   "property": "C20",
   "status": "partial",
   "theorems": [
    "Verif.Props.idle_timeout_partial",
    "Verif.Props.idle_timeout_history_partial",
    "Verif.Props.idle_timeout_false"
   ],
   "note": "false: the deadline of the poll is used as current time, uninitialised for infinite timeouts, and RPC time is the start of the poll"
  },
  {
   "property": "C21",
   "status": "proved",
   "theorems": [
    "Verif.Props.session_ids_unique",
    "Verif.Props.session_ids_wrap"
   ],
   "note": "up to 2^32-1 sessions; wraps afterwards"
  },
  {
   "property": "C22",
   "status": "proved",
   "theorems": [
    "Verif.Props.killer_consistent"
   ],
   "note": "every sequence of setter calls"
  },
  {
   "property": "C48",
   "status": "proved",
   "theorems": [
    "Verif.Props.notif_status"
   ],
   "note": "fewer than 2^32 calls"
  },
  {
   "property": "C53",
   "status": "proved",
   "theorems": [
    "Verif.Props.poll_clear"
   ],
   "note": "every content"
  },
  {
   "property": "C54",
   "status": "proved",
   "theorems": [
    "Verif.Props.termination_once",
    "Verif.Props.termination_at_once",
    "Verif.Props.termination_by_rpc"
   ],
   "note": "every history; the poll that ends a session says so itself unless polling the transport failed"
  },
  {
   "property": "C24",
   "status": "proved",
   "theorems": [
    "Verif.Props.endpoint_removal",
    "Verif.Props.endpoint_removal_shared_name_false"
   ],
   "note": "names must differ; a configured endpoint with the name of an existing UNIX endpoint cannot be removed (second theorem)"
  },
  {
   "property": "C25",
   "status": "partial",
   "theorems": [
    "Verif.Props.listen_delete_partial",
    "Verif.Props.listen_delete_false"
   ],
   "note": "false with UNIX endpoints or references; proved without them"
  },
  {
   "property": "C26",
   "status": "partial",
   "theorems": [
    "Verif.Props.ch_endpoint_removal_partial",
    "Verif.Props.ch_endpoint_removal_false"
   ],
   "note": "false for every position except the last"
  },
  {
   "property": "C55",
   "status": "proved",
   "theorems": [
    "Verif.Props.object_arrays",
    "Verif.Props.object_arrays_clear"
   ],
   "note": "every sequence"
  },
  {
   "property": "C27",
   "status": "partial",
   "theorems": [
    "Verif.Props.references_accepted_iff",
    "Verif.Props.references_terminate_partial",
    "Verif.Props.references_terminate_false"
   ],
   "note": "false: the check recurses for ever if an endpoint leads into a cycle it is not on; acceptance is exact, termination proved for the other graphs"
  },
  {
   "property": "C56",
   "status": "proved",
   "theorems": [
    "Verif.Props.references_accepted_iff"
   ],
   "note": "every reference graph with distinct names"
  },
  {
   "property": "C28",
   "status": "proved",
   "theorems": [
    "Verif.Props.ctn_sorted_map",
    "Verif.Props.ctn_delete_error"
   ],
   "note": "every sequence of operations; name-to-number abstraction of texts"
  },
  {
   "property": "C29",
   "status": "partial",
   "theorems": [
    "Verif.Props.algorithms_added_partial",
    "Verif.Props.algorithm_delete_partial",
    "Verif.Props.algorithm_delete_missing",
    "Verif.Props.algorithm_delete_false",
    "Verif.Props.algorithm_delete_no_effect_false",
    "Verif.Props.algorithm_delete_only_false",
    "Verif.Props.algorithm_delete_prefix_false",
    "Verif.Props.cipher_delete_false"
   ],
   "note": "false: every deletion of an algorithm that is not the last one leaves garbage, single algorithms cause an out-of-bounds read, ciphers are never found; additions and deletion of the last one proved"
  },
  {
   "property": "C30",
   "status": "proved",
   "theorems": [
    "Verif.Props.operations_inherited",
    "Verif.Props.operations_once"
   ],
   "note": "every tree and every behaviour of the callbacks"
  },
  {
   "property": "C43",
   "status": "partial",
   "theorems": [
    "Verif.Props.deadline_passed_partial",
    "Verif.Props.deadline_passed_false",
    "Verif.Props.deadline_long_false"
   ],
   "note": "false in the last millisecond before the deadline and for timeouts from 2^31 ms on; proved otherwise"
  },
  {
   "property": "C44",
   "status": "partial",
   "theorems": [
    "Verif.Props.poll_ready_partial",
    "Verif.Props.poll_ready_false",
    "Verif.Props.poll_ready_late_false",
    "Verif.Props.poll_wait_bound"
   ],
   "note": "false: elapsed time is subtracted repeatedly after signals; proved without signals or without a positive timeout"
  },
  {
   "property": "C57",
   "status": "partial",
   "theorems": [
    "Verif.Props.cipher_added",
    "Verif.Props.cipher_name_mbedtls_partial",
    "Verif.Props.cipher_name_mbedtls_false"
   ],
   "note": "true with OpenSSL; with mbedTLS true for suites before TLS 1.3, false with mbedTLS for all TLS 1.3 suites"
  },
  {
   "property": "C58",
   "status": "partial",
   "theorems": [
    "Verif.Props.cipher_array_mbedtls_false"
   ],
   "note": "false: every addition overruns the array (sizeof of void is 1)"
  },
  {
   "property": "C59",
   "status": "proved",
   "theorems": [
    "Verif.Props.deadline_exact"
   ],
   "note": "every time and distance below 2^31 ms"
  },
  {
   "property": "C60",
   "status": "proved",
   "theorems": [
    "Verif.Props.poll_wait_bound"
   ],
   "note": "every sequence of signals, for timeouts below 2^31-1 ms"
  },
  {
   "property": "C61",
   "status": "partial",
   "theorems": [
    "Verif.Props.msgs_lock_timeout_partial",
    "Verif.Props.msgs_lock_timeout_false"
   ],
   "note": "false: waiting time is added; proved for a free lock"
  },
  {
   "property": "C45",
   "status": "partial",
   "theorems": [
    "Verif.Props.err_type_partial",
    "Verif.Props.err_type_false",
    "Verif.Props.err_setters"
   ],
   "note": "false: a type outside the four is accepted for some tags; everything else proved, setters without restriction"
  },
  {
   "property": "C62",
   "status": "partial",
   "theorems": [
    "Verif.Props.err_order_partial",
    "Verif.Props.err_order_false",
    "Verif.Props.err_children_once"
   ],
   "note": "false after setting an app-tag or path; proved otherwise; uniqueness without restriction"
  },
  {
   "property": "C63",
   "status": "partial",
   "theorems": [
    "Verif.Props.err_lang_partial",
    "Verif.Props.err_lang_false"
   ],
   "note": "false: the language of an existing message is never changed"
  },
  {
   "property": "C64",
   "status": "proved",
   "theorems": [
    "Verif.Props.poll_inside"
   ],
   "note": "every sequence of additions, removals, clearings and polls"
  },
  {
   "property": "C65",
   "status": "partial",
   "theorems": [
    "Verif.Props.poll_remove_partial",
    "Verif.Props.poll_remove_false"
   ],
   "note": "false: removal during the processing of an RPC of the session; proved for all interleavings without such removals"
  },
  {
   "property": "C46",
   "status": "partial",
   "theorems": [
    "Verif.Props.bind_removal_partial",
    "Verif.Props.bind_removal_false",
    "Verif.Props.bind_added"
   ],
   "note": "false: with several matching binds some remain; everything else proved"
  },
  {
   "property": "C47",
   "status": "partial",
   "theorems": [
    "Verif.Props.newest_revision_partial",
    "Verif.Props.newest_revision_oldest",
    "Verif.Props.newest_revision_false",
    "Verif.Props.newest_revision_null_false"
   ],
   "note": "false: the oldest revision is chosen (proved for all lists); proved for modules listed once"
  },
  {
   "property": "C66",
   "status": "partial",
   "theorems": [
    "Verif.Props.yang_library_partial",
    "Verif.Props.yang_library_submodules_false",
    "Verif.Props.yang_library_terminator_false"
   ],
   "note": "false: submodules are never recorded, the list is not terminated after adding the notification modules"
  },
  {
   "property": "C67",
   "status": "partial",
   "theorems": [
    "Verif.Props.capability_module_partial",
    "Verif.Props.capability_module_false"
   ],
   "note": "false if parameters precede the module; proved otherwise for all parameter lists without = in the values"
  },
  {
   "property": "C68",
   "status": "partial",
   "theorems": [
    "Verif.Props.submodule_revision_partial",
    "Verif.Props.submodule_revision_false"
   ],
   "note": "false for modules requested with a revision (the first listed module is searched)"
  },
  {
   "property": "C33",
   "status": "partial",
   "theorems": [
    "Verif.Props.ssh_auth_methods_partial",
    "Verif.Props.ssh_auth_count_partial",
    "Verif.Props.ssh_auth_methods_false"
   ],
   "note": "false: repeating one successful method counts several times; proved if no method succeeds twice; the number of valid requests and the single user name are proved for all sequences"
  },
  {
   "property": "C34",
   "status": "proved",
   "theorems": [
    "Verif.Props.ssh_channel_after_auth",
    "Verif.Props.ssh_nothing_before_auth",
    "Verif.Props.ssh_no_reauth"
   ],
   "note": "all message sequences, status changes in between"
  },
  {
   "property": "C39",
   "status": "partial",
   "theorems": [
    "Verif.Props.keys_path_expanded",
    "Verif.Props.keys_path_refused_partial",
    "Verif.Props.keys_path_memory",
    "Verif.Props.keys_path_false"
   ],
   "note": "false for formats without any right token and for a % at the end; otherwise proved"
  },
  {
   "property": "C51",
   "status": "proved",
   "theorems": [
    "Verif.Props.password_accepted_iff",
    "Verif.Props.password_system"
   ],
   "note": "crypt(3) is a parameter with the contract that a locked setting does not hash to itself; accounts in passwd without shadow have no expiration"
  },
  {
   "property": "C69",
   "status": "proved",
   "theorems": [
    "Verif.Props.ssh_auth_system"
   ],
   "note": "all message sequences; libssh does not deliver wrong signatures"
  },
  {
   "property": "C70",
   "status": "partial",
   "theorems": [
    "Verif.Props.ssh_pubkey_partial",
    "Verif.Props.ssh_pubkey_false"
   ],
   "note": "false for the library alone: any signature state but none is taken as valid; proved under the assumption that libssh delivers no wrong signatures"
  },
  {
   "property": "C71",
   "status": "partial",
   "theorems": [
    "Verif.Props.ssh_channel_sessions_partial",
    "Verif.Props.ssh_channel_sessions_false"
   ],
   "note": "false: a second request on an additional channel creates a second session"
  },
  {
   "property": "C72",
   "status": "partial",
   "theorems": [
    "Verif.Props.ssh_subsystem_partial",
    "Verif.Props.ssh_first_channel_partial",
    "Verif.Props.ssh_subsystem_false"
   ],
   "note": "false for the first channel after a request on another one; first request proved"
  },
  {
   "property": "C36",
   "status": "partial",
   "theorems": [
    "Verif.Props.tls_accept_user",
    "Verif.Props.tls_accept_partial",
    "Verif.Props.tls_refuse_partial",
    "Verif.Props.tls_accepts_trusted",
    "Verif.Props.tls_accept_mbedtls",
    "Verif.Props.ee_peer_found",
    "Verif.Props.tls_accept_false"
   ],
   "note": "false with OpenSSL: errors above the client's certificate are ignored, so a made up issuer is enough; proved for mbedTLS and, with OpenSSL, when nothing is reported above the client's certificate"
  },
  {
   "property": "C37",
   "status": "proved",
   "theorems": [
    "Verif.Props.cert_to_name_first",
    "Verif.Props.fingerprint_octets",
    "Verif.Props.cert_to_name_fits"
   ],
   "note": "for certificates the TLS library can read and fingerprints with at least one digest octet"
  },
  {
   "property": "C38",
   "status": "partial",
   "theorems": [
    "Verif.Props.common_name_partial",
    "Verif.Props.common_name_false",
    "Verif.Props.common_name_mbedtls_partial",
    "Verif.Props.common_name_mbedtls_false"
   ],
   "note": "false: CN= in the value of an earlier attribute is taken, a slash cuts the name (OpenSSL); attributes behind the common name become part of it (mbedTLS)"
  },
  {
   "property": "C73",
   "status": "partial",
   "theorems": [
    "Verif.Props.own_name_partial",
    "Verif.Props.own_name_false"
   ],
   "note": "false if an entry fits the authority's certificate"
  },
  {
   "property": "C74",
   "status": "partial",
   "theorems": [
    "Verif.Props.fingerprint_memory_partial",
    "Verif.Props.fingerprint_memory_false"
   ],
   "note": "false for a fingerprint without digest octets, which the YANG type allows"
  },
  {
   "property": "C75",
   "status": "partial",
   "theorems": [
    "Verif.Props.san_name_partial",
    "Verif.Props.san_name_false",
    "Verif.Props.ip_name_injective"
   ],
   "note": "false: no conversion to lower case, cut at NUL characters; addresses proved completely"
  },
  {
   "property": "C76",
   "status": "partial",
   "theorems": [
    "Verif.Props.ee_no_null_partial",
    "Verif.Props.ee_no_null_false"
   ],
   "note": "false with OpenSSL"
  },
  {
   "property": "C77",
   "status": "proved",
   "theorems": [
    "Verif.Props.tls_accept_user",
    "Verif.Props.tls_accept_mbedtls"
   ],
   "note": "all sequences of reports of either library"
  },
  {
   "property": "C78",
   "status": "proved",
   "theorems": [
    "Verif.Props.tls_accept_user",
    "Verif.Props.tls_accept_mbedtls"
   ],
   "note": "all sequences of reports of either library"
  },
  {
   "property": "C79",
   "status": "partial",
   "theorems": [
    "Verif.Props.mbedtls_io_partial",
    "Verif.Props.mbedtls_io_false"
   ],
   "note": "false with mbedTLS: an assignment in the condition"
  },
  {
   "property": "C09",
   "status": "partial",
   "theorems": [
    "Verif.Props.msgid_fresh",
    "Verif.Props.msgid_told_partial",
    "Verif.Props.msgid_told_false"
   ],
   "note": "ids are fresh in every interleaving of sending threads; the id told to the caller is wrong if another thread sends in between"
  },
  {
   "property": "C31",
   "status": "partial",
   "theorems": [
    "Verif.Props.msg_type_partial",
    "Verif.Props.msg_type_false",
    "Verif.Props.message_order_partial",
    "Verif.Props.message_delivered_partial",
    "Verif.Props.message_lost_false"
   ],
   "note": "messages with a namespace prefix or an unusual comment are lost"
  },
  {
   "property": "C32",
   "status": "partial",
   "theorems": [
    "Verif.Props.reply_match_partial",
    "Verif.Props.reply_match_false"
   ],
   "note": "strtoul accepts other texts"
  },
  {
   "property": "C35",
   "status": "proved",
   "theorems": [
    "Verif.Props.ssh_ring"
   ],
   "note": "every sequence of insertions, acceptances and freeings"
  },
  {
   "property": "C80",
   "status": "partial",
   "theorems": [
    "Verif.Props.malformed_frame_partial",
    "Verif.Props.malformed_frame_false"
   ],
   "note": "a null pointer is dereferenced after an invalid frame"
  },
  {
   "property": "C81",
   "status": "partial",
   "theorems": [
    "Verif.Props.reply_parsed_partial",
    "Verif.Props.reply_parsed_false"
   ],
   "note": "an envelope is enough"
  },
  {
   "property": "C82",
   "status": "partial",
   "theorems": [
    "Verif.Props.close_ends_partial",
    "Verif.Props.close_ends_false"
   ],
   "note": "endless if the server keeps sending"
  },
  {
   "property": "C83",
   "status": "partial",
   "theorems": [
    "Verif.Props.ntf_running_partial",
    "Verif.Props.ntf_running_false"
   ],
   "note": "a thread that ended is still reported"
  },
  {
   "property": "C84",
   "status": "partial",
   "theorems": [
    "Verif.Props.new_channel_partial",
    "Verif.Props.new_channel_false"
   ],
   "note": "the IO lock stays locked if the channel is refused"
  },
  {
   "property": "C23",
   "status": "proved",
   "theorems": [
    "Verif.Props.accept_right",
    "Verif.Props.accept_fair"
   ],
   "note": "at most 2n+1 calls until a waiting connection is taken, n the number of endpoints"
  },
  {
   "property": "C85",
   "status": "partial",
   "theorems": [
    "Verif.Props.accept_blocks_partial",
    "Verif.Props.accept_blocks_false"
   ],
   "note": "a remembered event outlives the listening socket it belongs to"
  },
  {
   "property": "C50",
   "status": "partial",
   "theorems": [
    "Verif.Props.thread_ctx_partial",
    "Verif.Props.thread_ctx_race_false"
   ],
   "note": "whole operations; the counter is not updated atomically"
  },
  {
   "property": "C40",
   "status": "partial",
   "theorems": [
    "Verif.Props.call_home_rotation_partial",
    "Verif.Props.call_home_start_with",
    "Verif.Props.call_home_rotation_false"
   ],
   "note": "attempts are not counted anew after a session; a lowered maximum is missed"
  },
  {
   "property": "C41",
   "status": "partial",
   "theorems": [
    "Verif.Props.call_home_anchor_partial",
    "Verif.Props.call_home_anchor_false"
   ],
   "note": "the elapsed instead of the remaining part of the period is waited for"
  },
  {
   "property": "C86",
   "status": "partial",
   "theorems": [
    "Verif.Props.call_home_period_zero_partial",
    "Verif.Props.call_home_period_zero_false"
   ],
   "note": "division by zero with a period of 0 and an anchor time"
  },
  {
   "property": "C87",
   "status": "partial",
   "theorems": [
    "Verif.Props.call_home_period_partial",
    "Verif.Props.call_home_period_false"
   ],
   "note": "anchor times in the future"
  },
  {
   "property": "C88",
   "status": "partial",
   "theorems": [
    "Verif.Props.call_home_session_lost_partial",
    "Verif.Props.call_home_session_lost_false"
   ],
   "note": "lost if removed right after being established"
  },
  {
   "property": "C89",
   "status": "partial",
   "theorems": [
    "Verif.Props.call_home_removal_partial",
    "Verif.Props.call_home_removal_false"
   ],
   "note": "null pointer without a thread, use after free and failed assertion with races"
  },
  {
   "property": "C42",
   "status": "partial",
   "theorems": [
    "Verif.Props.cert_wakeup",
    "Verif.Props.cert_times_partial",
    "Verif.Props.cert_times_default",
    "Verif.Props.cert_times_false"
   ],
   "note": "ascending intervals; other orders go back in time"
  },
  {
   "property": "C90",
   "status": "partial",
   "theorems": [
    "Verif.Props.cert_daily_partial",
    "Verif.Props.cert_daily_false"
   ],
   "note": "periods of at most a day"
  },
  {
   "property": "C91",
   "status": "partial",
   "theorems": [
    "Verif.Props.cert_unreadable_partial",
    "Verif.Props.cert_unreadable_false"
   ],
   "note": "an unreadable certificate ends the thread"
  },
  {
   "property": "C92",
   "status": "partial",
   "theorems": [
    "Verif.Props.cert_stop_partial",
    "Verif.Props.cert_stop_false",
    "Verif.Props.cert_runs_until_stopped"
   ],
   "note": "wake-up lost between check and wait"
  },
  {
   "property": "C93",
   "status": "partial",
   "theorems": [
    "Verif.Props.cert_reload_partial",
    "Verif.Props.cert_reload_false"
   ],
   "note": "change noticed only while waiting"
  },
  {
   "property": "C49",
   "status": "partial",
   "theorems": [
    "Verif.Props.rpc_ownership_partial",
    "Verif.Props.rpc_ownership_false"
   ],
   "note": "array of excluded changes only while allocations succeed"
  },
  {
   "property": "C94",
   "status": "partial",
   "theorems": [
    "Verif.Props.rpc_contents_partial",
    "Verif.Props.rpc_created",
    "Verif.Props.rpc_contents_false"
   ],
   "note": "a string that cannot be copied is left out"
  },
  {
   "property": "C95",
   "status": "partial",
   "theorems": [
    "Verif.Props.rpc_sent_partial",
    "Verif.Props.rpc_sent_accepted",
    "Verif.Props.rpc_sent_ready",
    "Verif.Props.rpc_xml_parsed",
    "Verif.Props.rpc_number_fits",
    "Verif.Props.rpc_sent_false"
   ],
   "note": "rejected origin filters are left out"
  },
  {
   "property": "C96",
   "status": "proved",
   "theorems": [
    "Verif.Props.rpc_reply_op"
   ],
   "note": ""
  },
  {
   "property": "C97",
   "status": "proved",
   "theorems": [
    "Verif.Props.hostkey_accepted",
    "Verif.Props.hostkey_accepts",
    "Verif.Props.hostkey_stored"
   ],
   "note": ""
  },
  {
   "property": "C98",
   "status": "partial",
   "theorems": [
    "Verif.Props.login_ok_partial",
    "Verif.Props.login_unanswered",
    "Verif.Props.login_ok_false"
   ],
   "note": "fails if a private key accepted by the server cannot be read"
  },
  {
   "property": "C99",
   "status": "partial",
   "theorems": [
    "Verif.Props.login_enabled",
    "Verif.Props.login_pref_set",
    "Verif.Props.login_order",
    "Verif.Props.login_tries_all_partial",
    "Verif.Props.login_tries_all_false"
   ],
   "note": "completeness only for preferences above 0"
  },
  {
   "property": "C100",
   "status": "partial",
   "theorems": [
    "Verif.Props.login_default_order_partial",
    "Verif.Props.login_default_values",
    "Verif.Props.login_default_order_false"
   ],
   "note": "the implemented order is the reverse of the documented one"
  },
  {
   "property": "C101",
   "status": "proved",
   "theorems": [
    "Verif.Props.login_checked"
   ],
   "note": ""
  },
  {
   "property": "C102",
   "status": "partial",
   "theorems": [
    "Verif.Props.login_multistep_partial",
    "Verif.Props.login_multistep_false"
   ],
   "note": "only if all methods are offered from the start"
  },
  {
   "property": "C103",
   "status": "partial",
   "theorems": [
    "Verif.Props.keypair_add",
    "Verif.Props.keypair_add_partial",
    "Verif.Props.keypair_add_false",
    "Verif.Props.keypair_del_partial",
    "Verif.Props.keypair_del_false"
   ],
   "note": "key files with one line, other paths to the same file, negative indices"
  },
  {
   "property": "C104",
   "status": "partial",
   "theorems": [
    "Verif.Props.passphrase_asked_partial",
    "Verif.Props.passphrase_asked_false"
   ],
   "note": "only for keys that say so on the second line"
  },
  {
   "property": "C105",
   "status": "partial",
   "theorems": [
    "Verif.Props.authkeys_sound",
    "Verif.Props.authkeys_complete_partial",
    "Verif.Props.authkeys_complete_false"
   ],
   "note": "all keys are read only from files in a simple form"
  },
  {
   "property": "C106",
   "status": "partial",
   "theorems": [
    "Verif.Props.keytype_right",
    "Verif.Props.create_key_right",
    "Verif.Props.keytype_safe_partial",
    "Verif.Props.keytype_safe_false"
   ],
   "note": "data shorter than 24 bytes may be read behind the end"
  },
  {
   "property": "C107",
   "status": "partial",
   "theorems": [
    "Verif.Props.pam_questions",
    "Verif.Props.pam_success",
    "Verif.Props.pam_count",
    "Verif.Props.pam_count_false",
    "Verif.Props.pam_answers_partial",
    "Verif.Props.pam_answers_false"
   ],
   "note": "wrong if information messages are mixed with questions"
  },
  {
   "property": "C108",
   "status": "partial",
   "theorems": [
    "Verif.Props.auth_time_partial",
    "Verif.Props.auth_ok_means",
    "Verif.Props.auth_waits",
    "Verif.Props.auth_time_false",
    "Verif.Props.auth_no_limit_false"
   ],
   "note": "each question gets its own full timeout; timeout 0 refuses interactive clients"
  },
  {
   "property": "C109",
   "status": "partial",
   "theorems": [
    "Verif.Props.del_undoes_add_partial",
    "Verif.Props.del_truststore_ref_false"
   ],
   "note": "false for the SSH truststore reference of a listening endpoint (a node is missing in the path); names without apostrophes"
  },
  {
   "property": "C110",
   "status": "partial",
   "theorems": [
    "Verif.Props.edit_frame_partial",
    "Verif.Props.del_other_entry_false"
   ],
   "note": "false for names with apostrophes, which select other entries"
  },
  {
   "property": "C111",
   "status": "partial",
   "theorems": [
    "Verif.Props.one_case_partial",
    "Verif.Props.transport_choice_false"
   ],
   "note": "false for the transport of an endpoint"
  },
  {
   "property": "C112",
   "status": "partial",
   "theorems": [
    "Verif.Props.begin_config_partial",
    "Verif.Props.store_begin_false",
    "Verif.Props.conn_begin_false"
   ],
   "note": "false for the keystore, the truststore and Call Home connection types"
  },
  {
   "property": "C113",
   "status": "partial",
   "theorems": [
    "Verif.Props.del_all_false"
   ],
   "note": "false: these calls always fail, as libyang does not find a list without its keys"
  },
  {
   "property": "C114",
   "status": "partial",
   "theorems": [
    "Verif.Props.ssh_rsa_pubkey_partial",
    "Verif.Props.ssh_rsa_zero_false",
    "Verif.Props.ssh_ecdsa_pubkey"
   ],
   "note": "EC keys proved; RSA keys proved unless a parameter is zero, which a file can hold: the first byte of an empty buffer is read"
  },
  {
   "property": "C115",
   "status": "proved",
   "theorems": [
    "Verif.Props.key_round_trip",
    "Verif.Props.key_pair_made",
    "Verif.Props.cert_round_trip",
    "Verif.Props.key_pair_complete",
    "Verif.Props.cert_read"
   ],
   "note": "the libraries are trusted to write PEM and to read what they wrote"
  },
  {
   "property": "C116",
   "status": "partial",
   "theorems": [
    "Verif.Props.ssh2_file_partial",
    "Verif.Props.ssh2_subject_false",
    "Verif.Props.ssh2_continued_false"
   ],
   "note": "proved for files with one-line comments; false for the header Subject and for headers on more lines"
  },
  {
   "property": "C117",
   "status": "partial",
   "theorems": [
    "Verif.Props.ssh_pubkey_file_partial",
    "Verif.Props.pubkey_file_used",
    "Verif.Props.pubkey_file_read",
    "Verif.Props.openssh_export_false"
   ],
   "note": "false if libssh fails to write the key: read_openssh_pubkey returns 0 with no key"
  },
  {
   "property": "C118",
   "status": "partial",
   "theorems": [
    "Verif.Props.answered_partial",
    "Verif.Props.session_end_reported",
    "Verif.Props.error_reply_reported",
    "Verif.Props.busy_reported",
    "Verif.Props.answered_until_end",
    "Verif.Props.answered_at_most_once",
    "Verif.Props.answered_false",
    "Verif.Props.serve_defined"
   ],
   "note": "at most once and in order proved without conditions; exactly once if the lock is free and the connection takes the reply. False if another thread holds the I/O lock for longer than the timeout: the callback was run and its reply is dropped while the session goes on"
  },
  {
   "property": "C119",
   "status": "partial",
   "theorems": [
    "Verif.Props.missing_id_error",
    "Verif.Props.malformed_error",
    "Verif.Props.bad_message_not_executed",
    "Verif.Props.old_client_malformed_false"
   ],
   "note": "false for clients of version 1.0, which get malformed-message though RFC 6241 forbids it to be sent to them"
  },
  {
   "property": "C120",
   "status": "partial",
   "theorems": [
    "Verif.Props.frame_error_partial",
    "Verif.Props.frame_error_false"
   ],
   "note": "false: the session goes on and what follows is executed; proved that nothing is executed for the message and that the client is told or the session ends"
  },
  {
   "property": "C121",
   "status": "proved",
   "theorems": [
    "Verif.Props.callbacks_called",
    "Verif.Props.callback_reply",
    "Verif.Props.close_session_reply"
   ],
   "note": "callbacks are any functions of the session status and the request"
  },
  {
   "property": "C122",
   "status": "proved",
   "theorems": [
    "Verif.Props.unknown_attr_error",
    "Verif.Props.nth_quoted",
    "Verif.Props.nth_quoted_false"
   ],
   "note": "for messages of libyang that quote the attribute first; nth_quoted_false shows that the helper is wrong for messages with fewer quotes"
  },
  {
   "property": "C123",
   "status": "partial",
   "theorems": [
    "Verif.Props.schema_partial",
    "Verif.Props.schema_any_version",
    "Verif.Props.schema_empty_version_false",
    "Verif.Props.schema_ambiguous_false"
   ],
   "note": "proved for versions that are revision dates; false for the empty version and for several versions"
  },
  {
   "property": "C124",
   "status": "proved",
   "theorems": [
    "Verif.Props.error_reply_objects",
    "Verif.Props.data_reply_objects"
   ],
   "note": "trees are identified by numbers; libyang inserts all siblings and appends to opaque nodes"
  },
  {
   "property": "C125",
   "status": "partial",
   "theorems": [
    "Verif.Props.openssl_uris_partial",
    "Verif.Props.openssl_no_name_false",
    "Verif.Props.openssl_relative_false"
   ],
   "note": "false for points without a name (NULL pointer) and with a name relative to the issuer (wrong member of a union), both allowed by RFC 5280"
  },
  {
   "property": "C126",
   "status": "partial",
   "theorems": [
    "Verif.Props.mbed_reads_partial",
    "Verif.Props.mbed_faults_only",
    "Verif.Props.mbed_oid_compare_false",
    "Verif.Props.mbed_double_free_false"
   ],
   "note": "ends and never reads outside of the extensions; false: a constant is read past its end for identifiers of more than four bytes, and the list of a directory name is freed twice"
  },
  {
   "property": "C127",
   "status": "partial",
   "theorems": [
    "Verif.Props.mbed_uris_partial",
    "Verif.Props.mbed_three_points_false",
    "Verif.Props.mbed_reasons_false",
    "Verif.Props.mbed_unknown_last_false",
    "Verif.Props.mbed_rest_not_searched_false",
    "Verif.Props.mbed_prefix_false"
   ],
   "note": "proved for one point, or two with one name in the first, without reasons and issuer"
  },
  {
   "property": "C128",
   "status": "partial",
   "theorems": [
    "Verif.Props.crls_loaded_partial",
    "Verif.Props.crl_success",
    "Verif.Props.crl_last_fails_false",
    "Verif.Props.crl_mixed_data_false",
    "Verif.Props.crl_pem_openssl_false",
    "Verif.Props.crl_pem_mbed_false",
    "Verif.Props.crl_no_store_false"
   ],
   "note": "proved if failing downloads give no data and the last one does not fail"
  },
  {
   "property": "C129",
   "status": "proved",
   "theorems": [
    "Verif.Props.truststore_follows_diffs",
    "Verif.Props.truststore_setup",
    "Verif.Props.truststore_setup_none"
   ],
   "note": ""
  },
  {
   "property": "C130",
   "status": "partial",
   "theorems": [
    "Verif.Props.keystore_follows_diffs_partial",
    "Verif.Props.keystore_follows_diffs_false",
    "Verif.Props.keystore_setup",
    "Verif.Props.keystore_setup_none"
   ],
   "note": "false: removing the leaf public-key of a key by a diff keeps the public key; proved for all other diffs and for whole data"
  },
  {
   "property": "C131",
   "status": "partial",
   "theorems": [
    "Verif.Props.ssh_follows_diffs_partial",
    "Verif.Props.ssh_safe_diffs",
    "Verif.Props.ssh_setup",
    "Verif.Props.keys_replaced_at_once",
    "Verif.Props.ssh_follows_diffs_false",
    "Verif.Props.system_keys_stay",
    "Verif.Props.truststore_keys_removed_ub",
    "Verif.Props.kbdint_stays",
    "Verif.Props.truststore_to_inline_ub",
    "Verif.Props.old_key_comes_back",
    "Verif.Props.hostkey_to_inline_ub"
   ],
   "note": "false for some changes: system keys stay accepted after public-keys is removed, keyboard-interactive stays on, truststore references removed or replaced by keys lead to NULL pointers, old keys come back; proved for whole data and for all sequences of diffs without these changes"
  },
  {
   "property": "C132",
   "status": "partial",
   "theorems": [
    "Verif.Props.hostkey_order_partial",
    "Verif.Props.hostkey_order_false"
   ],
   "note": "false: the last host key takes the place of a removed one; proved as long as none is removed; moves within the list are not modelled"
  },
  {
   "property": "C133",
   "status": "partial",
   "theorems": [
    "Verif.Props.tls_follows_diffs_partial",
    "Verif.Props.tls_safe_diffs",
    "Verif.Props.tls_setup",
    "Verif.Props.bag_counts_at_once",
    "Verif.Props.tls_follows_diffs_false",
    "Verif.Props.identity_stays",
    "Verif.Props.identity_pointer_ub",
    "Verif.Props.certificate_stays",
    "Verif.Props.bag_to_ca_certs_ub",
    "Verif.Props.bag_to_ee_certs_ub",
    "Verif.Props.removed_certs_ub"
   ],
   "note": "false for some changes: replacing truststore bags by certificates always leads to a NULL pointer at the next connection, a removed certificate stays, keys of the keystore are mixed up with the format of the public key; proved for whole data and for all sequences of diffs without these changes"
  },
  {
   "property": "C134",
   "status": "partial",
   "theorems": [
    "Verif.Props.openssl_versions_partial",
    "Verif.Props.openssl_versions_no_gap",
    "Verif.Props.mbedtls_versions_partial",
    "Verif.Props.openssl_versions_false",
    "Verif.Props.mbedtls_versions_false"
   ],
   "note": "false: OpenSSL also accepts versions between configured ones, Mbed TLS accepts everything if only TLS 1.0 or 1.1 is configured; what the limits set allow is characterised exactly; with Mbed TLS they are overwritten before the handshake, see C173"
  },
  {
   "property": "C135",
   "status": "partial",
   "theorems": [
    "Verif.Props.ctn_follows_diffs_partial",
    "Verif.Props.ctn_follows_diffs_false",
    "Verif.Props.ctn_map_type_stays"
   ],
   "note": "false: changes of map-type and name by a diff are ignored; proved for all sequences of diffs without them"
  },
  {
   "property": "C136",
   "status": "partial",
   "theorems": [
    "Verif.Props.listens_where_configured_partial",
    "Verif.Props.applied_listens_partial",
    "Verif.Props.transport_change_fails",
    "Verif.Props.transport_change_ub",
    "Verif.Props.listens_where_configured_false",
    "Verif.Props.removed_port_stays",
    "Verif.Props.overlapping_address_fails",
    "Verif.Props.taken_port_fails"
   ],
   "note": "false: another transport for an endpoint is never applied (use after free), a removed port stays, changes fail that conflict only with sockets about to be closed; proved for all other sequences of diffs"
  },
  {
   "property": "C137",
   "status": "partial",
   "theorems": [
    "Verif.Props.keepalives_follow_partial",
    "Verif.Props.idle_timeout_follows",
    "Verif.Props.keepalives_follow_false",
    "Verif.Props.callhome_keepalives_partial",
    "Verif.Props.callhome_keepalives_false"
   ],
   "note": "false: keepalives are off after their leaves were removed from the configuration, while they are on if the same configuration is set up; proved for all other sequences of diffs"
  },
  {
   "property": "C138",
   "status": "proved",
   "theorems": [
    "Verif.Props.sockets_owned"
   ],
   "note": "arbitrary trees, success and failure"
  },
  {
   "property": "C139",
   "status": "partial",
   "theorems": [
    "Verif.Props.callhome_contact_partial",
    "Verif.Props.inserted_endpoint_goes_last",
    "Verif.Props.moved_endpoint_stays",
    "Verif.Props.removed_endpoint_dangles",
    "Verif.Props.removed_endpoint_then_client_ub",
    "Verif.Props.removed_remote_port_zero",
    "Verif.Props.switch_create_first_ub",
    "Verif.Props.switch_keeps_local_address",
    "Verif.Props.client_removal_without_callbacks_ub",
    "Verif.Props.callhome_contact_false"
   ],
   "note": "false: new endpoints always go last, moves are ignored, removing an endpoint that is not the last one drops the last one and keeps the freed one, a removed port becomes 0; proved for all other sequences of diffs"
  },
  {
   "property": "C140",
   "status": "proved",
   "theorems": [
    "Verif.Props.callhome_settings",
    "Verif.Props.callhome_settings_applied"
   ],
   "note": "any successfully applied diffs"
  },
  {
   "property": "C141",
   "status": "partial",
   "theorems": [
    "Verif.Props.config_follows_partial",
    "Verif.Props.config_applied_partial",
    "Verif.Props.data_again_keeps_intervals",
    "Verif.Props.removed_server_stays",
    "Verif.Props.data_again_without_callbacks_ub",
    "Verif.Props.config_follows_false"
   ],
   "note": "false: complete data keep the intervals configured before and add their own; a diff removing netconf-server changes nothing; without Call Home callbacks complete data are undefined behaviour once clients are configured; proved for all other sequences of steps whose parts are followed (C130, C136, C139)"
  },
  {
   "property": "C142",
   "status": "partial",
   "theorems": [
    "Verif.Props.intervals_follow_partial",
    "Verif.Props.removed_interval_container_stays",
    "Verif.Props.data_again_keeps_intervals",
    "Verif.Props.removed_interval_disorders",
    "Verif.Props.intervals_follow_false"
   ],
   "note": "false: removing the container with the intervals changes nothing; proved as a set for all other diffs; the order, on which notification times depend (C89), is lost by removals"
  },
  {
   "property": "C143",
   "status": "partial",
   "theorems": [
    "Verif.Props.failed_data_harmless_partial",
    "Verif.Props.accepted_data_close",
    "Verif.Props.failed_data_harmless_false"
   ],
   "note": "false: everything is removed before the data are looked at, so that a port in use loses all listening sockets; proved for data refused by the checks at the start"
  },
  {
   "property": "C144",
   "status": "partial",
   "theorems": [
    "Verif.Props.operations_refused_partial",
    "Verif.Props.operations_refused_false"
   ],
   "note": "false: containers before netconf-server are not checked; proved if netconf-server comes first"
  },
  {
   "property": "C145",
   "status": "partial",
   "theorems": [
    "Verif.Props.connect_sockets_accounted",
    "Verif.Props.attempts_sockets_accounted",
    "Verif.Props.host_reported_partial",
    "Verif.Props.host_reported_false"
   ],
   "note": "the sockets: proved; the address reported: false for a pending socket with number 0, proved otherwise"
  },
  {
   "property": "C146",
   "status": "partial",
   "theorems": [
    "Verif.Props.connects_first_answering",
    "Verif.Props.callhome_connects_partial",
    "Verif.Props.callhome_other_addresses_ignored",
    "Verif.Props.callhome_connects_false"
   ],
   "note": "clients: proved; Call Home: false, if the first address leaves connections open (packets dropped), the others are never tried; proved if no earlier address does so; the time until an answer is not modelled"
  },
  {
   "property": "C147",
   "status": "partial",
   "theorems": [
    "Verif.Props.callhome_address_was_configured",
    "Verif.Props.callhome_address_configured_partial",
    "Verif.Props.callhome_address_configured_false"
   ],
   "note": "false: a pending connection to the old address is used after a change; proved while the addresses do not change"
  },
  {
   "property": "C148",
   "status": "partial",
   "theorems": [
    "Verif.Props.strict_complete_partial",
    "Verif.Props.available_complete",
    "Verif.Props.provided_complete",
    "Verif.Props.strict_complete_false",
    "Verif.Props.strict_complete_text_false",
    "Verif.Props.strict_revision_false"
   ],
   "note": "false: a failed lys_set_implemented is ignored, texts of other modules are not noticed, base modules are loaded in any revision; proved if libyang and the sources behave, the revision for all modules not loaded before the list; complete if everything is available in files, from the server or from the callback"
  },
  {
   "property": "C149",
   "status": "partial",
   "theorems": [
    "Verif.Props.broken_not_returned_partial",
    "Verif.Props.broken_modules_not_returned_partial",
    "Verif.Props.running_not_broken",
    "Verif.Props.broken_rpc_not_returned_partial",
    "Verif.Props.broken_not_returned_false",
    "Verif.Props.broken_base_not_returned_false"
   ],
   "note": "false for shared contexts (yang-library data) and for the base module; proved for own contexts with yang-library, and for breaks while the listed modules are loaded if there is no callback"
  },
  {
   "property": "C150",
   "status": "partial",
   "theorems": [
    "Verif.Props.user_data_freed_partial",
    "Verif.Props.user_data_freed_false",
    "Verif.Props.user_data_freed_false'"
   ],
   "note": "false: free is always used; proved for callbacks whose data are to be freed by free"
  },
  {
   "property": "C151",
   "status": "partial",
   "theorems": [
    "Verif.Props.context_options_restored_partial",
    "Verif.Props.context_options_restored_false"
   ],
   "note": "false for options that were set before; proved for unset options, the callback, and disabled filling"
  },
  {
   "property": "C152",
   "status": "partial",
   "theorems": [
    "Verif.Props.base_module_required",
    "Verif.Props.base_capability_accepted_false",
    "Verif.Props.available_complete"
   ],
   "note": "false: a server that names ietf-netconf only in yang-library data is refused; proved for servers naming it in a capability, and that such a capability is necessary"
  },
  {
   "property": "C153",
   "status": "proved",
   "theorems": [
    "Verif.Props.files_without_revision_unused"
   ],
   "note": ""
  },
  {
   "property": "C154",
   "status": "partial",
   "theorems": [
    "Verif.Props.certs_watched",
    "Verif.Props.certs_watched_partial",
    "Verif.Props.certs_watched_false"
   ],
   "note": "false: one unreadable certificate anywhere, e.g. of a TLS endpoint without one, and none is watched; otherwise proved"
  },
  {
   "property": "C155",
   "status": "partial",
   "theorems": [
    "Verif.Props.notification_path_partial",
    "Verif.Props.notification_paths_differ_partial",
    "Verif.Props.notification_path_false"
   ],
   "note": "false for names with an apostrophe, proved for others"
  },
  {
   "property": "C156",
   "status": "proved",
   "theorems": [
    "Verif.Props.dnssec_accept_sound",
    "Verif.Props.dnssec_record"
   ],
   "note": ""
  },
  {
   "property": "C157",
   "status": "partial",
   "theorems": [
    "Verif.Props.dnssec_accept_complete_partial",
    "Verif.Props.dnssec_accept_complete_false"
   ],
   "note": "false: only the first record of a kind is compared; proved for that one"
  },
  {
   "property": "C158",
   "status": "partial",
   "theorems": [
    "Verif.Props.dnssec_told_partial",
    "Verif.Props.dnssec_told_false"
   ],
   "note": "false: always told for key types other than RSA, DSA, ECDSA; proved for these"
  },
  {
   "property": "C159",
   "status": "partial",
   "theorems": [
    "Verif.Props.dnssec_reads_partial",
    "Verif.Props.dnssec_reads_false"
   ],
   "note": "false: lengths are not checked; proved for well-formed records"
  },
  {
   "property": "C160",
   "status": "partial",
   "theorems": [
    "Verif.Props.unix_listens_partial",
    "Verif.Props.unix_listens_available",
    "Verif.Props.unix_too_long",
    "Verif.Props.unix_permissions_first",
    "Verif.Props.unix_listens_false"
   ],
   "note": "false for paths of 107 bytes, which are accepted and cut; proved for shorter ones"
  },
  {
   "property": "C161",
   "status": "partial",
   "theorems": [
    "Verif.Props.endpoints_reachable_partial",
    "Verif.Props.endpoints_reachable_false"
   ],
   "note": "false if two endpoints have the same path; proved otherwise"
  },
  {
   "property": "C162",
   "status": "proved",
   "theorems": [
    "Verif.Props.unix_listen_failed_closed",
    "Verif.Props.unix_sockets_owned"
   ],
   "note": ""
  },
  {
   "property": "C163",
   "status": "partial",
   "theorems": [
    "Verif.Props.unix_add_again_partial",
    "Verif.Props.unix_add_again_false"
   ],
   "note": "false: the endpoint of the failed attempt is kept; proved if it is removed before"
  },
  {
   "property": "C164",
   "status": "partial",
   "theorems": [
    "Verif.Props.unix_client_partial",
    "Verif.Props.unix_client_server_partial",
    "Verif.Props.unix_client_false",
    "Verif.Props.unix_client_server_false"
   ],
   "note": "false for paths of 108 bytes and more, and against an endpoint also for 107; proved for shorter ones"
  },
  {
   "property": "C165",
   "status": "proved",
   "theorems": [
    "Verif.Props.unix_user_sound",
    "Verif.Props.unix_user_complete"
   ],
   "note": ""
  },
  {
   "property": "C166",
   "status": "partial",
   "theorems": [
    "Verif.Props.unix_rejected_closed",
    "Verif.Props.unix_rejected_leak_partial",
    "Verif.Props.unix_rejected_leak_false"
   ],
   "note": "the socket is always closed; false for memory: a client without name costs a buffer"
  },
  {
   "property": "C167",
   "status": "proved",
   "theorems": [
    "Verif.Props.pw_found",
    "Verif.Props.pw_sound"
   ],
   "note": "with enough memory"
  },
  {
   "property": "C168",
   "status": "proved",
   "theorems": [
    "Verif.Props.closing_releases",
    "Verif.Props.connecting_succeeds"
   ],
   "note": ""
  },
  {
   "property": "C169",
   "status": "proved",
   "theorems": [
    "Verif.Props.failed_connect_releases"
   ],
   "note": ""
  },
  {
   "property": "C170",
   "status": "partial",
   "theorems": [
    "Verif.Props.failed_connect_releases_partial",
    "Verif.Props.failed_tls_connect_releases_false",
    "Verif.Props.failed_connect_releases_false",
    "Verif.Props.failed_libssh_connect_releases_false"
   ],
   "note": "false: a TLS handshake that fails leaves the socket open, and further cases; proved for all other failing steps"
  },
  {
   "property": "C171",
   "status": "proved",
   "theorems": [
    "Verif.Props.connecting_frees_once"
   ],
   "note": ""
  },
  {
   "property": "C172",
   "status": "partial",
   "theorems": [
    "Verif.Props.rejected_releases_partial",
    "Verif.Props.rejected_socket_closed_partial",
    "Verif.Props.rejected_releases_false"
   ],
   "note": "false: double close with Mbed TLS without memory, certificate and key left allocated if the library refuses them; proved for all other failing steps, and the socket is closed once except in that case"
  },
  {
   "property": "C173",
   "status": "partial",
   "theorems": [
    "Verif.Props.tls_parameters_partial",
    "Verif.Props.tls_parameters_used",
    "Verif.Props.tls_parameters_false",
    "Verif.Props.tls_ciphers_false"
   ],
   "note": "false: with Mbed TLS the parameters are overwritten by the defaults before the handshake; with OpenSSL a list of cipher suites that it does not take is ignored silently; proved for OpenSSL otherwise, gaps between configured versions are in C134"
  },
  {
   "property": "C174",
   "status": "proved",
   "theorems": [
    "Verif.Props.tls_peer_checked"
   ],
   "note": ""
  },
  {
   "property": "C175",
   "status": "partial",
   "theorems": [
    "Verif.Props.ssh_algorithms_partial",
    "Verif.Props.ssh_algorithms_used",
    "Verif.Props.ssh_unknown_algorithms_refused",
    "Verif.Props.ssh_algorithms_false"
   ],
   "note": "false: encryption and MAC are configured only for what the server sends, what the client sends is not restricted; proved for the others"
  },
  {
   "property": "C176",
   "status": "proved",
   "theorems": [
    "Verif.Props.prompt_restores",
    "Verif.Props.prompt_hidden"
   ],
   "note": ""
  },
  {
   "property": "C177",
   "status": "partial",
   "theorems": [
    "Verif.Props.prompt_text_partial",
    "Verif.Props.prompt_answers",
    "Verif.Props.prompt_written",
    "Verif.Props.prompt_text_false"
   ],
   "note": "false for lines of 2^30 characters and more (2^31 for keyboard-interactive), where the size of the buffer overflows; proved for all shorter ones"
  },
  {
   "property": "C178",
   "status": "partial",
   "theorems": [
    "Verif.Props.hostkey_files_removed_partial",
    "Verif.Props.hostkey_files_private",
    "Verif.Props.hostkey_files_removed_false"
   ],
   "note": "false without memory for the path, the key then stays in a file only its owner can read; proved otherwise"
  },
  {
   "property": "C179",
   "status": "partial",
   "theorems": [
    "Verif.Props.hostkeys_set_partial",
    "Verif.Props.hostkeys_all_used",
    "Verif.Props.hostkeys_accepted",
    "Verif.Props.hostkeys_set_false"
   ],
   "note": "false for several host keys of one type, of which only the last one is used; proved with one key of each type"
  },
  {
   "property": "C180",
   "status": "partial",
   "theorems": [
    "Verif.Props.callback_data_partial",
    "Verif.Props.callback_data_one_server",
    "Verif.Props.callback_data_false"
   ],
   "note": "false for data of the content-id callback if the server is initialised again: used after being freed and freed again; proved for all other programs"
  },
  {
   "property": "C181",
   "status": "partial",
   "theorems": [
    "Verif.Props.restart_partial",
    "Verif.Props.restart_numbers",
    "Verif.Props.restart_capability",
    "Verif.Props.restart_false"
   ],
   "note": "false: with-defaults modes and callbacks stay; proved for capabilities, session numbers, PAM and authorized keys settings and data of the keyboard-interactive callback"
  },
  {
   "property": "C182",
   "status": "partial",
   "theorems": [
    "Verif.Props.no_deadlock_partial",
    "Verif.Props.no_deadlock_false",
    "Verif.Props.lock_live_partial",
    "Verif.Props.lock_live_false",
    "Verif.Props.calls_return_partial",
    "Verif.Props.locks_exclusive"
   ],
   "note": "for all schedules of the modelled calls; false: nc_connect_ssh_channel that gets no channel keeps the lock for input and output, so other threads and its own next call wait for ever; missing: callbacks taking locks of the library, real time; loops run as often as an argument says, so finite executions are partly an assumption"
  },
  {
   "property": "C183",
   "status": "partial",
   "theorems": [
    "Verif.Props.config_race_partial",
    "Verif.Props.config_race_false",
    "Verif.Props.config_race_count_false"
   ],
   "note": "false: a Call Home thread reads the keystore, the truststore and referenced endpoints without config_lock, and nc_server_endpt_count reads without it; proved without these two; races on single memory accesses are not modelled"
  },
  {
   "property": "C184",
   "status": "partial",
   "theorems": [
    "Verif.Props.clients_race",
    "Verif.Props.client_race_partial",
    "Verif.Props.client_race_false"
   ],
   "note": "false: nc_server_ch_client_is_endpt reads endpoints without the lock of the client; proved without it, and for the array of clients with it"
  },
  {
   "property": "C185",
   "status": "partial",
   "theorems": [
    "Verif.Props.intervals_race_partial",
    "Verif.Props.intervals_race_false"
   ],
   "note": "false: the thread uses the pointer to the intervals after releasing their lock; proved only for systems without that thread"
  },
  {
   "property": "C186",
   "status": "partial",
   "theorems": [
    "Verif.Props.wait_silent",
    "Verif.Props.wait_data_partial",
    "Verif.Props.wait_failed",
    "Verif.Props.wait_last_data",
    "Verif.Props.wait_over",
    "Verif.Props.wait_data_false"
   ],
   "note": "false for a descriptor that is not open (POLLNVAL): it is reported to have something to read; proved for open ones; what poll and libssh report is given"
  },
  {
   "property": "C187",
   "status": "partial",
   "theorems": [
    "Verif.Props.connected_partial",
    "Verif.Props.not_connected_reason",
    "Verif.Props.connected_false"
   ],
   "note": "false for a descriptor that is not open (POLLNVAL); for SSH it is what libssh says; a peer that only closed its writing side is not reported by poll as hang-up"
  },
  {
   "property": "C188",
   "status": "proved",
   "theorems": [
    "Verif.Props.capability_found",
    "Verif.Props.capability_missing"
   ],
   "note": ""
  },
  {
   "property": "C189",
   "status": "partial",
   "theorems": [
    "Verif.Props.settings_shown_partial",
    "Verif.Props.settings_got_false"
   ],
   "note": "false when the certificate a getter gives is given back to change only the key: it is freed before it is copied; proved for arguments in memory of the caller or of other settings, and when the first of two texts can be copied; SSH keys are not modelled"
  },
  {
   "property": "C190",
   "status": "partial",
   "theorems": [
    "Verif.Props.settings_memory_partial",
    "Verif.Props.settings_memory_false"
   ],
   "note": "false when the first of two texts cannot be copied: the pointer to the freed second one stays and is freed again; proved otherwise"
  },
  {
   "property": "C191",
   "status": "partial",
   "theorems": [
    "Verif.Props.base64_fits",
    "Verif.Props.base64_strict",
    "Verif.Props.base64_rfc",
    "Verif.Props.base64_keeps_partial",
    "Verif.Props.base64_keeps_false"
   ],
   "note": "false: a zero byte follows for each padding character; OpenSSL only; EVP_DecodeBlock and EVP_EncodeBlock are modelled as documented; sizes do not wrap"
  },
  {
   "property": "C192",
   "status": "partial",
   "theorems": [
    "Verif.Props.reasons_partial",
    "Verif.Props.reasons_false"
   ],
   "note": "false for an error without a known reason (NULL); OpenSSL only"
  },
  {
   "property": "C193",
   "status": "proved",
   "theorems": [
    "Verif.Props.message_whole",
    "Verif.Props.message_output"
   ],
   "note": "the text made from format and arguments is given; output of several threads at once is not modelled"
  },
  {
   "property": "C194",
   "status": "partial",
   "theorems": [
    "Verif.Props.supported_listed",
    "Verif.Props.supported_usable_partial",
    "Verif.Props.supported_usable_false"
   ],
   "note": "false for triple-des-cbc, whose SSH name is 3des-cbc; SSH names are those of the descriptions in the YANG modules"
  },
  {
   "property": "C195",
   "status": "proved",
   "theorems": [
    "Verif.Props.server_ctx_ready",
    "Verif.Props.server_ctx_again",
    "Verif.Props.server_ctx_failed"
   ],
   "note": "loading a module is assumed to do what libyang documents"
  },
  {
   "property": "C196",
   "status": "proved",
   "theorems": [
    "Verif.Props.open_channel_within",
    "Verif.Props.open_channel_refused",
    "Verif.Props.no_limit_waits",
    "Verif.Props.handshake_within"
   ],
   "note": "one call of the library and one sleep take at most a given time; answers of the libraries are arguments; clock as in C43, C59"
  },
  {
   "property": "C197",
   "status": "partial",
   "theorems": [
    "Verif.Props.accept_within_partial",
    "Verif.Props.accept_ssh_ok",
    "Verif.Props.accept_within_false"
   ],
   "note": "false: the channel may take 1000 times the transport timeout (ms taken for s); limit for authentication not 0; keyboard-interactive authentication is C108"
  },
  {
   "property": "C198",
   "status": "proved",
   "theorems": [
    "Verif.Props.numbers_fit",
    "Verif.Props.chunk_header_fits"
   ],
   "note": "the types of the numbers are the bounds in the statement"
  },
  {
   "property": "C199",
   "status": "partial",
   "theorems": [
    "Verif.Props.texts_fit_partial",
    "Verif.Props.texts_fit_false"
   ],
   "note": "false: an error text of libssh of more than 230 characters (it keeps up to 1023, the reason of a disconnect sent by the peer among them) leaves msg[256]; so does a content identifier of more than 4012 characters of the application's callback str[4096]"
  },
  {
   "property": "C200",
   "status": "partial",
   "theorems": [
    "Verif.Props.tls_read_partial",
    "Verif.Props.tls_read_false",
    "Verif.Props.tls_io_status"
   ],
   "note": "false with Mbed TLS: a lost connection is taken for one without data (C79) and a session ticket of TLS 1.3 ends the session; what the libraries return for a cause is taken from their documentation"
  },
  {
   "property": "C201",
   "status": "proved",
   "theorems": [
    "Verif.Props.handshake_steps"
   ],
   "note": "what the libraries return is a parameter"
  },
  {
   "property": "C202",
   "status": "partial",
   "theorems": [
    "Verif.Props.close_notify_partial",
    "Verif.Props.close_notify_false"
   ],
   "note": "false with Mbed TLS: while send fails (peer does not read, or connection lost after the check) the loop never ends"
  },
  {
   "property": "C203",
   "status": "partial",
   "theorems": [
    "Verif.Props.converted_whole_partial",
    "Verif.Props.converted_whole_false"
   ],
   "note": "false: an empty distinguished name is an error"
  },
  {
   "property": "C204",
   "status": "partial",
   "theorems": [
    "Verif.Props.mbed_base64_partial",
    "Verif.Props.mbed_base64_false"
   ],
   "note": "false: nothing to convert is refused and an incomplete last group is dropped silently"
  },
  {
   "property": "C205",
   "status": "proved",
   "theorems": [
    "Verif.Props.dialog",
    "Verif.Props.dialog_completes"
   ],
   "note": "assumes that libyang reads what it printed, that messages can be framed (C02, C03 for NETCONF 1.0), one sending thread (C09) and a connection that takes what is written; the connection may break while reading, which ends the exchange"
  },
  {
   "property": "C206",
   "status": "proved",
   "theorems": [
    "Verif.Props.tls_objects"
   ],
   "note": "memory of Mbed TLS itself is one flag per structure"
  },
  {
   "property": "C207",
   "status": "partial",
   "theorems": [
    "Verif.Props.tls_keys_partial",
    "Verif.Props.tls_keys_false"
   ],
   "note": "false when only the second allocation of the random number generator fails: mbedtls_entropy_free is given memory that was not initialised; proved otherwise"
  },
  {
   "property": "C208",
   "status": "partial",
   "theorems": [
    "Verif.Props.key_params_partial",
    "Verif.Props.key_params_false"
   ],
   "note": "false when some allocations succeed and others fail: the fail labels free structures that were not initialised; proved otherwise"
  },
  {
   "property": "C209",
   "status": "proved",
   "theorems": [
    "Verif.Props.verify_chain"
   ],
   "note": "assumes one verification per handshake data (no renegotiation), the callbacks in the order of Mbed TLS, and that its error texts are not empty; afterwards the pointer to the chain dangles but is not used again"
  },
  {
   "property": "C210",
   "status": "partial",
   "theorems": [
    "Verif.Props.key_format_partial",
    "Verif.Props.key_format_false"
   ],
   "note": "the SSH half holds; for TLS an error of the test (-1) counts as the right format"
  },
  {
   "property": "C211",
   "status": "partial",
   "theorems": [
    "Verif.Props.compat_keys_partial",
    "Verif.Props.compat_keys_false"
   ],
   "note": "false: lines of 255 characters (every RSA key) are copied to NULL, an empty line makes the file invalid, the comment of a long line can be read as a key; proved for short lines with white space or a comment sign"
  },
  {
   "property": "C212",
   "status": "partial",
   "theorems": [
    "Verif.Props.compat_files_partial",
    "Verif.Props.compat_files_false"
   ],
   "note": "false: the replacement removes the line end that all expected first lines have, so no private key file is accepted at all; proved for public keys in the OpenSSH format"
  },
  {
   "property": "C213",
   "status": "proved",
   "theorems": [
    "Verif.Props.strndup_copy"
   ],
   "note": ""
  },
  {
   "property": "C214",
   "status": "partial",
   "theorems": [
    "Verif.Props.compat_password_partial",
    "Verif.Props.compat_password_false"
   ],
   "note": "false: the static buffer of crypt is compared outside of the lock; proved when no other hash is computed in between, and always that some offered password was right"
  },
  {
   "property": "C215",
   "status": "partial",
   "theorems": [
    "Verif.Props.compat_timegm_partial",
    "Verif.Props.compat_timegm_false"
   ],
   "note": "false: TZ is UTC for all threads during the call (its lock is a local variable) and lost without memory; proved: the result and TZ afterwards"
  },
  {
   "property": "C216",
   "status": "proved",
   "theorems": [
    "Verif.Props.timed_lock"
   ],
   "note": "that the clock advances by the requested sleeps is a hypothesis for the end only"
  },
  {
   "property": "C217",
   "status": "partial",
   "theorems": [
    "Verif.Props.compat_clock_partial",
    "Verif.Props.compat_clock_false"
   ],
   "note": "false with pthread_mutex_clocklock and a monotonic clock but without pthread_cond_clockwait: waits end at once; proved for all other combinations, and for mutexes always"
  },
  {
   "property": "C218",
   "status": "partial",
   "theorems": [
    "Verif.Props.ssh_login_configured_partial",
    "Verif.Props.ssh_login_all_methods_partial",
    "Verif.Props.ssh_login_removed",
    "Verif.Props.ssh_login_configured_false"
   ],
   "note": "false: a user whose use of the system keys was removed by a diff still logs in with them; proved for all diffs without the changes that are not followed (C131). One method that succeeds twice counts as two (C33)"
  },
  {
   "property": "C219",
   "status": "partial",
   "theorems": [
    "Verif.Props.ssh_login_possible_partial",
    "Verif.Props.ssh_login_possible_false"
   ],
   "note": "false: removing the truststore reference of a user by a diff leaves NULL that authentication uses; proved for all diffs without the changes that are not followed (C131). The session times out or is closed in no way by the messages considered"
  },
  {
   "property": "C220",
   "status": "partial",
   "theorems": [
    "Verif.Props.tls_login_configured_partial",
    "Verif.Props.tls_login_configured_mbedtls_partial",
    "Verif.Props.tls_login_nobody",
    "Verif.Props.tls_login_configured_false"
   ],
   "note": "false: a user name changed in a cert-to-name entry by a diff stays the old one, and OpenSSL errors above the certificate of the client are ignored (C36); proved for diffs without the changes that are not followed (C133, C135) and, with OpenSSL, chains without such errors"
  },
  {
   "property": "C221",
   "status": "partial",
   "theorems": [
    "Verif.Props.tls_login_possible_partial",
    "Verif.Props.tls_login_possible_mbedtls_partial",
    "Verif.Props.tls_login_possible_false"
   ],
   "note": "false: certificates instead of a bag of the truststore leave a NULL name that the next connection uses; proved for diffs without the changes that are not followed, bags that exist and certificates that can be read"
  },
  {
   "property": "C222",
   "status": "proved",
   "theorems": [
    "Verif.Props.one_request_at_a_time",
    "Verif.Props.threads_go_on"
   ],
   "note": "all interleavings of the steps between two uses of the session; weak memory effects are not in the model (see the trusted base)"
  },
  {
   "property": "C223",
   "status": "partial",
   "theorems": [
    "Verif.Props.messages_not_mixed_partial",
    "Verif.Props.messages_not_mixed_false"
   ],
   "note": "false: a write error on a UNIX socket or file descriptor does not end the session, and the next message is appended to the torn one; proved if every write error ends the session and nobody makes a dead session usable again"
  },
  {
   "property": "C224",
   "status": "partial",
   "theorems": [
    "Verif.Props.threads_answer_all_partial",
    "Verif.Props.threads_answer_all_false",
    "Verif.Props.threads_serve",
    "Verif.Props.session_goes_on"
   ],
   "note": "false: the reply is dropped, and the session runs on, if another thread holds the IO lock for longer than the timeout of nc_ps_poll; proved if the lock is available in time, every write error ends the session and nobody makes a dead session usable again"
  },
  {
   "property": "C225",
   "status": "partial",
   "theorems": [
    "Verif.Props.tls_identity_partial",
    "Verif.Props.tls_identity_false"
   ],
   "note": "false: a certificate removed from an endpoint by a diff is still shown; proved for diffs without the changes that are not followed (C129, C133)"
  },
  {
   "property": "C226",
   "status": "partial",
   "theorems": [
    "Verif.Props.ssh_identity_partial",
    "Verif.Props.ssh_identity_false",
    "Verif.Props.ssh_identity_ub"
   ],
   "note": "false: of two host keys of one type only one is shown, and a key instead of a reference to the keystore leaves a NULL name that every later connection uses; proved for diffs without the changes that are not followed (C129, C132)"
  },
  {
   "property": "C227",
   "status": "proved",
   "theorems": [
    "Verif.Props.values_stored",
    "Verif.Props.values_lacking",
    "Verif.Props.add_succeeds"
   ],
   "note": "whether libyang takes a value is a parameter; names with apostrophes: see C110"
  },
  {
   "property": "C228",
   "status": "partial",
   "theorems": [
    "Verif.Props.notif_copy_partial",
    "Verif.Props.notif_given_partial",
    "Verif.Props.notif_refused",
    "Verif.Props.notif_copy_leak_false",
    "Verif.Props.notif_opaque_false",
    "Verif.Props.notif_no_time_false"
   ],
   "note": "false: without memory for the copy of the event the copy of the time is leaked, without memory for the copy of the time there is an object that cannot be sent, and the schema of an opaque node before the notification is read though it is NULL; proved otherwise"
  },
  {
   "property": "C229",
   "status": "partial",
   "theorems": [
    "Verif.Props.notif_subscribers",
    "Verif.Props.notif_time_partial",
    "Verif.Props.notif_time_false"
   ],
   "note": "false for times with markup, which is not escaped; proved for other times"
  },
  {
   "property": "C230",
   "status": "partial",
   "theorems": [
    "Verif.Props.notif_thread_partial",
    "Verif.Props.notif_thread_broken"
   ],
   "note": "missing: failures of the transport met by another thread; messages with a namespace prefix or an unusual comment, see C31; parsing is a parameter; how long a round takes is not modelled"
  },
  {
   "property": "C231",
   "status": "partial",
   "theorems": [
    "Verif.Props.notif_session_partial",
    "Verif.Props.notif_free_ends",
    "Verif.Props.notif_free_at_once",
    "Verif.Props.notif_session_timeout_false",
    "Verif.Props.notif_session_refused_false"
   ],
   "note": "false: nc_session_free gives up waiting after a time, and a thread that cannot be made resets the flag of another dispatch; proved without these two; relaxed memory order is not modelled, steps are atomic"
  },
  {
   "property": "C232",
   "status": "partial",
   "theorems": [
    "Verif.Props.notif_data",
    "Verif.Props.notif_data_freed",
    "Verif.Props.notif_data_late_false"
   ],
   "note": "false: the thread is not counted any more when it frees the data, so that nc_session_free may return before; the rest is proved for every run; steps are atomic"
  },
  {
   "property": "C233",
   "status": "partial",
   "theorems": [
    "Verif.Props.tls_server_wanted",
    "Verif.Props.callhome_server_wanted_partial",
    "Verif.Props.callhome_tls_only",
    "Verif.Props.callhome_server_wanted_false"
   ],
   "note": "proved for nc_connect_tls; false for Call Home binds with an empty name under OpenSSL, which is not checked; chains found by the libraries are assumed to be chains, and the peer to prove its key in the handshake"
  },
  {
   "property": "C234",
   "status": "partial",
   "theorems": [
    "Verif.Props.tls_server_accepted_partial",
    "Verif.Props.callhome_server_accepted",
    "Verif.Props.tls_server_accepted_false"
   ],
   "note": "false with OpenSSL for certificates for addresses, which are compared as host names only, and for configured certificates that are not self-signed; proved otherwise, also with revocation lists in order"
  },
  {
   "property": "C235",
   "status": "partial",
   "theorems": [
    "Verif.Props.tls_revoked_refused_partial",
    "Verif.Props.tls_revoked_refused_false"
   ],
   "note": "false: lists named only by the certificate of the server, or with OpenSSL by an authority in the directory, are never fetched; proved for the others if failing downloads give no data and, with OpenSSL, there is one list of an issuer"
  },
  {
   "property": "C236",
   "status": "partial",
   "theorems": [
    "Verif.Props.tls_client_identity_partial",
    "Verif.Props.tls_client_identity_false"
   ],
   "note": "false: without a key file there is never a session, though it is documented; proved otherwise"
  },
  {
   "property": "C237",
   "status": "partial",
   "theorems": [
    "Verif.Props.ssh_agree_partial",
    "Verif.Props.ssh_agree_false"
   ],
   "note": "false: if a private key cannot be read after the server has accepted its public key, the client reports success without being authenticated; proved for readable key pairs; timeouts and lost connections are not modelled"
  },
  {
   "property": "C238",
   "status": "partial",
   "theorems": [
    "Verif.Props.ssh_user_in_partial",
    "Verif.Props.ssh_system_in_partial",
    "Verif.Props.ssh_user_in_false",
    "Verif.Props.ssh_system_in_false"
   ],
   "note": "false: passwords and keys preferred by 0 are never tried, a client without a password fails before trying its key; proved with preferences above 0 and, for system users, with some password and readable key pairs"
  },
  {
   "property": "C239",
   "status": "partial",
   "theorems": [
    "Verif.Props.tells_peer_partial",
    "Verif.Props.tells_peer_false",
    "Verif.Props.sessions_made",
    "Verif.Props.tells_apart_partial",
    "Verif.Props.tells_apart_false",
    "Verif.Props.channel_safe_partial",
    "Verif.Props.channel_safe_false",
    "Verif.Props.tells_path_partial",
    "Verif.Props.tells_path_false"
   ],
   "note": "false: a pending Call Home connection with the file descriptor 0 has no host, and a second SSH session on it copies a null pointer; peers with the same link-local address in different zones are told alike; sessions of a server over a UNIX socket have no path (it is the host); proved for all else; a libssh session given by the application has the host the application set"
  },
  {
   "property": "C240",
   "status": "partial",
   "theorems": [
    "Verif.Props.listen_exact",
    "Verif.Props.listen_available_partial",
    "Verif.Props.listen_available_false",
    "Verif.Props.client_reaches_listener"
   ],
   "note": "false: addresses with a zone, which the YANG module allows, cannot be listened at; proved for addresses without"
  },
  {
   "property": "C241",
   "status": "proved",
   "theorems": [
    "Verif.Props.home_from_source",
    "Verif.Props.home_available"
   ],
   "note": ""
  },
  {
   "property": "C242",
   "status": "partial",
   "theorems": [
    "Verif.Props.tls_mutual_partial",
    "Verif.Props.tls_mutual_false",
    "Verif.Props.tls_server_memory_partial",
    "Verif.Props.tls_layer_agree_partial",
    "Verif.Props.tls_layer_agree_false"
   ],
   "note": "false: a server whose certificate was removed by a diff still shows it, and with TLS 1.3 the client is done with the handshake though the server refuses it (its hello then fails); proved for diffs without the changes that are not followed and, with OpenSSL at the server, chains in which nothing above the certificate of the client fails, and without Call Home with an empty name and OpenSSL; agreement proved with TLS 1.2, and from the server to the client with TLS 1.3; timeouts and lost connections are not modelled"
  },
  {
   "property": "C243",
   "status": "partial",
   "theorems": [
    "Verif.Props.tls_both_succeed_partial",
    "Verif.Props.tls_both_succeed_false"
   ],
   "note": "false: after certificates were given instead of a bag of the truststore by a diff the server uses memory that is no name; proved for diffs without such changes and hosts that OpenSSL (no addresses) and Mbed TLS (at most 255 characters) can check"
  },
  {
   "property": "C244",
   "status": "partial",
   "theorems": [
    "Verif.Props.functions_listen_partial",
    "Verif.Props.functions_succeed",
    "Verif.Props.functions_listen_false"
   ],
   "note": "false: an endpoint for TLS that is given an address and a port for SSH keeps both transports, and the server serves TLS; proved if no endpoint is given another transport while it has one, and if the operating system lets the server listen; names without apostrophes"
  },
  {
   "property": "C245",
   "status": "proved",
   "theorems": [
    "Verif.Props.function_users_login",
    "Verif.Props.user_function_succeeds",
    "Verif.Props.function_user_deleted"
   ],
   "note": "one endpoint without reference to another one, main transport (not Call Home), names without apostrophes, keys in the format of SSH (one in the other format the server refuses); keys and hashes are given as texts; that a client does not get a wrong signature past libssh and then goes on (NoWrongSig) as in C70; the container public-keys, the host keys and the truststore as in the trusted base"
  },
  {
   "property": "C246",
   "status": "partial",
   "theorems": [
    "Verif.Props.tls_functions_set_up",
    "Verif.Props.function_certs_login_partial",
    "Verif.Props.function_certs_login_false",
    "Verif.Props.function_certs_login_mbedtls",
    "Verif.Props.function_certs_possible",
    "Verif.Props.function_certs_possible_mbedtls",
    "Verif.Props.tls_function_succeeds"
   ],
   "note": "with OpenSSL, errors above the certificate of the client are ignored (function_certs_login_false, as in C36), so there the theorem is for clients without them; with Mbed TLS and for the other direction there is no such restriction; main transport (not Call Home); each endpoint has an identity, inline keys are in a known format with a public key as SubjectPublicKeyInfo (FromFiles); fingerprints have an octet behind that of the algorithm (FpsOk); names without apostrophes; the functions that delete all certificates or entries at once are left out; a fingerprint that is not given again stays as it was"
  },
  {
   "property": "C247",
   "status": "partial",
   "theorems": [
    "Verif.Props.store_functions_set_up",
    "Verif.Props.store_identity",
    "Verif.Props.store_bag",
    "Verif.Props.store_certs_login_partial",
    "Verif.Props.store_certs_login_false",
    "Verif.Props.store_certs_login_mbedtls",
    "Verif.Props.store_certs_possible",
    "Verif.Props.store_certs_possible_mbedtls",
    "Verif.Props.store_users_login",
    "Verif.Props.store_function_succeeds",
    "Verif.Props.store_function_succeeds_ssh",
    "Verif.Props.store_first_false"
   ],
   "note": "on data without the container of the server the functions fail, against their documentation (store_first_false); with OpenSSL, errors above the certificate of the client are ignored (store_certs_login_false, as in C36), so there the theorem is for clients without them, with Mbed TLS and for the other direction there is no such restriction; functions for TLS endpoints and for users of one SSH endpoint of the main transport, not both in one sequence; every key of the keystore that a certificate was given for was given itself (Store.paired), in a known format; names without apostrophes; the functions that delete everything at once are left out"
  },
  {
   "property": "C248",
   "status": "partial",
   "theorems": [
    "Verif.Props.ssh_functions_login",
    "Verif.Props.ssh_functions_identity_partial",
    "Verif.Props.ssh_functions_identity_false",
    "Verif.Props.host_function_succeeds",
    "Verif.Props.user_function_succeeds_host",
    "Verif.Props.store_function_succeeds_host"
   ],
   "note": "of several host keys of one type only one is shown (ssh_functions_identity_false, as in C226); calls for one SSH endpoint of the main transport and for the stores; each host key has keys or a reference at the end, and every key of the keystore was given itself, in a known format; names without apostrophes; the functions that delete everything at once are left out"
  },
  {
   "property": "C249",
   "status": "partial",
   "theorems": [
    "Verif.Props.functions_call_home_partial",
    "Verif.Props.functions_call_home_false",
    "Verif.Props.ch_function_succeeds"
   ],
   "note": "an endpoint given another transport while it has one keeps both in the data and is served with TLS (functions_call_home_false, cause in C111); proved if that does not occur; each client left has a connection type; names without apostrophes; clients are only removed by the new data if the application has set its callbacks; the functions that delete everything at once are left out"
  },
  {
   "property": "C250",
   "status": "partial",
   "theorems": [
    "Verif.Props.accepted_socket_options",
    "Verif.Props.accepted_if_settable",
    "Verif.Props.accepted_keepalives_partial",
    "Verif.Props.call_home_options_partial",
    "Verif.Props.call_home_options_false",
    "Verif.Props.client_keepalives_partial",
    "Verif.Props.client_keepalives_false"
   ],
   "note": "false: a Call Home connection established in a later attempt than it was started in has no TCP_NODELAY (call_home_options_false); a client has no keepalives in threads other than the main one (client_keepalives_false); the server's are those of the configuration unless they were removed from it (C137); that a socket does what its options say is the operating system's part"
  },
  {
   "property": "C251",
   "status": "partial",
   "theorems": [
    "Verif.Props.handler_partial",
    "Verif.Props.handler_known",
    "Verif.Props.handler_called",
    "Verif.Props.handler_false"
   ],
   "note": "false: a global callback set after a session was accepted in a context does not get get-schema and close-session there, contrary to its documentation; if it is removed, they are not supported until the next session (handler_false and the example beside it); proved for all other operations, for operations with a callback of their own, and for these two if nothing is taken away or changed globally while there are sessions"
  },
  {
   "property": "C252",
   "status": "partial",
   "theorems": [
    "Verif.Props.ch_context_covers",
    "Verif.Props.ch_context_released_partial",
    "Verif.Props.ch_context_released_false",
    "Verif.Props.ch_session_owner",
    "Verif.Props.ch_session_given",
    "Verif.Props.ch_session_offered",
    "Verif.Props.ch_session_freed_partial",
    "Verif.Props.ch_session_freed_false"
   ],
   "note": "false: a thread told to stop just after a session was established neither gives it to the application nor frees it, and its context is never given back (ch_context_released_false); a thread that ends because its client was removed writes a message with the session it gave to the application, which may have freed it (ch_session_freed_false); proved otherwise. The time limit of nc_session_free waiting for the thread is left out of the model"
  },
  {
   "property": "C253",
   "status": "partial",
   "theorems": [
    "Verif.Props.ch_threads_partial",
    "Verif.Props.ch_threads_all",
    "Verif.Props.ch_threads_false",
    "Verif.Props.ch_threads_automatic",
    "Verif.Props.ch_delete_partial",
    "Verif.Props.ch_delete_false",
    "Verif.Props.ch_dispatch_result"
   ],
   "note": "false: a client for which a thread is dispatched twice, for instance automatically and by the application, is called by two threads, and when it is deleted one of them goes on, also for a later client of its name (ch_threads_false, ch_threads_all); deleting a client that has no thread, because no callbacks were set or no thread could be created, reads NULL (ch_delete_false, ch_delete_partial); proved if callbacks are set before the first client is created and the application dispatches no thread itself, and more generally. That threads end by themselves is not modelled here (C89)"
  },
  {
   "property": "C254",
   "status": "partial",
   "theorems": [
    "Verif.Props.cert_data_freed",
    "Verif.Props.cert_one_thread_partial",
    "Verif.Props.cert_one_thread_false",
    "Verif.Props.cert_stop_ends",
    "Verif.Props.cert_start_partial",
    "Verif.Props.cert_start_false",
    "Verif.Props.cert_stop_defined_partial",
    "Verif.Props.cert_stop_defined_false"
   ],
   "note": "false: after a stop that does not wait, a start before the old thread has looked at the flag lets both run (cert_one_thread_false); a start that cannot create its thread leaves the flag set, so that later starts fail (cert_start_false) and a stop joins a thread that never was (cert_stop_defined_false); a thread that ended by itself keeps later ones from starting until a stop; proved otherwise. How long a stop waits is not modelled (see the claims of Model/CertExp)"
  },
  {
   "property": "C255",
   "status": "partial",
   "theorems": [
    "Verif.Props.ch_free_partial",
    "Verif.Props.ch_free_false",
    "Verif.Props.ch_free_ends",
    "Verif.Props.ch_free_starts",
    "Verif.Props.ch_wait_ends",
    "Verif.Props.ch_wait_result",
    "Verif.Props.ch_wait_leaves"
   ],
   "note": "false: if the thread is not run for a second after it was woken up, nc_session_free gives up waiting, frees the session all the same, and the thread then locks its mutex (ch_free_false); proved for all interleavings in which that wait does not end because its time is up. That the scheduler runs a thread that is awake is not modelled; nor is the message after the wait (see C252)"
  },
  {
   "property": "C256",
   "status": "partial",
   "theorems": [
    "Verif.Props.channel_given",
    "Verif.Props.channel_waits",
    "Verif.Props.channel_once",
    "Verif.Props.channel_ready",
    "Verif.Props.channel_open",
    "Verif.Props.channel_free",
    "Verif.Props.channel_closed_partial",
    "Verif.Props.channel_closed_false",
    "Verif.Props.channel_tried_partial",
    "Verif.Props.channel_tried_false",
    "Verif.Props.channel_threads_partial",
    "Verif.Props.channel_threads_false"
   ],
   "note": "false: if the peer closes a further channel during its handshake, the session becomes invalid and stays in the ring without an owner, so that the connection is never closed (channel_closed_false); a channel without a proper hello stays the first to be accepted and keeps the others from it for ever (channel_tried_false); proved if no handshake ends that way. The channel waits until its handshake has ended, so that two threads accepting at the same time are given the same session (channel_threads_false). One connection; other interleavings of threads are not modelled"
  },
  {
   "property": "C257",
   "status": "proved",
   "theorems": [
    "Verif.Props.pam_accepted",
    "Verif.Props.pam_order",
    "Verif.Props.pam_ended"
   ],
   "note": ""
  },
  {
   "property": "C258",
   "status": "partial",
   "theorems": [
    "Verif.Props.mount_context",
    "Verif.Props.mount_data_partial",
    "Verif.Props.mount_data_false",
    "Verif.Props.mount_kept",
    "Verif.Props.mount_received",
    "Verif.Props.mount_assert_partial",
    "Verif.Props.mount_assert_false"
   ],
   "note": "one thread; without assertions schema-mount data can be lost, with them the process can abort, if contexts of the library and of the application are mixed on one connection"
  }
 ]
}