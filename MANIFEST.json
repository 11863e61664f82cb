{"claims": [
 {"property": "C01", "status": "proved", "theorems": ["Pound.Props.C01_content_length", "Pound.Props.C01_chunk_size", "Pound.Props.C01_refused_otherwise"], "note": ""},
 {"property": "C02", "status": "partial", "theorems": ["Pound.Props.C02_chunked_sound_partial", "Pound.Props.C02_chunked_complete", "Pound.Props.C02_terminates", "Pound.Props.C02_strict_framing_fails"], "note": "The code accepts and relays text between the data of a chunk and the end of that line (C02_strict_framing_fails); soundness is proved against the chunked grammar with that laxness."},
 {"property": "C03", "status": "proved", "theorems": ["Pound.Props.C03_fixed_length"], "note": ""},
 {"property": "C04", "status": "proved", "theorems": ["Pound.Props.C04_line_exact", "Pound.Props.C04_no_control", "Pound.Props.C04_fits", "Pound.Props.C04_resync", "Pound.Props.C04_tooLong_only_if"], "note": ""},
 {"property": "C05", "status": "proved", "theorems": ["Pound.Props.C05_accepted_framing", "Pound.Props.C05_ambiguous_refused", "Pound.Props.C05_unambiguous", "Pound.Props.C05_clauses"], "note": "Stated on the header list as read (well-formed lines, combinable headers merged)."},
 {"property": "C06", "status": "proved", "theorems": ["Pound.Props.C06_accepted_iff", "Pound.Props.C06_not_allowed_iff", "Pound.Props.C06_else_bad_request", "Pound.Props.C06_rebuilt_line_reads_back"], "note": ""},
 {"property": "C07", "status": "partial", "theorems": ["Pound.Props.C07_split_partial", "Pound.Props.C07_first_qmark_fails", "Pound.Props.C07_lossless", "Pound.Props.C07_reassemble", "Pound.Props.C07_reading_is_pure", "Pound.Props.C07_views_agree", "Pound.Props.C07_line_is_current"], "note": "A URI with several question marks is cut at the last one (C07_first_qmark_fails); everything else is proved for all URIs and edit histories."},
 {"property": "C08", "status": "proved", "theorems": ["Pound.Props.C08_parse_exact", "Pound.Props.C08_params_of_uri", "Pound.Props.C08_params_of_query", "Pound.Props.C08_get_set", "Pound.Props.C08_others", "Pound.Props.C08_get_other", "Pound.Props.C08_order", "Pound.Props.C08_remove", "Pound.Props.C08_history", "Pound.Props.C08_wire", "Pound.Props.C08_rebuild"], "note": ""},
 {"property": "C09", "status": "partial", "theorems": ["Pound.Props.C09_add", "Pound.Props.C09_fields", "Pound.Props.C09_malformed_partial", "Pound.Props.C09_malformed_fails"], "note": "Text consisting only of the name of an existing header, without colon, damages that header or reads out of bounds (C09_malformed_fails); other malformed text is proved to change nothing, and the effect of well-formed text is proved in full."},
 {"property": "C10", "status": "proved", "theorems": ["Pound.Props.C10_found_iff", "Pound.Props.C10_not_found_iff"], "note": "Stated for non-empty tokens, the only ones used."},
 {"property": "C11", "status": "partial", "theorems": ["Pound.Props.C11_no_injection", "Pound.Props.C11_decodes_partial", "Pound.Props.C11_nonascii_fails"], "note": "Every byte that is not allowed in a URL is percent-encoded, so no line can be injected (full); decoding gives back the target only if it has no non-ASCII bytes, which are printed sign-extended (C11_nonascii_fails)."},
 {"property": "C12", "status": "partial", "theorems": ["Pound.Props.C12_expand_partial", "Pound.Props.C12_expand_noreq_partial", "Pound.Props.C12_text_verbatim", "Pound.Props.C12_percent_fails", "Pound.Props.C12_trailing_sign_fails", "Pound.Props.C12_group_bound_fails", "Pound.Props.C12_accessor_blank_fails", "Pound.Props.C12_no_query_fails", "Pound.Props.C12_huge_number_fails", "Pound.Props.C12_host_ipv6_fails"], "note": "Proved for all templates outside a few constructs on which the code deviates; each of these has a concrete counterexample (the _fails theorems)."},
 {"property": "C13", "status": "proved", "theorems": ["Pound.Props.C13_history", "Pound.Props.C13_only_matches_fails"], "note": "The property is proved for all histories. Side finding: what is recorded includes matches that failed (C13_only_matches_fails)."},
 {"property": "C14", "status": "partial", "theorems": ["Pound.Props.C14_evaluates_partial", "Pound.Props.C14_truth", "Pound.Props.C14_error_never_matches", "Pound.Props.C14_empty_or_fails", "Pound.Props.C14_no_query_fails"], "note": "Two disagreements: an OR without operands (a names file without lines) holds (C14_empty_or_fails) and a query test on a request without a query hands a null pointer to the matcher (C14_no_query_fails). Trees without these are proved to evaluate as the formula, left to right, with short circuit and error propagation. Pattern matching, access lists, passwords and certificates are parameters."},
 {"property": "C15", "status": "proved", "theorems": ["Pound.Props.C15_first_service", "Pound.Props.C15_definite"], "note": "Conditions as in C14."},
 {"property": "C16", "status": "partial", "theorems": ["Pound.Props.C16_rewrite_partial", "Pound.Props.C16_response_partial"], "note": "Proved for conditions as in C14 and templates as in C12; setting a header from text that is only the name of an existing header is excluded (see C09). Responses: C16_response_partial."},
 {"property": "C17", "status": "proved", "theorems": ["Pound.Props.C17_lookup", "Pound.Props.C17_table", "Pound.Props.C17_extends"], "note": "Clock assumed not to go back; OpenSSL's hash table is modelled as a map."},
 {"property": "C18", "status": "proved", "theorems": ["Pound.Props.C18_armed", "Pound.Props.C18_collected"], "note": "For the first 2^64 jobs. Composition of session table and timer, with every interleaving of session operations, timer wake-ups and job threads."},
 {"property": "C19", "status": "partial", "theorems": ["Pound.Props.C19_sorted", "Pound.Props.C19_fresh", "Pound.Props.C19_due_time", "Pound.Props.C19_started", "Pound.Props.C19_earliest_first", "Pound.Props.C19_not_missed", "Pound.Props.C19_none_lost", "Pound.Props.C19_cancel_partial", "Pound.Props.C19_late_cancel_fails"], "note": "A job cancelled after it became due, but before the timer thread got the mutex back, is still run (C19_late_cancel_fails); a job cancelled before its time is proved never to run. Everything else is proved in full."},
 {"property": "C20", "status": "partial", "theorems": ["Pound.Props.C20_selected_active", "Pound.Props.C20_fails_only_without", "Pound.Props.C20_no_ub", "Pound.Props.C20_found_partial", "Pound.Props.C20_weights", "Pound.Props.C20_emergency_fails", "Pound.Props.C20_zero_priority_fails", "Pound.Props.C20_endless_fails", "Pound.Props.C20_found_exactly"], "note": "A selected backend is proved active in all cases. Finding one is proved when weighted round robin over several backends occurs only in the last group and priorities are positive; otherwise the selection does not end when it comes to such a group with no backend that can be used (C20_emergency_fails, in general C20_endless_fails; C20_found_exactly says when it ends and when not) or find nothing (C20_zero_priority_fails). random() is a parameter (any list of numbers with a usable one)."},
 {"property": "C21", "status": "partial", "theorems": ["Pound.Props.C21_active", "Pound.Props.C21_redraw", "Pound.Props.C21_counts", "Pound.Props.C21_share_partial", "Pound.Props.C21_uniform_fails", "Pound.Props.C21_requests"], "note": "Exact on every block of consecutive numbers; over the whole range of random() the shares deviate by less than one block (C21_uniform_fails). C21_requests says it of the requests to a service, without a session, when no backend of the groups before can be used."},
 {"property": "C22", "status": "proved", "theorems": ["Pound.Props.C22_fair", "Pound.Props.C22_terminates", "Pound.Props.C22_requests", "Pound.Props.C22_traffic", "Pound.Props.C22_any_number"], "note": "From any state, any number of cycles; C22_requests says it of the requests to a service, without a session, when the groups before hold single backends that cannot be used. C22_traffic says it of the requests without a session among requests of all kinds, C22_any_number for any number of them."},
 {"property": "C23", "status": "partial", "theorems": ["Pound.Props.C23_totals_partial", "Pound.Props.C23_recompute", "Pound.Props.C23_believes_partial", "Pound.Props.C23_state", "Pound.Props.C23_probed", "Pound.Props.C23_race_fails"], "note": "All histories of atomic events; marking a backend alive again is not atomic in the code, and the numbers can go wrong (C23_race_fails). A dead backend is probed again for as long as it is dead (C23_probed)."},
 {"property": "C24", "status": "partial", "theorems": ["Pound.Props.C24_sticky_partial", "Pound.Props.C24_sticky_enabled_partial", "Pound.Props.C24_without_key", "Pound.Props.C24_new_session_partial", "Pound.Props.C24_kill", "Pound.Props.C24_disable", "Pound.Props.C24_key", "Pound.Props.C24_response_key", "Pound.Props.C24_set_cookie_fails", "Pound.Props.C24_long_key_fails", "Pound.Props.C24_disabled_fails", "Pound.Props.C24_late_response_fails", "Pound.Props.C24_history_partial"], "note": "A disabled backend with a session and no other active one gives 503 (C24_disabled_fails); a late response creates a session with a dead backend (C24_late_response_fails). The rest is proved for all reachable states, and over whole histories: from a request that was given a backend to any later one with its key (C24_history_partial). The response that sets the session cookie creates no session (the header looked for is Cookie), so the next request may go to another backend; keys are cut to 127 bytes."},
 {"property": "C25", "status": "partial", "theorems": ["Pound.Props.C25_switch_partial", "Pound.Props.C25_unique", "Pound.Props.C25_list", "Pound.Props.C25_service", "Pound.Props.C25_sessions_partial", "Pound.Props.C25_effect", "Pound.Props.C25_never_lost", "Pound.Props.C25_flag", "Pound.Props.C25_global_fails", "Pound.Props.C25_empty_segment_fails", "Pound.Props.C25_negative_fails", "Pound.Props.C25_other_fails", "Pound.Props.C25_no_table_fails", "Pound.Props.C25_session_path_fails"], "note": "For every configuration with distinct backends: paths resolve to the designated object only; the flag or session change is exact; whatever requests are made, what serves the control interface keeps its state. Priorities and generated backends are in Balance/Dynbe, not here. Findings: an empty segment (trailing slash) means index 0, -4294967296 means 0, DELETE of the whole configuration dereferences NULL, other kinds of backends report success without effect, session requests ignore further segments, and a session request about a service made by a Control or ACME statement dereferences NULL, because such services have no table of sessions (C25_no_table_fails; C25_sessions_partial is about the others)."},
 {"property": "C26", "status": "partial", "theorems": ["Pound.Props.C26_dispatch_partial", "Pound.Props.C26_refused_partial", "Pound.Props.C26_listed", "Pound.Props.C26_wrong_method_fails", "Pound.Props.C26_unknown_fails", "Pound.Props.C26_refused_effect_fails", "Pound.Props.C26_undefined_fails"], "note": "Dispatch to the longest listed prefix with the method, for every path. Findings: since the empty URI is listed for GET, unknown paths and wrong methods are answered with the full list (GET) or 400 (others), never 404; a refused indent still has its effect; two requests have undefined outcome."},
 {"property": "C27", "status": "partial", "theorems": ["Pound.Props.C27_parent", "Pound.Props.C27_listing", "Pound.Props.C27_session_partial", "Pound.Props.C27_session_roundtrip_partial", "Pound.Props.C27_session_fails"], "note": "Listing complete, in the order used for addressing; parent index always right; session index right for backends of the last group only: session_backend_index does not leave the outer loop (C27_session_fails)."},
 {"property": "C28", "status": "partial", "theorems": ["Pound.Props.C28_doubly_linked", "Pound.Props.C28_doubly_linked_disjoint", "Pound.Props.C28_sweep", "Pound.Props.C28_unsafe_sweep_fails", "Pound.Props.C28_singly_linked_partial", "Pound.Props.C28_concat_empty_fails"], "note": "Proved for every history of operations on any number of lists over a memory model with NULL, dangling and freed pointers (doubly-linked: complete, including removal and freeing during the safe traversal). Singly-linked: all operations, except that SLIST_CONCAT of a non-empty and an empty list loses the tail pointer (C28_concat_empty_fails; the macro is not used in pound). The sequence is given a length-many-steps traversal bound, so traversals end."},
 {"property": "C29", "status": "partial", "theorems": ["Pound.Props.C29_content", "Pound.Props.C29_no_overflow", "Pound.Props.C29_success_partial", "Pound.Props.C29_finish_partial", "Pound.Props.C29_finish_after_failure", "Pound.Props.C29_capacity", "Pound.Props.C29_error_forgotten_fails", "Pound.Props.C29_wrap_fails", "Pound.Props.C29_empty_date_fails", "Pound.Props.C29_truncate_grows_fails"], "note": "Proved for every history of operations with allocation failures at any point (realloc is an oracle). Deviations proved: an error is forgotten by a later successful addition; the needed size is computed modulo 2^64; a date format with empty expansion never succeeds; truncating beyond the length exposes uninitialised memory."},
 {"property": "C30", "status": "proved", "theorems": ["Pound.Props.C30_last_value", "Pound.Props.C30_keys_ascending", "Pound.Props.C30_filter_fails"], "note": "Proved for every sequence of sets and gets, including that the binary search never leaves the list. Side finding, outside of the statement: json_object_filter (no callers) breaks the count (C30_filter_fails)."},
 {"property": "C31", "status": "partial", "theorems": ["Pound.Props.C31_string_round_trip_partial", "Pound.Props.C31_text_round_trip_partial", "Pound.Props.C31_round_trip_fails", "Pound.Props.C31_rejects_fails", "Pound.Props.C31_overread_fails", "Pound.Props.C31_overflow_fails", "Pound.Props.C31_unicode_fails"], "note": "Proved for all strings in which no backspace or form feed is followed by three hexadecimal digits; for the others the first pass of the parser miscounts: heap overflow or rejection (_fails). Other texts (not produced by the formatter) are read beyond their end or overflow the buffer (_fails)."},
 {"property": "C32", "status": "partial", "theorems": ["Pound.Props.C32_acl", "Pound.Props.C32_refused_partial", "Pound.Props.C32_refused_acl", "Pound.Props.C32_refused_fails"], "note": "Full for bodies whose mask lengths fit the address (getaddrinfo for numeric hosts is a parameter). Refusal of malformed entries is partial: bad addresses and masks with foreign characters are refused; empty, negative and too large masks are not (C32_refused_fails: the empty mask matches everything, /-1 means /7, /136 and above write out of bounds)."},
 {"property": "C33", "status": "partial", "theorems": ["Pound.Props.C33_exact", "Pound.Props.C33_begins", "Pound.Props.C33_ends", "Pound.Props.C33_contains_sound_partial", "Pound.Props.C33_contains_partial", "Pound.Props.C33_contains_fails", "Pound.Props.C33_contains_empty_fails", "Pound.Props.C33_contains_255_fails"], "note": "Exact, begins-with and ends-with: full. Contains: soundness, termination and memory safety for all non-empty patterns and subjects without the byte 255; completeness for patterns whose proper borders are runs of one letter; false for others (is_prefix in genpat.c is inverted), for the empty pattern and for the byte 255 (_fails)."},
 {"property": "C34", "status": "partial", "theorems": ["Pound.Props.C34_accept_partial", "Pound.Props.C34_defined_partial", "Pound.Props.C34_missing", "Pound.Props.C34_comments", "Pound.Props.C34_request", "Pound.Props.C34_quoted_fails", "Pound.Props.C34_needs_credentials", "Pound.Props.C34_apr1_digest", "Pound.Props.C34_hash_as_password_fails", "Pound.Props.C34_long_comment_fails", "Pound.Props.C34_short_sha_fails", "Pound.Props.C34_short_salt_fails", "Pound.Props.C34_same_time_fails", "Pound.Props.C34_unreadable_fails", "Pound.Props.C34_race_fails"], "note": "For every history of requests and file versions (distinct non-zero time stamps, lines below 4095 bytes without NUL), by an invariant of the cache; digests, base64 and crypt are parameters. Findings: crypt hashes work as passwords, tails of overlong comments are entries, short {SHA} and apr1 hashes read uninitialised or foreign memory, equal time stamps and read errors keep old entries, quoted credentials never work, and the cache has no lock (C34_race_fails)."},
 {"property": "C35", "status": "partial", "theorems": ["Pound.Props.C35_pool_partial", "Pound.Props.C35_progress_partial", "Pound.Props.C35_no_sleeper_partial", "Pound.Props.C35_start_partial", "Pound.Props.C35_not_grown_fails", "Pound.Props.C35_min_zero_fails", "Pound.Props.C35_consumed_signal_fails", "Pound.Props.C35_start_fails"], "note": "Counts, FIFO and exactly-once, progress proved for all interleavings of critical sections, assuming start-up without time-outs and signals not consumed by timing-out threads. Violations proved: WorkerMinCount 0 loses a connection, consumed signal, unsynchronised counter at start-up, connection waits although the pool could grow."},
 {"property": "C36", "status": "partial", "theorems": ["Pound.Props.C36_round_partial", "Pound.Props.C36_prefix_partial", "Pound.Props.C36_attribution", "Pound.Props.C36_disabled_blocks_fails", "Pound.Props.C36_disabled_skips_fails"], "note": "Proved for rounds in which no disabled listener has a connection, and up to the first such one; attribution of connections proved without restriction. Violation proved: the index of poll is not advanced after a connection on a disabled listener."},
 {"property": "C37", "status": "partial", "theorems": ["Pound.Props.C37_exact", "Pound.Props.C37_kept", "Pound.Props.C37_others", "Pound.Props.C37_disabled", "Pound.Props.C37_disable", "Pound.Props.C37_removed_partial", "Pound.Props.C37_out_partial", "Pound.Props.C37_removed_fails", "Pound.Props.C37_take", "Pound.Props.C37_taken", "Pound.Props.C37_one_session", "Pound.Props.C37_sticky", "Pound.Props.C37_respond", "Pound.Props.C37_release", "Pound.Props.C37_remover", "Pound.Props.C37_safe_partial", "Pound.Props.C37_empty_fails", "Pound.Props.C37_vacant_fails", "Pound.Props.C37_kill_fails", "Pound.Props.C37_session_fails", "Pound.Props.C37_temporary_partial", "Pound.Props.C37_both", "Pound.Props.C37_family_fails", "Pound.Props.C37_notfound_fails", "Pound.Props.C37_again_fails"], "note": "In every history of look-ups, requests, jobs and operator commands: exactly one backend per wanted address after a look-up, kept ones untouched, removed ones out of service for good, released only when unused. What fails: with session types for which responses create sessions a removed backend gets new requests and is used after release; an answer without addresses frees a balancer that is still used; an empty balancer or a failed connection to a removed backend ends the program; a temporary failure of one family removes the backends of that family; other failures stop look-ups for good. One service, any number of matrices, atomic steps under the service mutex."},
 {"property": "C38", "status": "proved", "theorems": ["Pound.Props.C38_forwarded", "Pound.Props.C38_prepend", "Pound.Props.C38_lines", "Pound.Props.C38_values", "Pound.Props.C38_none"], "note": "For every header value and every accepted list of trusted networks; getaddrinfo is a parameter assumed to return Internet addresses only and to refuse the empty text."},
 {"property": "C39", "status": "partial", "theorems": ["Pound.Props.C39_exact", "Pound.Props.C39_prints_partial", "Pound.Props.C39_refuses_partial", "Pound.Props.C39_warning_fails", "Pound.Props.C39_end", "Pound.Props.C39_trailing_fails", "Pound.Props.C39_micro_fails", "Pound.Props.C39_sec_fails", "Pound.Props.C39_table", "Pound.Props.C39_canned", "Pound.Props.C39_anonymous"], "note": "For every format: compiled without error message exactly if it is a sequence of texts and documented specifiers, and then it prints text and documented values in order for every request. Findings: %D prints milliseconds, %{sec}t is not recognised, a later warning makes an erroneous format accepted, a trailing % or %{..} reads past the end."},
 {"property": "C40", "status": "partial", "theorems": ["Pound.Props.C40_refused", "Pound.Props.C40_dead", "Pound.Props.C40_only", "Pound.Props.C40_numbering_fails"], "note": "Proved for every history of callback events: aborted exactly after a client hello that follows a completed handshake, and then every read and write fails; AllowClientRenegotiation disables it. Finding: the states compared are those of OpenSSL before 1.1 (fallback defines), so with later libraries nothing is ever refused (C40_numbering_fails)."},
 {"property": "C41", "status": "partial", "theorems": ["Pound.Props.C41_status_line", "Pound.Props.C41_final_response_partial", "Pound.Props.C41_after_100_fails", "Pound.Props.C41_after_103_fails", "Pound.Props.C41_head_chunked_fails", "Pound.Props.C41_bad_length_fails"], "note": "Proved for final responses, including rewritten Location headers; responses after interim ones are lost (C41_after_100_fails, C41_after_103_fails), HEAD/204/304 with Transfer-Encoding (C41_head_chunked_fails) and invalid lengths (C41_bad_length_fails) are mishandled. That the loop over the headers reads a removed header (C97_response_fails) is not modelled here: what is said of responses with an invalid length holds if that memory has not been reused."},
 {"property": "C42", "status": "partial", "theorems": ["Pound.Props.C42_reused_only_if", "Pound.Props.C42_response_close_partial", "Pound.Props.C42_error_closes", "Pound.Props.C42_close_in_list_fails", "Pound.Props.C42_unread_body_fails"], "note": "Close as one element of a Connection list in a response is not noticed (C42_close_in_list_fails); replies generated by pound leave the request body in the stream, where it is taken for a request (C42_unread_body_fails)."},
 {"property": "C43", "status": "partial", "theorems": ["Pound.Props.C43_failover_partial", "Pound.Props.C43_setup_fails", "Pound.Props.C43_endless_fails"], "note": "Proved for every pattern of outcomes; failed set-up of a connection gives 503 without fail-over and leaks a reference (C43_setup_fails). With weighted round robin, fail-over from several backends to an emergency one never ends (C43_endless_fails)."},
 {"property": "C44", "status": "partial", "theorems": ["Pound.Props.C44_denotes", "Pound.Props.C44_roundtrip_partial", "Pound.Props.C44_unterminated", "Pound.Props.C44_newline_fails", "Pound.Props.C44_escape_fails"], "note": "Exact denotation of quoted strings, and every string without newline and NUL can be written. Newlines cannot be written (C44_newline_fails); other escapes are accepted with a message (C44_escape_fails)."},
 {"property": "C45", "status": "proved", "theorems": ["Pound.Props.C45_bounded", "Pound.Props.C45_refused", "Pound.Props.C45_included"], "note": "Every history of parser operations over finitely many finite files, which may even change between inclusions."},
 {"property": "C46", "status": "partial", "theorems": ["Pound.Props.C46_unsigned", "Pound.Props.C46_range", "Pound.Props.C46_others", "Pound.Props.C46_loglevel", "Pound.Props.C46_mode_partial", "Pound.Props.C46_octal", "Pound.Props.C46_mode_fails", "Pound.Props.C46_nomode_fails", "Pound.Props.C46_missing_fails", "Pound.Props.C46_redirect_fails", "Pound.Props.C46_redirect_partial"], "note": "Exact for all decimal numbers; findings: file modes of 2^63 and more are truncated, a missing mode is a NULL dereference, a missing argument at the end of a line shifts by a negative number, redirection codes are truncated to 32 bits."},
 {"property": "C47", "status": "partial", "theorems": ["Pound.Props.C47_complete", "Pound.Props.C47_exact_partial", "Pound.Props.C47_end", "Pound.Props.C47_contain", "Pound.Props.C47_only_fails", "Pound.Props.C47_case_fails", "Pound.Props.C47_bar_fails", "Pound.Props.C47_file_partial", "Pound.Props.C47_later_partial", "Pound.Props.C47_file_fails"], "note": "The configured host is always accepted, and -beg, -end and -contain mean what they say for names without ^, $ and |. The property itself does not hold: an exact name accepts every host that begins with it, with -case the header name is compared case-sensitively, bars in names are alternatives over all headers, and the second and later lines of a file are regular expressions. POSIX regular expressions are modelled for the fragment these conditions produce."},
 {"property": "C48", "status": "partial", "theorems": ["Pound.Props.C48_backend", "Pound.Props.C48_never", "Pound.Props.C48_path", "Pound.Props.C48_others", "Pound.Props.C48_default_partial", "Pound.Props.C48_foreign_fails", "Pound.Props.C48_foreign_example_fails", "Pound.Props.C48_relative_fails", "Pound.Props.C48_listener_fails", "Pound.Props.C48_ipv6_fails"], "note": "Exact condition for locations pointing to the backend, exact new text, nothing else changed. Findings: with RewriteLocation 1 the conditions for the listener are joined by || so every absolute URL with a different port or scheme is rewritten to this host; listener_port reads a pointer as an address; is_listener_address compares only addresses of different families; the regular expression is not anchored, so URLs inside relative ones are found; IPv6 hosts are cut at the first colon."},
 {"property": "C49", "status": "proved", "theorems": ["Pound.Props.C49_chosen", "Pound.Props.C49_noname", "Pound.Props.C49_loaded"], "note": "Every list of certificates, every server name; fnmatch is a parameter."},
 {"property": "C50", "status": "partial", "theorems": ["Pound.Props.C50_cleanup_order", "Pound.Props.C50_cleanup_complete", "Pound.Props.C50_restart_partial", "Pound.Props.C50_terminate_partial", "Pound.Props.C50_kill_partial", "Pound.Props.C50_normal_partial", "Pound.Props.C50_cases", "Pound.Props.C50_missed_fails", "Pound.Props.C50_wait_fails"], "note": "Clean-up order and supervisor decisions proved for all sequences of events delivered in sigwait. Violations proved: signals outside sigwait are lost; failed wait starts a second process."},
 {"property": "C51", "status": "partial", "theorems": ["Pound.Props.C51_limit_partial", "Pound.Props.C51_limit_fails"], "note": "The size counter is a signed 64-bit integer that overflows (C51_limit_fails); as long as it does not, the limit holds."},
 {"property": "C52", "status": "proved", "theorems": ["Pound.Props.C52_head_exact", "Pound.Props.C52_headers", "Pound.Props.C52_plain", "Pound.Props.C52_fields"], "note": "The merged header's table of names is a parameter; regular expression HEADER is modelled as a scan."},
 {"property": "C53", "status": "partial", "theorems": ["Pound.Props.C53_headers_kept", "Pound.Props.C53_body_partial", "Pound.Props.C53_head_reads_back", "Pound.Props.C53_http10_chunked_fails"], "note": "An HTTP/1.0 request with a chunked body is forwarded without it (C53_http10_chunked_fails). Edits of the head are a parameter; C93 fills it in."},
 {"property": "C54", "status": "proved", "theorems": ["Pound.Props.C54_error_replies"], "note": "Redirects are covered by C11_no_injection for their target; the theorem is about error replies and bio_http_reply."},
 {"property": "C55", "status": "partial", "theorems": ["Pound.Props.C55_file_name_partial", "Pound.Props.C55_escape_fails"], "note": "The name is proved to be the rest of the URL; it may lead out of the directory (C55_escape_fails)."},
 {"property": "C56", "status": "partial", "theorems": ["Pound.Props.C56_document_round_trip_partial", "Pound.Props.C56_integers", "Pound.Props.C56_sets_fit"], "note": "Numbers: printf/strtod are parameters assumed to read back what was written (proved for integers). Strings as in C31."},
 {"property": "C57", "status": "partial", "theorems": ["Pound.Props.C57_valid_json_partial", "Pound.Props.C57_integers", "Pound.Props.C57_control_fails"], "note": "Proved if strings have no control characters other than \\b \\f \\n \\r \\t; others are written raw (C57_control_fails)."},
 {"property": "C58", "status": "proved", "theorems": ["Pound.Props.C58_parser_stops", "Pound.Props.C58_arrays_keep", "Pound.Props.C58_insert_gap_fails"], "note": "Proved; strtod is assumed to return a final part of its argument. Side finding, outside of the statement: inserting beyond the end of an array leaves slots uninitialised (C58_insert_gap_fails; no callers do that)."},
 {"property": "C59", "status": "partial", "theorems": ["Pound.Props.C59_suppress", "Pound.Props.C59_words", "Pound.Props.C59_all_fails", "Pound.Props.C59_status_partial", "Pound.Props.C59_status_fails"], "note": "Suppression exact for status 100-599 and every list of words. Findings: response_code is not reset between requests nor after a handler that stored a status fails, so a later error is logged with the previous status; 'all' does not cover codes from 600."},
 {"property": "C60", "status": "partial", "theorems": ["Pound.Props.C60_once", "Pound.Props.C60_ready", "Pound.Props.C60_none", "Pound.Props.C60_overflow_fails", "Pound.Props.C60_negative_fails", "Pound.Props.C60_interrupt_fails"], "note": "Every history of operations for limits up to 2147483 s. Findings: larger limits overflow (undefined), the largest are negative and make every operation fail; interruptions restart the limit."},
 {"property": "C61", "status": "partial", "theorems": ["Pound.Props.C61_plain_partial", "Pound.Props.C61_star_partial", "Pound.Props.C61_case_fails", "Pound.Props.C61_wildcard_fails"], "note": "fnmatch is specified for patterns without brackets and backslashes. Findings: comparison is case-sensitive, and a wildcard matches any number of labels, so a wildcard certificate shadows a later suitable one."},
 {"property": "C62", "status": "proved", "theorems": ["Pound.Props.C62_tokens", "Pound.Props.C62_kinds"], "note": "Texts made of well-formed tokens; all other texts have tokens as well (C65_tokens)."},
 {"property": "C63", "status": "partial", "theorems": ["Pound.Props.C63_text_partial", "Pound.Props.C63_empty", "Pound.Props.C63_empty_line_fails", "Pound.Props.C63_unclosed"], "note": "The first line must not be empty: cfg_read_to_end then reads before its buffer (C63_empty_line_fails)."},
 {"property": "C64", "status": "partial", "theorems": ["Pound.Props.C64_bool_partial", "Pound.Props.C64_case_fails"], "note": "The words are compared with strcmp although the manual says that case does not matter (C64_case_fails)."},
 {"property": "C65", "status": "partial", "theorems": ["Pound.Props.C65_accepted_partial", "Pound.Props.C65_tokens", "Pound.Props.C65_ends", "Pound.Props.C65_unambiguous", "Pound.Props.C65_junk_fails", "Pound.Props.C65_explained", "Pound.Props.C65_unknown"], "note": "Every text and every table of statements with fixed arguments, sections and End. Finding: tokens that belong to no statement only cause a message, and the configuration is accepted (C65_junk_fails). Whoever writes a file that is refused gets at least one message (C65_explained)."},
 {"property": "C66", "status": "proved", "theorems": ["Pound.Props.C66_found", "Pound.Props.C66_entries", "Pound.Props.C66_case"], "note": "Every table with references nested to any depth."},
 {"property": "C67", "status": "partial", "theorems": ["Pound.Props.C67_total_partial", "Pound.Props.C67_unix_fails", "Pound.Props.C67_proto_partial", "Pound.Props.C67_port_partial", "Pound.Props.C67_for_partial", "Pound.Props.C67_off", "Pound.Props.C67_truth_partial", "Pound.Props.C67_forged_fails", "Pound.Props.C67_brackets_fails"], "note": "Proved of the whole preparation of the header (http.c 4160-4240) for every request and configuration: the first X-Forwarded-Proto and -Port are replaced by true ones and the client's address is added to the first X-Forwarded-For; off, they are untouched. Deviations: further headers of these names that a client sends are passed on (forged addresses); for clients of UNIX listeners without a name the server reads outside a buffer; IPv6 addresses are written in brackets, which another pound behind does not accept as addresses."},
 {"property": "C68", "status": "partial", "theorems": ["Pound.Props.C68_cert_partial", "Pound.Props.C68_cipher_partial", "Pound.Props.C68_trust_partial", "Pound.Props.C68_plain_fails", "Pound.Props.C68_nocert_fails", "Pound.Props.C68_long_fails", "Pound.Props.C68_second_fails"], "note": "Proved: each header made from certificate and cipher replaces the first one of its name, for names printed in up to 4094 bytes; certificates of any number of lines. Deviations: without TLS or without client certificate the client's own X-SSL headers pass unchanged; the same for a subject printed in more than 4094 bytes; second headers of a name always pass."},
 {"property": "C69", "status": "partial", "theorems": ["Pound.Props.C69_others", "Pound.Props.C69_host", "Pound.Props.C69_dest_off", "Pound.Props.C69_dest_partial", "Pound.Props.C69_embedded_fails", "Pound.Props.C69_unix_fails"], "note": "Proved for every header list and configuration. Deviations: a Destination with a URL somewhere inside is replaced by the path of that URL; for backends on UNIX sockets the rewritten Destination is not a URL of the backend."},
 {"property": "C70", "status": "partial", "theorems": ["Pound.Props.C70_as_written_partial", "Pound.Props.C70_accepted_partial", "Pound.Props.C70_request_tested_partial", "Pound.Props.C70_file_lines", "Pound.Props.C70_name_file_fails", "Pound.Props.C70_not_not_fails", "Pound.Props.C70_ignore_case_fails", "Pound.Props.C70_tokens"], "note": "Soundness and completeness for whole service sections, with all their statements (C92), without double negation, Host with a file of names (its second and later lines are taken for expressions, C70_name_file_fails) and (soundness) response rules; composed with C14 for all requests. Findings: Not Not X followed by another condition silently drops that condition (C70_not_not_fails); IgnoreCase in a service also applies to the services after it (C70_ignore_case_fails)."},
 {"property": "C71", "status": "partial", "theorems": ["Pound.Props.C71_as_written_partial", "Pound.Props.C71_request_rewritten_partial", "Pound.Props.C71_response_fails"], "note": "As C70, composed with C16. Finding: in response rules, conditions and modifications for requests are accepted after Not and after a second Else (C71_response_fails)."},
 {"property": "C72", "status": "partial", "theorems": ["Pound.Props.C72_page_partial", "Pound.Props.C72_no_backends_fails"], "note": "Whole page, for every state in which all services have backends. Finding: one service without backends (allowed with a warning) makes every request for the page fail with status 500 (C72_no_backends_fails). The walk along parents in backend_serialize_dyninfo is a parameter."},
 {"property": "C73", "status": "partial", "theorems": ["Pound.Props.C73_scraped_partial", "Pound.Props.C73_told_apart", "Pound.Props.C73_quote_fails", "Pound.Props.C73_forged_fails"], "note": "Distinctness for all states; round trip if names and addresses have no quotes, backslashes and line feeds. Finding: label values are not escaped, so a quote in a name breaks the page (C73_quote_fails) or forges labels (C73_forged_fails)."},
 {"property": "C74", "status": "partial", "theorems": ["Pound.Props.C74_section_sound", "Pound.Props.C74_section_complete", "Pound.Props.C74_meaning", "Pound.Props.C74_service_sound", "Pound.Props.C74_service_complete", "Pound.Props.C74_named_sound", "Pound.Props.C74_named_complete", "Pound.Props.C74_sni_fails", "Pound.Props.C74_priority_fails", "Pound.Props.C74_https_fails", "Pound.Props.C74_error_code_partial", "Pound.Props.C74_error_code_fails"], "note": "Soundness and completeness for all sections of backend statements (together with the other statements of services: C92). Findings: ServerName accepted without HTTPS (C74_sni_fails); Priority 0 refused although documented (C74_priority_fails); a second HTTPS discards the certificate given before (C74_https_fails)."},
 {"property": "C75", "status": "partial", "theorems": ["Pound.Props.C75_final", "Pound.Props.C75_unique", "Pound.Props.C75_reference", "Pound.Props.C75_balancers", "Pound.Props.C75_members", "Pound.Props.C75_named", "Pound.Props.C75_address_partial", "Pound.Props.C75_address_fails", "Pound.Props.C75_use_fails", "Pound.Props.C75_noaddr_fails"], "note": "Exact acceptance condition and result for all services if every named backend has an address; balancers satisfy BalsOk. Findings: IPv4 addresses are never recognized as addresses (C75_address_fails); UseBackend ignores the Priority and Disabled of the definition (C75_use_fails); a reference to a named backend without Address dereferences NULL (C75_noaddr_fails)."},
 {"property": "C76", "status": "partial", "theorems": ["Pound.Props.C76_accepted_partial", "Pound.Props.C76_template_fails", "Pound.Props.C76_quote_fails", "Pound.Props.C76_fraction_fails", "Pound.Props.C76_variable_fails", "Pound.Props.C76_block_fails", "Pound.Props.C76_abort_fails", "Pound.Props.C76_loop_fails", "Pound.Props.C76_comment_fails", "Pound.Props.C76_unknown_fails"], "note": "Every well-formed template (a concrete syntax tree with all its bytes, TmBody.Ok) is accepted, at any size and nesting. Missing: the rejection of other texts, and the documented forms the program does not accept. Findings: {{template \"x\"}} without a value is rejected or prints a NULL pointer (C76_template_fails); a quote cannot be written in a string (C76_quote_fails); fractions (C76_fraction_fails); with and range on a variable free memory twice (C76_variable_fails); blocks with a defined name (C76_block_fails); an unterminated string aborts, a large number overflows (C76_abort_fails); texts on which the program does not end (C76_loop_fails, C76_comment_fails); errors not found (C76_unknown_fails)."},
 {"property": "C77", "status": "partial", "theorems": ["Pound.Props.C77_prints_partial", "Pound.Props.C77_plain", "Pound.Props.C77_continue_fails", "Pound.Props.C77_small_fails", "Pound.Props.C77_compare_fails", "Pound.Props.C77_index_fails", "Pound.Props.C77_scope_fails"], "note": "Every well-formed template prints what the specification says whenever that is defined (TmPrints), for all values whose objects have ascending keys (as the JSON parser builds them, C56). Operations on doubles are parameters. Findings: {{continue}} within if (C77_continue_fails); small numbers are empty (C77_small_fails); comparison of booleans and of integers with numbers (C77_compare_fails); index beyond the end, and functions without arguments (C77_index_fails); variables visible in called templates (C77_scope_fails)."},
 {"property": "C78", "status": "partial", "theorems": ["Pound.Props.C78_printf_partial", "Pound.Props.C78_position_fails", "Pound.Props.C78_float_fails", "Pound.Props.C78_digits_fails", "Pound.Props.C78_star_fails", "Pound.Props.C78_array_fails", "Pound.Props.C78_overflow_fails", "Pound.Props.C78_missing_fails"], "note": "All formats whose specifications are among those the program handles as printf(3) says (pfConv); conversion of doubles is a parameter. %s takes numbers, truth values, null and objects as well as strings, and integers may be given as numbers. Findings: %s of an array reads a pointer as a number (C78_array_fails), numbered arguments (C78_position_fails), width of floating-point numbers (C78_float_fails), %x of large numbers, %.3o, %.0s, %.0d, %#x of 0 (C78_digits_fails), asterisks (C78_star_fails), a precision from 63 on overflows the buffer (C78_overflow_fails), missing arguments and a percent sign at the end (C78_missing_fails)."},
 {"property": "C79", "status": "partial", "theorems": ["Pound.Props.C79_sound", "Pound.Props.C79_complete", "Pound.Props.C79_services_sound", "Pound.Props.C79_services_complete", "Pound.Props.C79_meaning", "Pound.Props.C79_names", "Pound.Props.C79_socket_from_fails", "Pound.Props.C79_unix_address_fails", "Pound.Props.C79_nohttps11_fails", "Pound.Props.C79_client_cert_0_fails", "Pound.Props.C79_cert_order_fails", "Pound.Props.C79_err405_fails", "Pound.Props.C79_forwarded_header_fails"], "note": "Soundness and completeness for all listener sections, over any parsers of the other statements that have the same properties, and instantiated with services and their backends. Findings: Address and Port after SocketFrom are accepted and ignored (C79_socket_from_fails); paths of sockets as Address refused (C79_unix_address_fails); NoHTTPS11 is 0 by default, not 2 (C79_nohttps11_fails); ClientCert 0 takes no depth (C79_client_cert_0_fails); a certificate after ClientCert is used without asking clients for theirs (C79_cert_order_fails); Err405 unknown (C79_err405_fails); ForwardedHeader must be quoted (C79_forwarded_header_fails)."},
 {"property": "C80", "status": "partial", "theorems": ["Pound.Props.C80_sound", "Pound.Props.C80_complete", "Pound.Props.C80_unique", "Pound.Props.C80_meaning", "Pound.Props.C80_workers", "Pound.Props.C80_later", "Pound.Props.C80_connto_fails", "Pound.Props.C80_balancer_fails", "Pound.Props.C80_loglevel_order_fails", "Pound.Props.C80_client_fails", "Pound.Props.C80_header_option_fails"], "note": "Soundness, completeness and uniqueness for whole configurations (settings, named backends, services by their backends, listeners, control sockets, resolver). Findings: ConnTO is not TimeOut by default (C80_connto_fails); settings apply only to what follows, against the documentation (C80_balancer_fails, C80_client_fails); LogLevel must follow its LogFormat (C80_loglevel_order_fails); HeaderOption needs a newline (C80_header_option_fails). Not in the model: ACL, TrustedIP, Include, SSLEngine, ECDHCurve, ConfigText; conditions of services are in C70."},
 {"property": "C81", "status": "partial", "theorems": ["Pound.Props.C81_total", "Pound.Props.C81_targets", "Pound.Props.C81_unique", "Pound.Props.C81_kept", "Pound.Props.C81_removed", "Pound.Props.C81_others", "Pound.Props.C81_same", "Pound.Props.C81_weight_partial", "Pound.Props.C81_twice_fails", "Pound.Props.C81_group_partial", "Pound.Props.C81_group_fails", "Pound.Props.C81_addresses", "Pound.Props.C81_disable", "Pound.Props.C81_disabled", "Pound.Props.C81_enable", "Pound.Props.C81_pending_fails"], "note": "Invariant over all histories on top of the model of C37. Partial: the group is that of the record only as long as the priority of the record does not change (C81_group_fails: the group is never changed afterwards); a host and port named in two groups gets backends in the first one only, with the last weight (C81_twice_fails); a target removed while its first address look-up is pending leaves a group without backends, and the next request ends the program (C81_pending_fails)."},
 {"property": "C82", "status": "partial", "theorems": ["Pound.Props.C82_found", "Pound.Props.C82_found_both", "Pound.Props.C82_found_one", "Pound.Props.C82_found_srv", "Pound.Props.C82_absent_partial", "Pound.Props.C82_temporary_partial", "Pound.Props.C82_defined_partial", "Pound.Props.C82_alias_partial", "Pound.Props.C82_no_chain", "Pound.Props.C82_chain_fails", "Pound.Props.C82_chain_never_fails", "Pound.Props.C82_server_fails", "Pound.Props.C82_errno_fails", "Pound.Props.C82_permanent_fails", "Pound.Props.C82_override_fails", "Pound.Props.C82_mixed_fails", "Pound.Props.C82_step"], "note": "For every behaviour of the resolver library (a parameter, with the status codes of adns.h). Partial: the code violates the property. Findings: with CNAMEChain of 2 or more, looking up an alias of an alias writes past a block of one byte (C82_chain_fails), and would never find the addresses because the query is repeated for the first name (C82_chain_never_fails); SERVFAIL or REFUSED removes all backends (C82_server_fails); after a system error such as EAGAIN, or a broken response, the name is never looked up again (C82_errno_fails, C82_permanent_fails); OverrideTTL replaces RetryInterval for absent names (C82_override_fails); a temporary failure for one family removes the backends if the other has no records (C82_mixed_fails)."},
 {"property": "C83", "status": "partial", "theorems": ["Pound.Props.C83_switch_partial", "Pound.Props.C83_list", "Pound.Props.C83_sessions_partial", "Pound.Props.C83_refused", "Pound.Props.C83_code", "Pound.Props.C83_success", "Pound.Props.C83_credentials", "Pound.Props.C83_url_partial", "Pound.Props.C83_unix", "Pound.Props.C83_socket", "Pound.Props.C83_socket_end", "Pound.Props.C83_names_fails", "Pound.Props.C83_ampersand_fails", "Pound.Props.C83_space_fails", "Pound.Props.C83_injection_fails", "Pound.Props.C83_trailing_slash_fails", "Pound.Props.C83_global_fails", "Pound.Props.C83_other_fails", "Pound.Props.C83_long_creds_fails", "Pound.Props.C83_no_pass_fails", "Pound.Props.C83_ipv6_fails", "Pound.Props.C83_at_fails", "Pound.Props.C83_prefix_fails", "Pound.Props.C83_last_line_fails", "Pound.Props.C83_truncated_fails"], "note": "The client, the request on the wire, the server's reading of it, the handler and the client's reading of the reply are composed; the theorems hold for all configurations, paths of visible characters and times. Missing, because the code does not do it: names in session commands, keys with spaces or ampersands, URLs with a path that is just a slash, IPv6 addresses, credentials over 48 bytes; line breaks in arguments inject requests; replies that are cut short may be taken for success; the rest of C25's findings (in particular, sessions only in services that have a table)."},
 {"property": "C84", "status": "partial", "theorems": ["Pound.Props.C84_alive", "Pound.Props.C84_references", "Pound.Props.C84_goes_on_partial", "Pound.Props.C84_once_partial", "Pound.Props.C84_exactly_once_partial", "Pound.Props.C84_chains", "Pound.Props.C84_once_fails", "Pound.Props.C84_once_after_failure_fails", "Pound.Props.C84_disabled_fails", "Pound.Props.C84_disabled_goes_on_fails", "Pound.Props.C84_stopped_fails", "Pound.Props.C84_own_fails", "Pound.Props.C84_failure_fails", "Pound.Props.C84_cancelled_fails"], "note": "Memory safety and reference counts hold in all histories (C84_alive, C84_references). That look-ups go on is proved if no look-up fails for good and no backend is disabled before its first answer while job 0 is another backend's look-up; that there is one at most if backends are disabled only while the look-up whose number is stored waits. The code violates the full property: the number of a retry after a temporary failure is not stored, so that such a look-up is never cancelled (C84_disabled_fails, C84_once_after_failure_fails); disabling and enabling while a look-up runs makes two chains that never merge (C84_once_fails, C84_chains); the number stored before the first answer is 0, which is that of the first job, so that disabling one backend stops the look-ups of another (C84_stopped_fails); a permanent failure ends the look-ups (C84_failure_fails)."},
 {"property": "C85", "status": "partial", "theorems": ["Pound.Props.C85_no_circle_partial", "Pound.Props.C85_goes_on_partial", "Pound.Props.C85_released", "Pound.Props.C85_exclusive_partial", "Pound.Props.C85_cancel_fails", "Pound.Props.C85_disable_fails", "Pound.Props.C85_list_fails", "Pound.Props.C85_control_fails", "Pound.Props.C85_session_fails", "Pound.Props.C85_service_fails"], "note": "For all numbers of threads, sequences of operations and interleavings: no circle of waiting threads and no stop before the end, unless the timer thread cancels jobs of backends (C85_cancel_fails: it holds the mutex of the job queue and waits for that of the backend, whose owner waits for the job queue); threads give back all mutexes; tables of services are not changed while others use them, except by control requests: disabling a dynamic backend changes them without the mutex of the service, and single backends, services to be disabled and targets of new sessions are looked for without it."},
 {"property": "C86", "status": "partial", "theorems": ["Pound.Props.C86_safe", "Pound.Props.C86_unused", "Pound.Props.C86_when", "Pound.Props.C86_released_partial", "Pound.Props.C86_next_partial", "Pound.Props.C86_lost_fails", "Pound.Props.C86_sweep_fails", "Pound.Props.C86_threads_fails"], "note": "Safety (released once, only when unused, never used afterwards, no assertion fails) for all histories. Release in the end: proved for histories in which no last reference is dropped after the only remover has passed the backend, and no backends are removed without a remover being started; also, whatever happened before, after the next look-up with addresses. Otherwise it fails: the signal is sent without the mutex of the service and can be lost; SRV records that go away and disabled backends start no remover; and each look-up during a long request starts another thread, of which all but one wait for ever."},
 {"property": "C87", "status": "partial", "theorems": ["Pound.Props.C87_files", "Pound.Props.C87_include", "Pound.Props.C87_safe_partial", "Pound.Props.C87_first_fails", "Pound.Props.C87_cert_fails", "Pound.Props.C87_again_fails", "Pound.Props.C87_absolute_fails", "Pound.Props.C87_position_fails", "Pound.Props.C87_jail_fails"], "note": "The files that are used are proved for every configuration that is read to its end (C87_files, C87_include); that reading ends well and password files are found is proved for configurations whose certificate names are absolute and that name a file before the first IncludeDir (C87_safe_partial). The code fails otherwise: IncludeDir as first statement dereferences a null pointer; each relative certificate name drops a reference that was never taken, so that the include directory is released while in use; absolute names need the include directory; password files use the directory in effect at the end; with RootJail a password file in / is refused."},
 {"property": "C88", "status": "partial", "theorems": ["Pound.Props.C88_sockets", "Pound.Props.C88_tls_partial", "Pound.Props.C88_tls_fails", "Pound.Props.C88_unref", "Pound.Props.C88_refs_partial", "Pound.Props.C88_leak_fails", "Pound.Props.C88_use_fails", "Pound.Props.C88_kill", "Pound.Props.C88_first", "Pound.Props.C88_connect", "Pound.Props.C88_timeout_partial", "Pound.Props.C88_timeout_fails", "Pound.Props.C88_probe"], "note": "Sockets, dead backends, the backend in charge, connect_nb and the probe are proved for all client connections. The code fails in these cases: a failed TLS handshake (or lack of memory) loses the reference to the backend; if no socket can be made the backend is accessed after its reference was given back; without memory for the TLS layer the TLS object is lost; time-outs above 2147483 seconds overflow."},
 {"property": "C89", "status": "partial", "theorems": ["Pound.Props.C89_user", "Pound.Props.C89_regain", "Pound.Props.C89_groups_fails", "Pound.Props.C89_groups", "Pound.Props.C89_bind", "Pound.Props.C89_umask", "Pound.Props.C89_std", "Pound.Props.C89_sockets_partial", "Pound.Props.C89_sockets_fails", "Pound.Props.C89_jail", "Pound.Props.C89_pid", "Pound.Props.C89_removed_partial", "Pound.Props.C89_control_fails", "Pound.Props.C89_order_fails", "Pound.Props.C89_rootdir_fails", "Pound.Props.C89_starts", "Pound.Props.C89_unknown", "Pound.Props.C89_failed"], "note": "Credentials, modes, jail, standard descriptors and the file for the process identifier are proved for all configurations and starts. No request is served if a step of the start fails (C89_failed). The code fails in these cases: supplementary groups of the superuser are kept; if standard descriptors are closed at the start, the sockets of listeners are closed on the way to the background; the control socket is not removed (and another file is) if its name is relative and the server goes into the background, or if it comes before RootJail; with RootJail, files in the root directory are not removed."},
 {"property": "C90", "status": "partial", "theorems": ["Pound.Props.C90_read_once", "Pound.Props.C90_answers_partial", "Pound.Props.C90_ends", "Pound.Props.C90_acme_fails", "Pound.Props.C90_head_fails", "Pound.Props.C90_close_fails"], "note": "Proved for every stream of requests other than HEAD: one reply each, in order, with the configured code and page (that of a redirect links to the location), and nothing else; reading is unambiguous (C90_read_once). Rewriting rules must leave header lines without a transfer coding. The code fails in these cases: HEAD requests are answered with a body (C90_head_fails); if the file of an ACME challenge cannot be read to its end (or is a directory), a second reply follows in the middle of the first (C90_acme_fails); replies of Error backends announce that the connection will be closed, and it is not (C90_close_fails)."},
 {"property": "C91", "status": "partial", "theorems": ["Pound.Props.C91_unasked", "Pound.Props.C91_switch_partial", "Pound.Props.C91_after_100_fails", "Pound.Props.C91_last", "Pound.Props.C91_in_order", "Pound.Props.C91_complete_partial", "Pound.Props.C91_no_spin", "Pound.Props.C91_faults", "Pound.Props.C91_half_closed_fails"], "note": "Partial because of the code: after an interim 100 response the head of the 101 response is swallowed (C91_after_100_fails); when a client closes its side, what the backend has sent and poll has reported is dropped (C91_half_closed_fails)."},
 {"property": "C92", "status": "partial", "theorems": ["Pound.Props.C92_as_written_partial", "Pound.Props.C92_accepted_partial", "Pound.Props.C92_sessions_complete", "Pound.Props.C92_name_not_used", "Pound.Props.C92_id_fails", "Pound.Props.C92_mandatory_fails"], "note": "Partial because soundness and completeness leave out what C70 and C71 do (double negation, Host with a file of names, response rules). The completeness of sessions is proved for everything that is accepted. Findings: ID accepted for session types for which it is not permitted (C92_id_fails); Type and TTL not mandatory in a second Session section (C92_mandatory_fails)."},
 {"property": "C93", "status": "partial", "theorems": ["Pound.Props.C93_read_once", "Pound.Props.C93_reads_these", "Pound.Props.C93_one_for_one_partial", "Pound.Props.C93_strict_fails", "Pound.Props.C93_http10_fails", "Pound.Props.C93_unread_body_fails"], "note": "Partial because it is not so for requests with a body that the server answers itself: the body is taken for the next request (C93_unread_body_fails); for junk after chunk data, which strict servers refuse (C93_strict_fails); and for chunked bodies of HTTP/1.0 (C93_http10_fails). Rewriting rules are a parameter with the condition that they leave lines well-formed and the framing headers alone; C94 shows which rules do."},
 {"property": "C94", "status": "partial", "theorems": ["Pound.Props.C94_single_lines", "Pound.Props.C94_response_lines", "Pound.Props.C94_one_for_one_partial", "Pound.Props.C94_framing_fails", "Pound.Props.C94_name_fails", "Pound.Props.C94_certificate_fails"], "note": "That lines stay single lines is proved in full for rules whose texts are single lines. One for one is partial because of what is partial in C93; because certificates of clients are passed on in several lines, which a rule can move into the request line (C94_certificate_fails); and because rules that delete framing headers (C94_framing_fails) or take header names from clients (C94_name_fails) are applied without any check."},
 {"property": "C95", "status": "partial", "theorems": ["Pound.Props.C95_answer_once", "Pound.Props.C95_read_once", "Pound.Props.C95_one_for_one_partial", "Pound.Props.C95_codings_fails", "Pound.Props.C95_proxy_codes_fails", "Pound.Props.C95_late_fails"], "note": "Proved for backends that follow the standard and answer in time. Partial because of the code: a response with another transfer coding and a length is taken to end by its length, and the connection is kept (C95_codings_fails); 305 and 306 are relayed without their bodies (C95_proxy_codes_fails); a body until the end of the stream that is late is dropped and the connection kept (C95_late_fails); interim responses lose final ones (C41_after_100_fails, C41_after_103_fails). Responses generated by the server are those of C90."},
 {"property": "C96", "status": "partial", "theorems": ["Pound.Props.C96_verdict", "Pound.Props.C96_recorded_partial", "Pound.Props.C96_expands_partial", "Pound.Props.C96_unset_fails", "Pound.Props.C96_posix_error_fails", "Pound.Props.C96_pcre_error_fails"], "note": "For POSIX patterns, fixed strings, and PCRE patterns whose last group takes part. Partial because of the code: with PCRE, groups after the last one that took part are never written, and references to them use memory that was not initialised (C96_unset_fails); an error of regexec is taken for a match (C96_posix_error_fails), one of PCRE, such as the limit of backtracking, for no match, so that negated conditions hold (C96_pcre_error_fails). What is missing in C12 is missing here."},
 {"property": "C97", "status": "partial", "theorems": ["Pound.Props.C97_failures_partial", "Pound.Props.C97_released_partial", "Pound.Props.C97_read", "Pound.Props.C97_value", "Pound.Props.C97_texts", "Pound.Props.C97_response_fails", "Pound.Props.C97_combine_fails", "Pound.Props.C97_append_fails", "Pound.Props.C97_params_fails", "Pound.Props.C97_composed_fails", "Pound.Props.C97_errors_partial", "Pound.Props.C97_errors_fails", "Pound.Props.C97_error_memory_fails"], "note": "Proved without bounds on connections, for every pattern of failing allocations (no combined headers, no X-Forwarded-For, no query parameters), and for all operations if none fails. Partial because of the code: a response with a Content-Length that is not a number makes the server read a header after releasing it (C97_response_fails); the table of combined headers is lost when a first line is refused (C97_combine_fails); too little memory leads to a read through NULL when an address is added to X-Forwarded-For (C97_append_fails) and to leaks of parameters (C97_params_fails) and of combined headers (C97_composed_fails). Replies of Error backends: C97_errors_partial; if a rule for responses fails, or memory is short, the headers of such a reply are lost, without bound over requests (C97_errors_fails, C97_error_memory_fails). Values and texts: C97_read, C97_value, C97_texts."},
 {"property": "C98", "status": "partial", "theorems": ["Pound.Props.C98_command_line", "Pound.Props.C98_settings_partial", "Pound.Props.C98_template_partial", "Pound.Props.C98_verified_partial", "Pound.Props.C98_verify_default_fails", "Pound.Props.C98_option_order_fails", "Pound.Props.C98_template_path_fails", "Pound.Props.C98_template_verbatim_fails", "Pound.Props.C98_empty_template_fails", "Pound.Props.C98_other_host_fails"], "note": "The command line: iff. The settings: if poundctl gets as far as connecting. Partial because of the code: sections without Verify are not verified though the manual says that is the default (C98_verify_default_fails); options before -S are dropped (C98_option_order_fails); TemplatePath is ignored (C98_template_path_fails); a file given with -t is looked for in the path, too (C98_template_verbatim_fails); an empty template file makes poundctl fail whatever it is to do (C98_empty_template_fails); the certificate of any host is accepted if its chain verifies (C98_other_host_fails)."},
 {"property": "C99", "status": "partial", "theorems": ["Pound.Props.C99_feature_partial", "Pound.Props.C99_start_partial", "Pound.Props.C99_check_only_partial", "Pound.Props.C99_status_partial", "Pound.Props.C99_check_fails", "Pound.Props.C99_include_dir_fails"], "note": "Starting: iff; -c: the status for every command line; status 0 only as said. Partial because of the code: -c says that a file without listeners is OK (C99_check_fails); -W include-dir without a value passes a null pointer to stat (C99_include_dir_fails). Parsing of the file is a parameter here (C65-C80)."},
 {"property": "C100", "status": "partial", "theorems": ["Pound.Props.C100_hash", "Pound.Props.C100_table_partial", "Pound.Props.C100_combine_partial", "Pound.Props.C100_combine_fails", "Pound.Props.C100_combine_twice_fails"], "note": "Hash values agree with comparisons in all tables (C100_hash); with that, all histories. LHASH of OpenSSL is modelled as nodes in any order with their hash values. Partial because of the code: when a name is repeated in CombineHeaders, the entry that was stored is released instead of the one replaced, and the next header of that name makes the server read released memory (C100_combine_fails, for every list with a repetition; look-ups are safe exactly for the other lists)."},
 {"property": "C101", "status": "partial", "theorems": ["Pound.Props.C101_sound_partial", "Pound.Props.C101_complete_partial", "Pound.Props.C101_one_partial", "Pound.Props.C101_routed_partial", "Pound.Props.C101_documented_partial", "Pound.Props.C101_rewritten_partial", "Pound.Props.C101_ignore_case_fails", "Pound.Props.C101_acl_order_fails", "Pound.Props.C101_rule_cert_fails", "Pound.Props.C101_endless_fails", "Pound.Props.C101_failover_partial", "Pound.Props.C101_random_partial", "Pound.Props.C101_served_partial", "Pound.Props.C101_shares_partial", "Pound.Props.C101_sticky_partial", "Pound.Props.C101_traffic_partial", "Pound.Props.C101_answers_partial", "Pound.Props.C101_forwards_partial", "Pound.Props.C101_relays_partial"], "note": "Joins C70, C71, C75, C78, C80 and C15: one parser for the whole file with access lists, services in full and listeners with theirs; FullConfigures says what the text means, and C101_routed_partial goes on to the service chosen. C101_complete_partial: everything documented is accepted, without messages and with that meaning (up to the representation of conditions and rules), so that a text has one meaning (C101_one_partial), and requests go to the services that the documented text says (C101_documented_partial) and are modified by the rules that it has in the listener and then in the service (C101_rewritten_partial), and are given the backends that it declares in the service (C101_served_partial), the same one as long as the sessions last that the text has in the service (C101_sticky_partial), and another one declared there when connecting fails (C101_failover_partial); with Balancer iwrr, requests are shared in the proportion of the priorities in the text (C101_shares_partial, C101_traffic_partial), and with Balancer random or none so are the numbers that random() gives (C101_random_partial). C101_answers_partial goes from the text and the bytes that a client sends to the bytes that it gets, for services with Error and Redirect backends; C101_forwards_partial goes on to the bytes that regular backends read: the request as it was taken, with the forwarding headers and after the rules of the text; C101_relays_partial goes back to what clients read from those: the response of the backend, but for Location and Content-Location, which follow RewriteLocation. Missing: double negations, Host with files of names and rules for responses, which are not read as documented (C70, C71); Include (C63, C65), ACME, the deprecated names of DeleteHeader and SetHeader in listeners, ECDHCurve and SSLEngine; CheckURL is read with the defaults at the start of the listener. Deviations: IgnoreCase in a service applies to all that follows it, even in other listeners (C101_ignore_case_fails); an access list can be named only after its definition (C101_acl_order_fails); ClientCert in rules is not noticed where there is no encryption (C101_rule_cert_fails). With Balancer iwrr and several backends, Emergency backends are never reached (C101_endless_fails)."},
 {"property": "C102", "status": "partial", "theorems": ["Pound.Props.C102_lines", "Pound.Props.C102_columns_partial", "Pound.Props.C102_eol_partial", "Pound.Props.C102_tab_fails", "Pound.Props.C102_string_fails"], "note": "Lines are right for all texts (C102_lines). Columns are right on lines where tabulators come first only, the rest is partial: after a word a tabulator is counted as eight columns and given back as one (C102_tab_fails). Finding: an unterminated string is reported on the line after it (C102_string_fails). Not covered: the places of whole sections, and messages after the end of the outermost file, which have none."},
 {"property": "C103", "status": "partial", "theorems": ["Pound.Props.C103_status_partial", "Pound.Props.C103_core_partial", "Pound.Props.C103_listener_partial", "Pound.Props.C103_service_partial", "Pound.Props.C103_backend_partial", "Pound.Props.C103_indent_partial", "Pound.Props.C103_core_memory_partial", "Pound.Props.C103_backend_memory_partial", "Pound.Props.C103_array_fails", "Pound.Props.C103_released_fails", "Pound.Props.C103_omits_fails", "Pound.Props.C103_stats_fails", "Pound.Props.C103_lost_fails"], "note": "Proved for all states with memory at hand (status, core, listener, service, backend, refused indentation), with the text that is sent; for core and for backends without statistics also under any pattern of failing allocations (whole answer or error, no fault).  Partial because the code violates the rest: json_new_array returns a value whose array is NULL when its second allocation fails, since the out-of-memory hook returns (C103_array_fails); listener_serialize adds services to an array it has released (C103_released_fails) and overwrites earlier errors, so that a listener is sent without its name and with status 200 (C103_omits_fails); backend_stats_serialize ignores errors (C103_stats_fails); values that cannot be added are lost (C103_lost_fails)."}
]}
