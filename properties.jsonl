{"id": "C01", "title": "Declared body lengths are read exactly or refused", "statement": "A length given in a Content-Length header or in a chunk-size line is either refused or read as exactly the number its digits denote in base 10 (resp. 16); a number that does not fit the internal 63-bit counter is always refused, never wrapped, and anything other than an optional blank prefix, digits and (for chunk sizes) a ';' extension is refused.", "quantifier": "every byte string used as a Content-Length value or chunk-size line, of any length", "why_tests_cant": "The set of digit strings is infinite and the interesting ones (wrap-around) sit at the 2^63 boundary and beyond in every base; a test samples a few.", "anchors": ["src/http.c:strtoclen", "src/http.c:get_content_length"]}
{"id": "C02", "title": "Chunked bodies are framed exactly", "statement": "If relaying a chunked body succeeds, then the bytes taken from the client are exactly one well-formed chunked body (size lines, data, final zero chunk, trailer section), the bytes that follow it on the connection are left untouched for the next request, the data delivered onwards decodes to the same payload, and conversely every well-formed chunked body followed by anything is relayed.", "quantifier": "every byte stream arriving on the connection, any number and size of chunks, any trailers, any following bytes", "why_tests_cant": "Request-smuggling depends on disagreement about where one message ends for some stream; only a statement over all streams excludes it.", "anchors": ["src/http.c:copy_chunks", "src/http.c:copy_bin", "src/http.c:get_line"]}
{"id": "C03", "title": "Fixed-length bodies are framed exactly", "statement": "Relaying a body of declared length n delivers exactly the next n bytes of the stream, unchanged and in order, and leaves the rest of the stream untouched; if fewer than n bytes are available the relay reports failure and never delivers bytes that were not received.", "quantifier": "every declared length and every byte stream", "why_tests_cant": "Buffer-boundary errors show only for particular lengths relative to the internal buffer size; the property ranges over all lengths.", "anchors": ["src/http.c:copy_bin"]}
{"id": "C04", "title": "Input lines are delimited exactly and contain no control characters", "statement": "A line delivered by the reader never contains CR, LF or another control character except TAB and is shorter than the buffer; it consumes exactly the bytes up to and including the terminating LF (LF or CRLF accepted); a bare CR, a control character or an over-long line is reported as an error and the rest of that line is skipped, so a following line is never merged with it.", "quantifier": "every byte stream and every buffer size", "why_tests_cant": "Header-injection depends on some unusual combination of CR, LF, NUL and buffer boundary; all combinations must be excluded.", "anchors": ["src/http.c:get_line", "src/http.c:drain_eol"]}
{"id": "C05", "title": "Ambiguous request framing is refused", "statement": "A request that carries both a Content-Length and a Transfer-Encoding, more than one Content-Length header or a list-valued one, an unparsable Content-Length, more than one chunked Transfer-Encoding, a Transfer-Encoding in which chunked is not last, or transfer codings without chunked is answered with an error and never forwarded; a request that is forwarded is framed by at most one of the two mechanisms.", "quantifier": "every list of request headers, of any length and in any order", "why_tests_cant": "The decision is a fold over an unbounded header list with carried state; each order of header kinds is a different path.", "anchors": ["src/http.c:do_http"]}
{"id": "C06", "title": "Only well-formed request lines are accepted", "statement": "A request is accepted only if its first line is METHOD, URI and HTTP/1.0 or HTTP/1.1, separated by spaces, with a method of the set enabled on the listener and non-empty URI; an otherwise well-formed line with a method outside of the enabled set is answered 405 and any other line 400; the accepted method, URI and version are exactly the three fields of the line.", "quantifier": "every request line and every listener method group", "why_tests_cant": "All strings; parsers go wrong on particular separators or prefixes of method names.", "anchors": ["src/http.c:parse_http_request", "src/http.c:find_method"]}
{"id": "C07", "title": "Splitting a URL loses nothing", "statement": "Splitting a request URI in path and query and re-assembling gives back the URI that was received, except that an empty query part is dropped with its '?'; the path is the part before the first '?' and the query the part after it; after any history of edits the views (URI, path, query, request line) agree.", "quantifier": "every URI", "why_tests_cant": "Round trip over all strings (several '?', leading '?', empty parts).", "anchors": ["src/http.c:http_request_split", "src/http.c:http_request_rebuild_url"]}
{"id": "C08", "title": "Query parameters behave as an ordered map", "statement": "After parsing the query of a request, setting parameter k to v makes a read of k return v, leaves the reads of all other parameters unchanged, keeps the order of the existing ones, and removing k makes reads of k find nothing more than duplicates that were there; rebuilding the query of an unmodified request yields the same parameters when parsed again.", "quantifier": "every query string, parameter name and value, and every sequence of set/remove operations", "why_tests_cant": "Histories of edits over arbitrary queries.", "anchors": ["src/http.c:http_request_parse_query", "src/http.c:http_request_get_query_param_value", "src/http.c:http_request_set_query_param", "src/http.c:http_request_rebuild_query"]}
{"id": "C09", "title": "Adding a header honours the requested mode", "statement": "Adding a header in 'keep' mode leaves an existing header of the same name untouched, in 'replace' mode makes the first header of that name carry exactly the new text, in 'append' mode extends its value by a comma and the new value; headers of other names, and their order, never change; a header that does not exist is added at the end; malformed header text changes nothing.", "quantifier": "every header list, header text and mode", "why_tests_cant": "Unbounded lists of headers with names equal up to letter case.", "anchors": ["src/http.c:http_header_list_append", "src/http.c:http_header_list_locate_name", "src/http.c:http_header_change"]}
{"id": "C10", "title": "Comma-separated token search is exact", "statement": "Looking for a token in a comma-separated header value succeeds exactly if one of the comma-separated, blank-trimmed elements equals the token (up to letter case when asked to), and the rest that is reported is what follows the first such element.", "quantifier": "every header value and token", "why_tests_cant": "All strings; off-by-one at element boundaries (prefix of a longer token, trailing blanks).", "anchors": ["src/http.c:cs_locate_token"]}
{"id": "C11", "title": "Redirect locations cannot inject or be mangled", "statement": "The location written to the client in a redirect consists only of URL-safe ASCII characters and %-escapes, so it contains no line break, and percent-decoding it gives back the bytes of the target URL.", "quantifier": "every target URL, built from any request", "why_tests_cant": "All byte values in all positions; non-ASCII bytes and control characters are rarely tested.", "anchors": ["src/http.c:redirect_response"]}
{"id": "C12", "title": "String templates expand to their defined value", "statement": "Expanding a template copies ordinary text verbatim, turns $$ and $% into the single character, replaces $N / ${N} / $N(M) by the text of the N-th group of the M-th latest recorded match (empty for a group that took no part in it), replaces %[name arg] by the value of the request part with that name, and always terminates without touching memory outside the template or the recorded match; a request part that is missing gives nothing, an unknown one is copied as it stands, and a reference to a match or a group that does not exist makes the expansion fail as a whole.", "quantifier": "every template string, every stack of submatches and every accessor result", "why_tests_cant": "Scanner over all strings; the end-of-string cases and nesting of brackets are unbounded.", "anchors": ["src/http.c:expand_string_to_buffer", "src/http.c:find_accessor", "src/http.c:submatch_queue_get"]}
{"id": "C13", "title": "The submatch history returns the latest matches", "statement": "After any number of matches, 'the n-th latest match' for n below the history size is the n-th latest one that was recorded, and older ones are forgotten in order; no access is ever out of the history's bounds.", "quantifier": "every sequence of pushes and every index", "why_tests_cant": "Ring-buffer wrap-around after an unbounded number of operations.", "anchors": ["src/http.c:submatch_queue_push", "src/http.c:submatch_queue_get"]}
{"id": "C14", "title": "Conditions evaluate as the boolean formula that was configured", "statement": "The evaluation of a condition tree gives the truth value of the and/or/not formula over the elementary tests whenever no elementary test fails with an error; evaluation is left to right and stops as soon as the result is determined; an error in a test that is reached makes the whole result an error and never a match.", "quantifier": "every condition tree of any depth and width, every outcome of the elementary tests", "why_tests_cant": "Trees are unbounded, errors can appear at every leaf.", "anchors": ["src/http.c:match_cond"]}
{"id": "C15", "title": "A request goes to the first enabled matching service", "statement": "The service chosen for a request is the first one, in configuration order, listener services before global ones, that is enabled and whose conditions match; if there is none the request is answered 503 and not forwarded; a service whose conditions cannot be evaluated is never chosen.", "quantifier": "every list of listener and global services, any pattern of disabled services and match results", "why_tests_cant": "Unbounded lists and run-time enable/disable history.", "anchors": ["src/svc.c:get_service", "src/svc.c:match_service"]}
{"id": "C16", "title": "A rewrite rule chain applies exactly one branch", "statement": "For each rewrite rule with its else branches exactly the operations of the first branch whose condition holds are applied, in order, and none of the others; if no condition holds nothing is applied; rules are applied in order and an operation that fails stops the processing.", "quantifier": "every list of rules with any number of else branches and operations", "why_tests_cant": "Unbounded chains; conditions are evaluated on state changed by earlier rules.", "anchors": ["src/http.c:rewrite_apply", "src/http.c:rewrite_rule_check", "src/http.c:rewrite_op_apply"]}
{"id": "C17", "title": "The session table behaves as a map with expiry", "statement": "After any history of add, find, remove and expiry, looking up a key gives the backend most recently associated with it unless it was removed, its backend was removed, or it expired; there is at most one session per key; entries are ordered by expiry time; a successful look-up extends the life of that entry only.", "quantifier": "every history of session operations with non-decreasing clock, any number of keys", "why_tests_cant": "Histories are unbounded; order of expiry vs. promotion matters.", "anchors": ["src/svc.c:service_session_add", "src/svc.c:service_session_find", "src/svc.c:expire_sessions", "src/svc.c:service_session_remove_by_key", "src/svc.c:service_session_remove_by_backend"]}
{"id": "C18", "title": "Expired sessions always get collected", "statement": "Whenever the session table of a service is not empty a collection job is pending no later than the expiry time of its oldest entry as it was known when armed; so no expired session survives forever.", "quantifier": "every history of session operations and timer runs", "why_tests_cant": "Liveness of the re-arming logic over all interleavings of add/remove/expire.", "anchors": ["src/svc.c:expire_sessions", "src/svc.c:service_session_add"]}
{"id": "C19", "title": "Timer jobs run in time order, each at most once", "statement": "The job queue is always sorted by due time, jobs with equal due time keep their order of submission, every job gets a fresh identifier, the timer only runs jobs that are due, runs each at most once, and a job cancelled before it ran is never run.", "quantifier": "every history of job submissions, cancellations and timer wake-ups", "why_tests_cant": "Unbounded histories and all insertion positions.", "anchors": ["src/svc.c:job_arm_unlocked", "src/svc.c:job_enqueue_unlocked", "src/svc.c:job_cancel", "src/svc.c:thr_timer"]}
{"id": "C20", "title": "Backend selection only returns active backends and returns one if it exists", "statement": "Selecting a backend from a service returns a backend that is enabled and alive at that time, and fails only if the service has none; balancing groups are tried in order of their weight.", "quantifier": "every list of balancing groups and backends, every priority assignment, every random number or round-robin position", "why_tests_cant": "All combinations of dead/disabled backends and balancer state.", "anchors": ["src/svc.c:service_lb_select_backend", "src/svc.c:balancer_select_backend", "src/svc.c:rand_select", "src/svc.c:iwrr_select"]}
{"id": "C21", "title": "Random balancing follows priorities", "statement": "With the random strategy every draw selects an active backend, and among the equally likely draws each active backend is selected for exactly as many values as its priority; inactive backends are never selected.", "quantifier": "every list of backends and priorities and every drawn number", "why_tests_cant": "Counting over the whole draw space for every configuration.", "anchors": ["src/svc.c:rand_select", "src/svc.c:random_in_range"]}
{"id": "C22", "title": "Weighted round robin is fair in every cycle", "statement": "With the interleaved weighted round robin strategy, in a full cycle over the rounds each active backend is selected exactly as many times as its priority, inactive backends never, and the selection always terminates when there is an active backend with positive priority.", "quantifier": "every list of backends and priorities, starting at the beginning of any cycle", "why_tests_cant": "Long-run fairness over arbitrary configurations.", "anchors": ["src/svc.c:iwrr_select", "src/svc.c:iwrr_reset"]}
{"id": "C23", "title": "Balancer totals match the active backends", "statement": "After any sequence of enabling, disabling, killing and reviving backends the numbers a balancer keeps (number of active backends, total and maximum priority) equal the values computed from its active backends, so no balancer believes it has an active backend when it does not, and vice versa.", "quantifier": "every history of enable/disable/kill/revive operations, including concurrent ones", "why_tests_cant": "Histories and interleavings; drift shows only after particular orders.", "anchors": ["src/svc.c:balancer_recompute_pri_unlocked", "src/svc.c:backend_disable", "src/svc.c:kill_be", "src/svc.c:touch_be"]}
{"id": "C24", "title": "Sticky sessions keep their backend", "statement": "While a session exists, every request carrying its key is sent to the backend recorded in it as long as that backend is alive; a request without a key is balanced without creating a session where the session type requires a key from the request; killing a backend drops all its sessions and no others.", "quantifier": "every session type, key, history", "why_tests_cant": "Histories of requests with backend failures.", "anchors": ["src/svc.c:get_backend", "src/svc.c:find_backend_by_key", "src/svc.c:upd_session", "src/svc.c:kill_be"]}
{"id": "C25", "title": "Control requests address the object they name", "statement": "A control path /listener/L/service/S/backend/B (by number or name, '-' for the global level) is resolved to exactly the L-th (or so named) listener, the S-th service and the B-th backend in configuration order, and to an error when any of them does not exist; nothing else is modified by enable/disable requests; the objects that serve the control interface itself can not be disabled.", "quantifier": "every configuration, every path string", "why_tests_cant": "All strings and configuration sizes.", "anchors": ["src/svc.c:ctl_getident", "src/svc.c:LOCATE", "src/svc.c:ctl_backend", "src/svc.c:disable_handler"]}
{"id": "C26", "title": "Control requests are dispatched to the right handler or rejected", "statement": "A control request is handled by the endpoint whose URI is the longest listed prefix of the path (ending on a segment boundary) and only if its method is the one of the endpoint; other requests get 404 or 405 and have no effect.", "quantifier": "every path and method", "why_tests_cant": "All strings.", "anchors": ["src/svc.c:find_endpoint", "src/svc.c:control_response_basic"]}
{"id": "C27", "title": "Reported backend indices are right", "statement": "The backend index shown for a session is the position of its backend in the listing of the service's backends, so that using it in a control request addresses the same backend.", "quantifier": "every service configuration with any number of balancing groups and backends", "why_tests_cant": "Requires all shapes of nested lists.", "anchors": ["src/svc.c:session_backend_index", "src/svc.c:find_backend_index", "src/svc.c:service_session_serialize"]}
{"id": "C28", "title": "Intrusive lists implement sequences", "statement": "The singly and doubly linked list operations (append, push, shift, insert before/after, remove, concatenate) refine the corresponding operations on sequences: forward and backward traversal give the same sequence, the head, tail and count stay consistent, and no operation follows a dangling link.", "quantifier": "every sequence of list operations on any number of elements", "why_tests_cant": "Pointer structure invariants over unbounded histories.", "anchors": ["src/list.h"]}
{"id": "C29", "title": "String buffers never overflow and hold what was added", "statement": "After any sequence of operations on a string buffer, its content is the concatenation of what was added (minus what was truncated/consumed), all writes are within the allocated size, and a capacity computation that would overflow is reported as an error instead of wrapping.", "quantifier": "every sequence of operations and sizes", "why_tests_cant": "Growth arithmetic at all sizes incl. near SIZE_MAX.", "anchors": ["src/mem.c:stringbuf_expand", "src/mem.c:stringbuf_add", "src/mem.h:stringbuf_consume", "src/mem.c:mem2nrealloc"]}
{"id": "C30", "title": "JSON objects behave as maps", "statement": "After any sequence of sets on a JSON object, getting a key returns the last value set for it and ENOENT for others; keys are listed in ascending order without duplicates.", "quantifier": "every sequence of set/get operations, any keys", "why_tests_cant": "Binary-search insertion over unbounded sorted lists.", "anchors": ["src/json.c:json_object_lookup_or_install", "src/json.c:json_object_set", "src/json.c:json_object_get"]}
{"id": "C31", "title": "JSON strings survive formatting and parsing", "statement": "Formatting a string value and parsing the result yields the original string, without reading or writing outside of the buffers.", "quantifier": "every string of bytes without NUL", "why_tests_cant": "Escapes in all positions; two-pass length computation.", "anchors": ["src/json.c:json_format_escape", "src/json.c:j_get_text"]}
{"id": "C32", "title": "ACLs match exactly the addresses in their networks", "statement": "An address matches an ACL exactly if it has the same family as some entry and agrees with it on the first n bits, where n is the configured mask length; malformed entries are refused when the configuration is read.", "quantifier": "every address, every list of networks, every mask length", "why_tests_cant": "All 2^128 addresses times all mask lengths; byte-boundary arithmetic.", "anchors": ["src/config.c:cidr_match", "src/config.c:acl_match", "src/config.c:masklen_to_netmask", "src/config.c:parse_cidr"]}
{"id": "C33", "title": "Fixed-string patterns match exactly their language", "statement": "A pattern of kind exact, begins-with, ends-with or contains matches a subject exactly if the subject equals, starts with, ends with or contains the pattern (up to letter case if so configured), and matching always terminates without reading out of bounds.", "quantifier": "every pattern and subject string", "why_tests_cant": "Boyer-Moore shift tables are wrong only for particular pattern/subject combinations.", "anchors": ["src/genpat.c:exact_exec", "src/genpat.c:prefix_exec", "src/genpat.c:suffix_exec", "src/genpat.c:strstr_exec", "src/genpat.c:fill_good_pfx_delta"]}
{"id": "C34", "title": "Basic authentication accepts only listed credentials", "statement": "A request passes basic authentication exactly if the password file contains an entry for the user and the first such entry accepts the password under the scheme of its hash (apr1, SHA1, crypt or plain text); comments, blank lines and lines without ':' never authenticate anybody; after the file changes only the new content counts.", "quantifier": "every password file content, user and password, and any history of file changes", "why_tests_cant": "All file contents; scheme selection by prefix.", "anchors": ["src/bauth.c:auth_match", "src/bauth.c:pass_file_fill", "src/bauth.c:basic_auth_internal"]}
{"id": "C35", "title": "The worker pool stays in bounds and serves every request once", "statement": "At any time the number of workers is between the configured minimum and maximum once started, busy workers never exceed workers, each accepted connection is handed to exactly one worker, in order of arrival, and none is dropped while a worker exists.", "quantifier": "every interleaving of arrivals, dequeues, time-outs and completions, any min<=max", "why_tests_cant": "All schedules.", "anchors": ["src/pound.c:pound_http_enqueue", "src/pound.c:pound_http_dequeue", "src/pound.c:active_threads_decr"]}
{"id": "C36", "title": "The dispatcher accepts from exactly the ready enabled listeners", "statement": "In each round the dispatcher accepts a connection on every listener whose socket is ready and which is enabled, and on no other; the connection is attributed to the listener it arrived on.", "quantifier": "every set of listeners, enabled/disabled states and readiness", "why_tests_cant": "All subsets; index bookkeeping across a list and a poll array.", "anchors": ["src/pound.c:thr_dispatch"]}
{"id": "C37", "title": "Dynamic backends track DNS", "statement": "After a successful address look-up the backends generated for a dynamic backend are exactly one per distinct address in the answer; existing ones that are still listed are kept; removed ones receive no new requests and are only released when no request uses them any more; temporary look-up failures do not remove backends.", "quantifier": "every sequence of DNS answers and every interleaving with requests in flight", "why_tests_cant": "Histories of answers and reference counts.", "anchors": ["src/dynbe.c:backend_matrix_addr_update", "src/dynbe.c:backend_sweep", "src/dynbe.c:thr_backend_remover", "src/resolver.c:dns_addr_lookup"]}
{"id": "C38", "title": "Forwarded-for addresses are taken from trusted hops only", "statement": "The client address derived from a forwarding header is the right-most address in it that is not in the trusted list, and none if the header is malformed before such an address is met or all are trusted; so a client cannot choose it by prepending entries.", "quantifier": "every header value and trusted list", "why_tests_cant": "All strings; attacker-controlled prefix.", "anchors": ["src/log.c:scan_forwarded_header", "src/log.c:acl_match_ip"]}
{"id": "C39", "title": "Log formats compile to what they say", "statement": "Compiling a log format either fails with a diagnostic or yields a program which prints literal text verbatim and each conversion in order, never reading past the end of the format.", "quantifier": "every format string", "why_tests_cant": "All strings.", "anchors": ["src/log.c:http_log_format_compile"]}
{"id": "C40", "title": "Client renegotiation is refused", "statement": "When client renegotiation is disabled, any client hello after the first completed handshake makes the connection abort, and it stays aborted; no connection is aborted before its first handshake completed.", "quantifier": "every sequence of TLS handshake events", "why_tests_cant": "All event sequences.", "anchors": ["src/svc.c:SSLINFO_callback"]}
{"id": "C41", "title": "A response is relayed with correct framing", "statement": "The final response of the backend is relayed to the client with its status line, headers and body, also after interim 1xx responses; no body is expected for HEAD requests and for 1xx, 204 and 304 responses; otherwise the body is delimited by chunked coding, by the content length or by the end of the connection, in this order of preference.", "quantifier": "every request method, sequence of interim responses, status code and header list", "why_tests_cant": "State carried across an unbounded number of interim responses.", "anchors": ["src/http.c:backend_response", "src/http.c:http_response_validate"]}
{"id": "C42", "title": "A connection is reused only when both sides agree on the message boundary", "statement": "The client connection is kept for another request only if the client speaks HTTP/1.1 and neither the request, the response nor an error asked to close it; every error reply closes the connection.", "quantifier": "every sequence of requests and replies on one connection", "why_tests_cant": "Histories of keep-alive requests.", "anchors": ["src/http.c:do_http", "src/http.c:http_err_reply", "src/http.c:backend_response"]}
{"id": "C43", "title": "Service response to a failed backend is fail-over", "statement": "If connecting to the selected backend fails the backend is marked dead and another active one is tried; a request fails with 503 only when no active backend is left; each failed backend is tried at most once per request; references taken on backends are released exactly once.", "quantifier": "every outcome sequence of connection attempts, any number of backends", "why_tests_cant": "All failure patterns and their order.", "anchors": ["src/http.c:select_backend", "src/svc.c:kill_be"]}
{"id": "C44", "title": "Configuration strings are read back literally", "statement": "A quoted string in the configuration denotes exactly the characters between the quotes with \\\" and \\\\ standing for themselves; unterminated strings are errors; every string can be written so that it is read back unchanged.", "quantifier": "every string", "why_tests_cant": "All strings and positions of quotes and backslashes.", "anchors": ["src/cfgparser.c:input_gettkn"]}
{"id": "C45", "title": "Include files cannot loop", "statement": "Including configuration files always terminates: a file that is already being read is refused, so the stack of open files never holds the same file twice.", "quantifier": "every graph of include statements among finitely many files", "why_tests_cant": "All include graphs.", "anchors": ["src/cfgparser.c:push_input", "src/cfgparser.c:gettkn"]}
{"id": "C46", "title": "Numeric settings are in range or refused", "statement": "A numeric setting is stored only if it is a decimal number in the allowed range of the setting; no truncation takes place.", "quantifier": "every number token", "why_tests_cant": "All digit strings.", "anchors": ["src/cfgparser.c:cfg_assign_unsigned", "src/cfgparser.c:cfg_assign_int", "src/cfgparser.c:cfg_assign_int_range", "src/cfgparser.c:cfg_assign_mode"]}
{"id": "C47", "title": "Host conditions match the configured host only", "statement": "A Host condition with an exact name holds only for requests whose Host header value is that name (up to letter case); with names read from a file each line is treated in the same way.", "quantifier": "every host name and header value, any number of lines", "why_tests_cant": "All strings.", "anchors": ["src/config.c:host_prefix_regex", "src/config.c:stringbuf_escape_regex", "src/config.c:parse_cond_matcher_0"]}
{"id": "C48", "title": "Location headers are rewritten only when they point back to us", "statement": "A Location or Content-Location header is rewritten only if it is an absolute http(s) URL whose address is that of the backend, or of the listener with another protocol or port; the path is preserved; all other headers are left alone.", "quantifier": "every header value and every pair of addresses", "why_tests_cant": "All strings and addresses.", "anchors": ["src/svc.c:need_rewrite", "src/svc.c:is_backend_address", "src/svc.c:is_listener_address"]}
{"id": "C49", "title": "Certificates are selected by server name", "statement": "A TLS client that sends a server name gets the first configured certificate one of whose common or alternative names matches it as a shell pattern, the first certificate if none matches; one that sends none gets the first.", "quantifier": "every list of certificates and names, every server name", "why_tests_cant": "Unbounded nested lists.", "anchors": ["src/config.c:SNI_server_name"]}
{"id": "C50", "title": "Shutdown handlers and supervision", "statement": "Clean-up handlers registered at run time are each run exactly once at exit, in order of registration; the supervisor restarts the worker process whenever it ends abnormally unless termination was requested, and forwards the first termination request to it.", "quantifier": "every sequence of registrations, child exits and signals", "why_tests_cant": "All event sequences.", "anchors": ["src/pound.c:pound_atexit", "src/pound.c:cleanup", "src/pound.c:supervisor"]}
{"id": "C51", "title": "The request size limit holds for chunked bodies", "statement": "When a maximum request size is configured, relaying a chunked body delivers at most that many bytes of payload; a larger body is answered 413.", "quantifier": "every byte stream, any number and size of chunks, every limit", "why_tests_cant": "Unbounded streams and chunk sizes up to the size of the counter.", "anchors": ["src/http.c:copy_chunks"]}
{"id": "C52", "title": "The head of a request is read exactly", "statement": "Reading a request takes from the connection exactly the empty lines before it, the request line and the header block up to and including the empty line; the headers of the request are the well-formed header lines in their order, where headers with a name configured as combinable are merged at the place of the first one with their values joined by commas, and malformed lines are left out.", "quantifier": "every byte stream and every set of combinable names", "why_tests_cant": "Unbounded streams, number of lines and repetitions of headers.", "anchors": ["src/http.c:http_request_read", "src/http.c:is_combinable_header", "src/http.c:compose_header_finish"]}
{"id": "C53", "title": "A request is forwarded with the body it announces", "statement": "What a backend receives for a request is the request line and the headers, minus Expect: 100-continue and plus the configured edits, followed by exactly the body the client announced: nothing, the declared number of bytes, or the chunked body with the same payload; the head cannot be continued or ended by the value of a header, and no byte beyond the body is taken from the client.", "quantifier": "every client stream, every header list, every edit", "why_tests_cant": "Unbounded streams and headers; request smuggling depends on the exact boundary.", "anchors": ["src/http.c:send_to_backend", "src/http.c:http_request_send", "src/http.c:do_http"]}
{"id": "C54", "title": "Replies made by the program delimit themselves", "statement": "Each error reply and redirect made by the program is a status line, header lines and an empty line followed by a body whose length is exactly the one its Content-Length header states, so that a client can tell where it ends; none of the inserted texts can end the header block early.", "quantifier": "every status, error text and redirect target", "why_tests_cant": "All texts of all lengths.", "anchors": ["src/http.c:bio_http_reply_start", "src/http.c:bio_http_reply", "src/http.c:bio_err_reply", "src/http.c:redirect_response"]}
{"id": "C55", "title": "ACME challenges are answered from the configured directory", "statement": "The file sent in answer to an ACME challenge request is the one in the configured directory whose name is the remaining part of the URL path, and it is never outside of that directory.", "quantifier": "every request URL", "why_tests_cant": "All path components in all combinations.", "anchors": ["src/http.c:acme_response", "src/config.c:parse_acme"]}
{"id": "C56", "title": "JSON documents survive the trip from server to client", "statement": "Parsing the formatted text of any JSON value, with any indentation and followed by any text that starts with a separator, yields the same value (integers are read as numbers) and leaves exactly the following text.", "quantifier": "every value: nulls, booleans, numbers, strings, arrays and objects nested to any depth, every indentation", "why_tests_cant": "Unbounded nesting, sizes and strings.", "anchors": ["src/json.c:json_value_format", "src/json.c:json_parse_string", "src/svc.c:send_json_reply", "src/poundctl.c"]}
{"id": "C57", "title": "JSON replies are valid JSON", "statement": "The text sent by the control interface for any value is a JSON text according to RFC 8259, whatever bytes its strings consist of.", "quantifier": "every value and every indentation", "why_tests_cant": "Unbounded nesting, sizes and strings.", "anchors": ["src/json.c:json_value_format", "src/json.c:json_format_escape"]}
{"id": "C58", "title": "JSON parsing stops and arrays keep their elements", "statement": "Parsing any text ends after finitely many steps with a value or an error; element i of an array is the i-th value appended, and reading beyond the end reports ENOENT.", "quantifier": "every input text, every sequence of appends and every allocation behaviour", "why_tests_cant": "All byte strings; unbounded array sizes.", "anchors": ["src/json.c:json_parse_string", "src/json.c:json_array_append", "src/json.c:json_array_insert", "src/json.c:json_array_get"]}
{"id": "C59", "title": "Which requests are logged, and with which status", "statement": "A request that is answered is written to the log exactly if its listener's format is not empty and the class of its status is not among those suppressed for its service; the status in the log is the one the client got.", "quantifier": "every status, every LogSuppress statement, every sequence of requests on a connection", "why_tests_cant": "All combinations of words and codes; the status depends on the history of the connection.", "anchors": ["src/log.c:http_log", "src/config.c:parse_log_suppress", "src/http.c:do_http"]}
{"id": "C60", "title": "A connection that times out is not used again", "statement": "With a limit of n seconds, a read or write is carried out only if the peer is ready within that time; if it is not, the operation fails and so does every later one on the same connection. A limit of 0 means none. Every limit the configuration accepts behaves so.", "quantifier": "every history of operations, handshake events and results of poll, every limit", "why_tests_cant": "Histories of unbounded length; all 2^32 limits.", "anchors": ["src/http.c:bio_callback", "src/http.c:set_callback"]}
{"id": "C61", "title": "Certificates are chosen as clients verify them", "statement": "The certificate presented for a server name is one whose names match it in the way clients verify them: without regard to case, and with a wildcard standing for exactly one label.", "quantifier": "every server name and certificate name", "why_tests_cant": "All names.", "anchors": ["src/config.c:SNI_server_name"]}
{"id": "C62", "title": "A configuration text is read as the tokens it consists of", "statement": "Words, quoted strings and newlines are read in order, separated by white space, comments extend to the end of their line and count as its newline; a word is an identifier if it starts with a letter or underscore and consists of letters, digits and underscores, a number if it consists of digits, else a literal; at the end of an included file the including one is continued.", "quantifier": "every text made up of such tokens, of any length", "why_tests_cant": "All texts.", "anchors": ["src/cfgparser.c:input_gettkn", "src/cfgparser.c:gettkn"]}
{"id": "C63", "title": "Text blocks are taken literally", "statement": "The text of a block closed by End is exactly the lines before the first line that consists of the word End (in any letter case, surrounded by white space); a block without such a line is refused.", "quantifier": "every sequence of lines", "why_tests_cant": "All texts.", "anchors": ["src/cfgparser.c:cfg_read_to_end", "src/config.c:read_resolv_text"]}
{"id": "C64", "title": "Boolean settings", "statement": "A boolean setting is true exactly for the words 1, yes, true, on and false exactly for 0, no, false, off, without regard to letter case; anything else is refused.", "quantifier": "every token", "why_tests_cant": "All tokens.", "anchors": ["src/cfgparser.c:cfg_assign_bool", "doc/pound.8"]}
{"id": "C65", "title": "A configuration is read as nested statements, or refused", "statement": "Every statement is handed to the parser its keyword has in the section that encloses it, with its own arguments, in the order of the text; End closes the innermost open section; a configuration with an unknown keyword, a bad or superfluous argument, an unclosed section or anything else that is no statement is refused.", "quantifier": "every configuration text over every table of keywords, sections nested to any depth", "why_tests_cant": "Unbounded nesting and length.", "anchors": ["src/cfgparser.c:cfgparser", "src/cfgparser.c:cfg_parse_end", "src/cfgparser.c:cfgparser_parse"]}
{"id": "C66", "title": "Keywords are looked up without regard to letter case", "statement": "A keyword stands for the first entry of that name, without regard to case, in the table of its section including the tables it refers to; an alias behaves as the statement it is an alias of.", "quantifier": "every table of keywords with references nested to any depth, every keyword", "why_tests_cant": "Unbounded tables.", "anchors": ["src/cfgparser.c:parser_find"]}
{"id": "C67", "title": "Forwarding headers tell who the client is", "statement": "With forwarding headers on, the backend receives X-Forwarded-Proto telling whether the client uses TLS, X-Forwarded-Port with the listener's port, and X-Forwarded-For whose last element is the client's address, whatever headers of these names the client sends; with them off, they are not touched.", "quantifier": "every request, client address and listener", "why_tests_cant": "All combinations of headers a client may send, including several of one name.", "anchors": ["src/http.c:add_forwarded_headers", "src/svc.c:addr2str"]}
{"id": "C68", "title": "TLS headers come from the client's certificate", "statement": "With TLS headers on, the headers X-SSL-Subject, X-SSL-Issuer, X-SSL-notBefore, X-SSL-notAfter, X-SSL-serial, X-SSL-certificate and X-SSL-cipher that a backend receives show the certificate and the cipher of the client's connection, whatever headers of these names the client sends.", "quantifier": "every request, certificate and connection", "why_tests_cant": "All certificates (names of any length) and all headers a client may send.", "anchors": ["src/http.c:add_ssl_headers", "src/http.c:set_header_from_bio"]}
{"id": "C69", "title": "Forwarding changes nothing but the headers that concern the backend", "statement": "When a request is forwarded, all headers but Host, Destination and those describing the client are passed on unchanged and in their order; Host is replaced by the backend's ServerName if it has one, otherwise kept; Destination, if rewriting is on and it is an absolute URL, gets the backend's scheme and address and keeps its path, otherwise it is kept.", "quantifier": "every request and configuration", "why_tests_cant": "All header lists.", "anchors": ["src/http.c:send_to_backend"]}
{"id": "C70", "title": "A service's conditions are those of its section", "statement": "A request is offered to a service exactly if all the conditions written in its section of the configuration are true of it, with Match AND, Match OR and Not combined as they are nested in the text, and options such as -icase, -beg or -file applying to the pattern they precede; every section written as documented is accepted.", "quantifier": "every section of a service: conditions in any number and order, nested to any depth; every request", "why_tests_cant": "Unbounded nesting; a misplaced condition admits or refuses requests silently.", "anchors": ["src/config.c:parse_service", "src/config.c:parse_match", "src/config.c:parse_not_cond", "src/config.c:parse_cond_matcher", "src/config.c:parse_match_mode"]}
{"id": "C71", "title": "A service modifies requests as its section says", "statement": "The modifications written in the section of a service are made in their order; of a Rewrite section with Else branches exactly those of the first branch all of whose conditions are true; nested Rewrite sections likewise; every section written as documented is accepted and nothing in it is dropped.", "quantifier": "every section of a service: rules in any number and order, with any number of Else branches, nested to any depth; every request", "why_tests_cant": "Unbounded nesting; interplay of Else, End and sections without conditions.", "anchors": ["src/config.c:parse_rewrite", "src/config.c:parse_else", "src/config.c:parse_end_else", "src/config.c:rewrite_rule_last_uncond"]}
{"id": "C72", "title": "The metrics page shows the state of every object", "statement": "The metrics page has, for every listener, service and backend of the running program, the samples its families define, each with the current value: enabled or not, alive or not, numbers of backends total, enabled, alive and active, requests and times; labelled with the place of the object in the configuration. Each family appears once, with its header, and the page ends with the end mark. The reply announces the length of the page.", "quantifier": "every state of the program: any numbers of listeners, services and backends of all types, with any attributes", "why_tests_cant": "All shapes of configurations, including services without backends and listeners without services.", "anchors": ["src/metrics.c:metrics_response", "src/metrics.c:exposition_iterate", "src/svc.c:pound_serialize", "src/pound.c:workers_serialize"]}
{"id": "C73", "title": "A scraper reads from the metrics page what it shows", "statement": "Read by the rules of the OpenMetrics text format, the metrics page gives exactly the samples it was made from, with their labels and values, whatever the names of listeners and services; and no two of them have the same name and labels.", "quantifier": "every state of the program, in particular every name and address", "why_tests_cant": "All names a configuration may give.", "anchors": ["src/metrics.c:exposition_format", "src/metrics.c:metric_labels_add"]}
{"id": "C74", "title": "A service has the backends that its section says, with the properties they are given", "statement": "For every text of a Backend section: it is accepted without a message exactly if it consists of the documented statements; the last statement of each kind determines the property (address, port, family, time limits, priority, TLS settings, ...), others have the documented defaults, and TLS settings are accepted only after HTTPS. For every service section: its backends, redirections, errors and emergency backends are those written in it, in that order, and the balancing strategy is the last one named. Named backends are unique.", "quantifier": "all token sequences, all settings of the defaults, all outcomes of looking up ports and files", "why_tests_cant": "Sections are sequences of any length in any order; tests cover a few of them.", "anchors": ["src/config.c:parse_backend_internal", "src/config.c:backend_parsetab", "src/config.c:parse_backend", "src/config.c:parse_emergency", "src/config.c:parse_redirect_backend", "src/config.c:parse_error_backend", "src/config.c:parse_use_backend", "src/config.c:parse_balancer", "src/config.c:parse_named_backend"]}
{"id": "C75", "title": "Accepted backend declarations become working balancers", "statement": "For every service that was read: it is refused exactly if a named backend is not declared, an address is missing, a port is given with a socket path, a socket path is too long, dynamic backends are disabled, or a backend that must be alone is not; otherwise each backend is resolved, a socket, or dynamic, as declared, with its port defaulting to 80 or 443. A reference to a named backend is equivalent to its definition with the reference's settings appended. The resulting balancers satisfy the conditions under which selection (C20, C23) works: distinct backends, no empty balancer, priorities from 1 to 65535, correct totals, ascending weights.", "quantifier": "all declarations, all tables of named backends, all outcomes of address look-ups", "why_tests_cant": "The conditions depend on combinations of settings over all backends of a service; a test fixes one configuration.", "anchors": ["src/config.c:service_finalize", "src/config.c:backend_finalize", "src/config.c:backend_resolve", "src/config.c:cb_be_setup", "src/config.c:str_is_ip", "src/svc.c:balancer_recompute_pri_unlocked"]}
{"id": "C76", "title": "Every template written as the manual says is accepted", "statement": "poundctl accepts every template that follows the syntax of poundctl.tmpl(5): text, comments, trim markers, pipelines, function calls, constants, attributes, variables, if/else if/else, with, range, break, continue, define, block and template, nested in any way; and it reports an error for other texts.", "quantifier": "all template texts, of any length and nesting", "why_tests_cant": "Texts are unbounded and nest arbitrarily; every combination of delimiters, comments, white space and nesting must be read in the same way.", "anchors": ["src/tmpl.c:template_parse", "src/tmpl.c:scan_action", "src/tmpl.c:scan_arg", "src/tmpl.c:scan_pipeline", "src/tmpl.c:tmpl_gettok", "src/tmpl.c:tmpl_gettext"]}
{"id": "C77", "title": "A template prints what the manual says for every value", "statement": "Applied to a JSON value, a template prints its text with white space trimmed where asked for, the values of its pipelines, the branch of each if and with that the value selects, the body of each range once for every element in order up to a break, and the templates it calls, with the cursor and variables set as the manual says; a text without actions is printed unchanged.", "quantifier": "all templates and all JSON values", "why_tests_cant": "Templates and values are unbounded trees.", "anchors": ["src/tmpl.c:template_run", "src/tmpl.c:tmpl_action_eval", "src/tmpl.c:tmpl_pipeline_eval", "src/tmpl.c:funtab"]}
{"id": "C78", "title": "printf in templates gives what printf(3) says", "statement": "For every format and arguments of matching types, the printf function of templates gives the string printf(3) describes: flags, width, precision and conversion of every specification, each taking the next argument, ordinary characters unchanged.", "quantifier": "all formats and all lists of arguments", "why_tests_cant": "Combinations of flags, widths, precisions and values are unbounded.", "anchors": ["src/tmpl.c:func_printf", "src/tmpl.c:tmpl_va_arg_n"]}
{"id": "C79", "title": "A listener is what its section says", "statement": "For every text of a ListenHTTP or ListenHTTPS section: it is accepted without a message exactly if it consists of the documented statements with the documented arguments, in an order that is allowed (no address together with SocketFrom, one CheckURL, TLS settings only after a certificate), and its name is not used; then the last statement of each kind determines the property (address, port, methods, limits, log format, error pages, rewriting, protocols), HeaderOption and Disable accumulate, every TLS setting holds for each certificate given before it, and what is not given has the documented default. Services in it are those written, in that order.", "quantifier": "all token sequences, all defaults in force, all outcomes of looking up addresses and files, all parsers of other statements with the same properties", "why_tests_cant": "Sections are sequences of any length in any order, and the meaning of TLS settings depends on what came before; tests cover a few orders.", "anchors": ["src/config.c:http_common", "src/config.c:https_parsetab", "src/config.c:http_parsetab", "src/config.c:listener_parse", "src/config.c:resolve_listener_address", "src/config.c:parse_listen_http", "src/config.c:parse_listen_https", "src/config.c:https_parse_cert", "src/config.c:https_parse_client_cert", "src/config.c:parse_header_options", "src/config.c:listener_parse_socket_from"]}
{"id": "C80", "title": "A configuration means what its statements say", "statement": "For every configuration: it is accepted without a message exactly if it is a sequence of the documented global statements, named backends, services, listeners, control sockets and resolver sections with documented arguments, in which each LogLevel follows the definition of its format, formats have different names, and the minimal number of workers is not above the maximal one. Then the last statement of each kind determines each global setting (Threads sets both numbers of workers; HeaderOption and CombineHeaders accumulate), what is not given has the documented default, and everything defined takes its defaults from the settings that precede it.", "quantifier": "all token sequences, all outcomes of looking up addresses, ports and files", "why_tests_cant": "The meaning of a listener or service depends on everything that precedes it; there are unboundedly many orders of statements.", "anchors": ["src/config.c:top_level_parsetab", "src/config.c:parse_config_file", "src/config.c:parse_control_listener", "src/config.c:parse_resolver", "src/config.c:parse_combine_headers", "src/config.c:assign_regex_type", "src/config.c:parse_log_format", "src/config.c:parse_log_level", "src/cfgparser.c:cfg_assign_log_facility", "src/cfgparser.c:cfgparser"]}
{"id": "C81", "title": "SRV records become balancer groups", "statement": "For every history of look-ups and requests: after each SRV look-up of a dynamic backend with Resolve srv there is exactly one target for every host (in any letter case) and port that a record names, and none else. Until the next look-up, the backends made from the addresses of a target have the port of its record, as priority the weight of the record (1 if all weights of the group are 0; the configured priority with IgnoreSRVWeight), and are balanced in the group given by the priority of the record. Targets that are still listed keep their backends and sessions; those no longer listed go with all their backends, for good; all other backends are left alone. Disabling the backend removes all of its targets until it is enabled.", "quantifier": "all sequences of SRV and address look-ups, operator actions, requests and sessions; all answers in any order", "why_tests_cant": "What a look-up has to do depends on all earlier answers; tests would need a name server and cover a few answers only.", "anchors": ["src/dynbe.c:service_matrix_srv_update_backends", "src/dynbe.c:analyze_srv_response", "src/dynbe.c:backend_sweep", "src/dynbe.c:backend_table_hostname_lookup", "src/dynbe.c:backend_matrix_disable", "src/resolver.c:srv_cmp", "src/config.c:backend_matrix_to_regular"]}
{"id": "C82", "title": "Dynamic backends follow the name service", "statement": "For everything a name service may say: each look-up of the name of a dynamic backend gives it exactly the records of the answer (addresses in their order, those of both families; SRV records by priority, heavier ones first), found directly or over a chain of up to CNAMEChain aliases, and the next look-up is made when they expire, or after OverrideTTL seconds. A name without records gives no backends. A look-up that fails leaves the backends alone. In both cases the name is looked up again after RetryInterval seconds: that of the backend, or that of the resolver. No answer makes the program misbehave.", "quantifier": "all behaviours of the name service (any answer or error to each query), all names, families, settings and times", "why_tests_cant": "The answers come from servers nobody controls; tests would need name servers that fail in every way the library can report, and chains of aliases of all lengths.", "anchors": ["src/resolver.c:dns_query", "src/resolver.c:cname_install", "src/resolver.c:dns_generic_lookup", "src/resolver.c:dns_addr_lookup", "src/resolver.c:dns_srv_lookup", "src/resolver.c:adns_to_dns_status", "src/resolver.c:errno_to_dns_status", "src/dynbe.c:backend_matrix_addr_update", "src/dynbe.c:backend_matrix_srv_update", "src/resolver.c:get_negative_expire_time"]}
{"id": "C83", "title": "poundctl does what it is told and says whether it was done", "statement": "For every server with a control socket in any state: `poundctl disable PATH` and `enable PATH` switch exactly the object that PATH names, `list` shows it, `add` and `delete` change the session with the given key, and nothing else changes; the exit code is 0 if and only if that was done. Wrong commands are refused without contacting the server. Whatever a server replies, exit code 0 means that it said 200, and for enable and disable that the value it sent is true. The server is found from its URL or the configuration file of pound, and credentials in the URL reach it unchanged.", "quantifier": "all configurations, paths, keys, credentials, replies of any server, URLs and configuration files", "why_tests_cant": "Client and server must agree for all configurations and all texts a user may pass as arguments; a test uses one server and well-behaved arguments.", "anchors": ["src/poundctl.c:get_socket_name", "src/poundctl.c:url_parse", "src/poundctl.c:url_parse_creds", "src/poundctl.c:url_parse_host", "src/poundctl.c:check_uri", "src/poundctl.c:send_request", "src/poundctl.c:read_response", "src/poundctl.c:command_list", "src/poundctl.c:command_on_off", "src/poundctl.c:command_delete_session", "src/poundctl.c:command_add_session", "src/svc.c:send_json_reply", "src/http.c:control_response"]}
{"id": "C84", "title": "Names of backends in use are looked up for as long as they are in use, once at a time", "statement": "In every history of the program (backends created from the configuration or from SRV records, look-ups started by the timer, answers, temporary and permanent failures, control requests that disable and enable backends, SRV records that go away, threads that release backends, in any order): a dynamic backend that is in use has one look-up under way, waiting for its time or running; a backend that is disabled has none; and no backend is released while a look-up for it is queued or running, nor used after it was released.", "quantifier": "all histories, numbers of backends, interleavings of the timer, look-ups and control requests, and answers", "why_tests_cant": "Whether look-ups stop, pile up or use released memory depends on the order in which threads do things over the life of the program; a test sees one order.", "anchors": ["src/dynbe.c:job_enqueue_resolver", "src/dynbe.c:job_resolver", "src/dynbe.c:service_matrix_addr_update", "src/dynbe.c:service_matrix_srv_update", "src/dynbe.c:backend_matrix_disable", "src/dynbe.c:backend_matrix_schedule_update", "src/dynbe.c:backend_sweep", "src/dynbe.c:backend_ref", "src/dynbe.c:backend_unref", "src/svc.c:job_remove", "src/svc.c:job_cancel", "src/svc.c:thr_timer"]}
{"id": "C85", "title": "Threads never wait for each other in a circle, and never work on the tables of a service at the same time", "statement": "However many workers, look-ups, session expirations, checks of dead backends, control requests and removers run at the same time with the timer thread, and however their steps interleave: there are never threads that each wait for a mutex held by another of them, so some thread can always go on until all are done; a thread that is done holds no mutex; and no thread changes the lists of backends, the priorities or the sessions of a service while another one reads or changes them.", "quantifier": "all numbers of threads, all sequences of operations each of them runs, all interleavings, all backends and services", "why_tests_cant": "Deadlocks and data races show up under rare interleavings only; tests run a handful of them.", "anchors": ["src/svc.c:thr_timer", "src/svc.c:job_enqueue", "src/svc.c:get_backend", "src/svc.c:kill_be", "src/svc.c:upd_session", "src/svc.c:expire_sessions", "src/svc.c:touch_be", "src/svc.c:locate_backend", "src/svc.c:service_has_control", "src/svc.c:disable_handler", "src/dynbe.c:service_matrix_addr_update_backends", "src/dynbe.c:service_matrix_srv_update_backends", "src/dynbe.c:backend_sweep", "src/dynbe.c:backend_matrix_disable", "src/dynbe.c:thr_backend_remover", "src/dynbe.c:job_enqueue_resolver"]}
{"id": "C86", "title": "Removed backends are released once nobody uses them, and not before", "statement": "In every history of look-ups, requests, jobs and control requests, however they interleave with the threads that release removed backends and with spurious wake-ups: a backend is released at most once, after it was taken out of all tables and after the last request or job that used it has ended, and it is not used afterwards; once all threads have come to rest, every removed backend that nothing uses has been released, and no thread waits for backends that are gone.", "quantifier": "all histories, numbers of backends, requests and remover threads, and interleavings of remover steps with the dropping of references", "why_tests_cant": "Lost wake-ups and threads that are never woken depend on the exact order of a few instructions in different threads.", "anchors": ["src/dynbe.c:thr_backend_remover", "src/dynbe.c:start_backend_removal", "src/dynbe.c:backend_unref", "src/dynbe.c:backend_ref", "src/dynbe.c:backend_sweep", "src/dynbe.c:service_matrix_addr_update_backends"]}
{"id": "C87", "title": "Relative file names are looked up in the include directory", "statement": "The main configuration file is looked up in the current directory, and every other file that the configuration names (included files, error pages, patterns, certificates, password files) in the include directory in effect at that point: the one given at start, or that of the last IncludeDir. Absolute names stand for themselves. The file that Include checks for recursion is the one it reads. Password files, which are read when requests come, are found there even after the process has changed its current directory or its root directory, and no directory is used after it was released.", "quantifier": "all sequences of statements that name files, all file names, include directories, jails and file systems", "why_tests_cant": "The include directory is a reference counted object; whether it is still there depends on the number and order of all statements that use relative names.", "anchors": ["src/cfgparser.c:workdir_get", "src/cfgparser.c:workdir_free", "src/cfgparser.c:workdir_cleanup", "src/cfgparser.c:get_include_wd_at_locus_range", "src/cfgparser.c:fopen_wd", "src/cfgparser.c:fopen_include", "src/cfgparser.c:filename_resolve", "src/cfgparser.c:push_input", "src/cfgparser.c:cfg_parse_includedir", "src/cfgparser.c:cfgparser_open", "src/cfgparser.c:cfgparser_finish", "src/config.c:cond_pass_file_fixup", "src/config.c:parse_config_file", "src/bauth.c:pass_file_fill"]}
{"id": "C88", "title": "Connections to backends are opened, used and closed in order", "statement": "For each client connection: every socket made for a backend is closed exactly once; a request is sent only through an open socket that was made for the backend in charge of the request, which is the first one selected that does not refuse the connection; backends that refuse are marked as dead, and no others; TLS objects are freed before their socket is closed; references to backends are given back only while they are held, backends are accessed only while referenced, and no reference is left at the end. A connection counts as made if and only if it was established in the time given, and the socket then blocks again as before. The probe of a dead backend leaves no socket open.", "quantifier": "all sequences of requests on a client connection, all selections of backends and all outcomes of system and TLS library calls", "why_tests_cant": "The failures of system calls and of the TLS library, and the order in which backends fail, cannot be enumerated or produced at will.", "anchors": ["src/svc.c:connect_nb", "src/svc.c:backend_probe", "src/http.c:close_backend", "src/http.c:open_backend", "src/http.c:select_backend", "src/http.c:do_http", "src/http.c:thr_http", "src/pound.c:pound_http_destroy"]}
{"id": "C89", "title": "The server starts with the privileges, files and sockets it should have, and leaves none behind", "statement": "When requests are served, the process runs as the configured user and group and cannot become the superuser again; listeners were bound before privileges were given up, each has a listening socket of its own, and the files of UNIX sockets have the configured mode; new files are readable by the owner only; the process is in its jail; in the background, standard descriptors are /dev/null; the file for the process identifier has that of the process which is serving or supervising. At the end, that file and the control socket are removed and nothing else is. An unknown user or group ends the program; started by the superuser it succeeds if the system calls do.", "quantifier": "all configurations (listeners, user, group, jail, names of files), all states of the process at the start (credentials, descriptors, directories) and all outcomes of system calls", "why_tests_cant": "It depends on the state in which the process is started and on which system calls fail, and needs the superuser to be tried.", "anchors": ["src/pound.c:main", "src/pound.c:listener_init", "src/pound.c:listener_socket_from", "src/pound.c:detach", "src/pound.c:pidfile_create", "src/pound.c:unlink_at_exit", "src/pound.c:cleanup", "src/config.c:parse_control_socket"]}
{"id": "C90", "title": "Every request is answered once, with the page that is configured", "statement": "A client that sends requests to services whose backend is the server itself (Error, Redirect, ACME), or requests that are refused, gets one reply for each request on the connection, in the order of the requests and nothing else: with the code of the error and the text of the Error statement, or the page of the ErrorFile statement for that code, or a page made for the code; the redirection; the file of the challenge. Each reply says how long it is or ends with the connection, replies to HEAD have no body, and a connection whose end is announced is closed.", "quantifier": "all listeners, pages, rewriting rules, histories of matches, and all byte streams sent by a client on one connection", "why_tests_cant": "Replies follow each other on one connection, and what is read of one of them depends on the bytes of all before it.", "anchors": ["src/http.c:error_response", "src/http.c:bio_err_reply", "src/http.c:http_err_reply", "src/http.c:bio_http_reply_start_list", "src/http.c:acme_response", "src/http.c:redirect_response", "src/http.c:do_http", "src/http.c:http_headers_send"]}
{"id": "C91", "title": "Connections are switched to WebSocket by agreement only, and relayed faithfully", "statement": "A connection is taken out of HTTP only if the client asks for WebSocket in a GET request (Connection: upgrade, Upgrade: websocket) and the backend's response agrees (code 101 and both headers); the client then gets the head of this response. From then on each peer gets the bytes the other one sends, from the first byte after the heads, in order, unchanged, none twice and none left out; the loop does not spin; what was taken from a peer is passed on before the tunnel is closed; and no further HTTP request is taken from the connection afterwards.", "quantifier": "all requests, responses, byte streams in both directions, and all ways in which poll, reads, TLS records and failing writes divide and interleave them", "why_tests_cant": "What may go wrong depends on which bytes are already in a buffer, in the TLS layer or in the socket when the loop comes to them, in both directions at once.", "anchors": ["src/http.c:backend_response", "src/http.c:do_http", "src/pound.h:WSS_COMPLETE", "src/pound.c:CONN_UPGRD"]}
{"id": "C92", "title": "A service is what its section says, sessions included", "statement": "If a Service section is accepted without messages, its text is a section as documented and the service has the backends, the balancing algorithm, the session type, time and name, the trusted addresses, the name of the forwarding header and the suppressed classes of replies that are written in it, the last one of each kind counting; every documented section with complete sessions is accepted and gives that. Whatever is written in an accepted section, its sessions are complete: there are none, or they have a type, a time that is not zero and, if the type looks for something by name, a name; so a missing name is never used.", "quantifier": "all sequences of tokens of configuration files, all nestings and orders of statements in the section, all environments (files, certificates, expressions that compile)", "why_tests_cant": "Statements of a dozen kinds may be mixed and repeated in any order, sections nested; a session without its name would only crash when the first request comes.", "anchors": ["src/config.c:parse_service", "src/config.c:service_parsetab", "src/config.c:parse_session", "src/config.c:parse_log_suppress", "src/config.c:assign_acl", "src/svc.c:get_backend", "src/svc.c:upd_session"]}
{"id": "C93", "title": "Backends read the requests of clients one for one", "statement": "A server that follows RFC 7230 and reads what is sent to a backend for the requests of a client, or for any selection of them, reads exactly these requests, each with the client's payload, the client's request line and headers (prepared and rewritten as configured) and nothing else: no bytes of a body are taken for a request or the other way round, nothing added to the header ends it early, and the proxy goes on with the client's stream exactly where the request ended.", "quantifier": "all byte streams of clients, all numbers of requests on a connection, all header lists and bodies, all settings of listener and backend whose texts are single lines, all client certificates, all rewriting rules that leave the framing headers alone, all schedules of reads", "why_tests_cant": "A single input on which proxy and backend disagree about the end of a request lets a client slip in requests that pass no check; tests only try known tricks.", "anchors": ["src/http.c:do_http", "src/http.c:send_to_backend", "src/http.c:copy_chunks", "src/http.c:copy_bin", "src/http.c:add_forwarded_headers", "src/http.c:add_ssl_headers", "src/http.c:http_request_send"]}
{"id": "C94", "title": "Clients cannot inject lines by way of rewriting rules", "statement": "Rewriting rules may put anything a client sends into the request line and into headers: paths, parameters, header values, parts matched by conditions. Whatever the client sends, over any number of requests and responses on a connection, and whatever was matched before: if the texts of the rules are single lines, so are the request line and every header, of requests and of responses. If the rules also leave the headers alone by which the end of a body is found, and give the names of headers themselves, backends read the requests of the client one for one.", "quantifier": "all rules and conditions, nested in any way, all templates with matched parts and accessors, all requests and responses on a connection, all histories of matches, all outcomes of regular expressions, access lists and password files", "why_tests_cant": "A single combination of condition, template and input that lets CR and LF through gives clients a way to add headers or requests that pass no check.", "anchors": ["src/http.c:rewrite_apply", "src/http.c:rewrite_op_apply", "src/http.c:expand_string", "src/http.c:match_cond", "src/http.c:http_request_set_path", "src/http.c:http_request_set_query_param", "src/http.c:http_request_rebuild_line"]}
{"id": "C95", "title": "Clients read the responses of backends one for one", "statement": "On a connection with several requests, what the server sends is read by the client, by the rules of HTTP, as one response for each request: that of the backend that answered it, with its status line and its payload and the headers as rewritten, in the order of the requests, and it can be read in no other way. No backend can make a client take a part of its response for the response to another request, perhaps of another site.", "quantifier": "all connections with any number of requests, answered by any backends, all methods, bodies delimited by length, chunks or the end of the stream, all rewriting rules with texts of one line that leave the framing headers alone, all rewriting of Location headers, all schedules of reads", "why_tests_cant": "A response that ends somewhere else for the client than for the server poisons all responses after it; which bytes do so depends on combinations of methods, codes, headers and backends.", "anchors": ["src/http.c:backend_response", "src/http.c:copy_chunks", "src/http.c:copy_bin", "src/http.c:do_http", "src/http.c:rewrite_apply", "src/svc.c:need_rewrite"]}
{"id": "C96", "title": "References to groups stand for what the groups matched, with every kind of pattern", "statement": "After any conditions that were tried, with patterns of any kind (POSIX, PCRE, fixed strings), a reference to a group in a template expands to the text which that group of that pattern matched, and to nothing if the group took no part in the match; in no case does it depend on what was in memory before, or on other requests. Whether a condition holds is what the pattern library says.", "quantifier": "all sequences of matches, all kinds of patterns, all groups and subsets of them that take part, all contents of memory, all templates", "why_tests_cant": "Groups that take no part are rare, and memory that was not initialised mostly has harmless values in tests; what is shown in production is taken from other requests.", "anchors": ["src/genpat.c:posix_pattern_exec", "src/genpat.c:genpat_match", "src/regex_pcre2.c:pcre2_pattern_exec", "src/regex_pcre.c:pcre_pattern_exec", "src/http.c:submatch_exec", "src/http.c:submatch_realloc"]}
{"id": "C97", "title": "Requests and responses use memory correctly, whatever allocations fail", "statement": "On every connection, whatever clients and backends send, whatever rules do to requests and responses and whichever allocations fail, the server reads and releases only memory that is allocated, never reads through a null pointer, and has released everything that it allocated for messages when the connection ends. A head that is said to have been read is the one that was sent, the value of a header is the one in its present text, and the texts are those which the other properties speak of.", "quantifier": "all sequences of requests and responses, all header lines, all rules in any order, all patterns of failing allocations, all other memory in use", "why_tests_cant": "Releasing twice, using released memory and leaks show only on rare paths: errors in the middle of an operation, allocations that fail, headers that are removed while the list is gone through; tests seldom make allocations fail, and never every combination.", "anchors": ["src/http.c:http_request_read", "src/http.c:http_header_list_append", "src/http.c:http_header_change", "src/http.c:http_header_get_value", "src/http.c:http_request_split", "src/http.c:http_request_set_query_param", "src/http.c:http_request_free", "src/http.c:backend_response", "src/http.c:do_http"]}
{"id": "C98", "title": "poundctl does what its command line and its configuration ask for", "statement": "poundctl accepts exactly the command lines that consist of its options with their arguments and of operands. It connects to the server selected with -S using, for each setting, the last value given by an option, else the one in the section of that server in ~/.poundctl (or the file named by the environment), else the default of the manual; it prints with the template from the file that is found first in the search path; and when certificates are to be verified, it sends no request to a server whose certificate was not verified for the name that was asked for.", "quantifier": "all command lines, all contents of configuration files, all file systems, all search paths, all results of TLS handshakes", "why_tests_cant": "The outcome depends on the combination of options, their order, the sections of a file and files along a path; tests try a few combinations and never the silent loss of a setting.", "anchors": ["src/poundctl.c:main", "src/poundctl.c:read_config", "src/poundctl.c:server_parser", "src/poundctl.c:find_template", "src/poundctl.c:read_template", "src/poundctl.c:open_socket"]}
{"id": "C99", "title": "The command line of pound means what the manual says", "statement": "pound starts exactly if its command line consists of options it knows, features are as documented, and the configuration file named by the last -f is accepted and has listeners; it detaches unless the configuration, -F or -e say otherwise; the PID file is the one of -p, else of the configuration, else the default; messages go to standard error only in the foreground, when -e or the configuration ask for it. With -c it never starts and exits with status 0 exactly if the file is one with which it would start; status 0 is never given otherwise, except for -h and -V.", "quantifier": "all command lines, all configurations, all file systems", "why_tests_cant": "Options interact with each other and with statements of the file, in any order and number; a test fixes one combination.", "anchors": ["src/config.c:config_parse", "src/config.c:feature_set", "src/config.c:set_include_dir", "src/config.c:parse_config_file"]}
{"id": "C100", "title": "Look-ups in tables find exactly what was added", "statement": "Looking up a name in the tables of combinable headers, named backends, aliases, servers, sessions and generated backends finds an entry exactly if one was added under an equal name (without regard to letter case where names are so compared) and not removed, and it is the one added last, whatever was added and removed before and however the table grew, and without touching released memory.", "quantifier": "all keys, all histories of additions, removals and rearrangements of the table", "why_tests_cant": "A hash function that disagrees with the comparison for some pair of keys, or a dangling entry, shows only for particular keys in particular histories.", "anchors": ["src/ht.h", "src/http.c:strhash_ci", "src/http.c:combinable_header_add", "src/http.c:is_combinable_header", "src/dynbe.c:BACKEND_hash", "src/dynbe.c:BACKEND_cmp", "src/resolver.c:CNAME_REF_hash", "src/config.c:named_backend_insert", "src/svc.c:service_session_add"]}
{"id": "C101", "title": "A whole configuration means what its text says, down to the service that gets a request", "statement": "If a configuration file is accepted without messages, then the access lists, trusted addresses, named backends, listeners, services with their conditions, rewriting rules, sessions and backends, control sockets and the resolver are those its statements say, each with the settings in force where it stands; and a request at a listener goes to the first service, of those written in the listener and then of those at the top level, that is enabled and all of whose written conditions are true.", "quantifier": "all token sequences, file systems and resolvers of names; all requests, compiled patterns and access lists", "why_tests_cant": "Settings, definitions and nested sections interact through shared state in the parser; tests compare some files, while the claim is about every file and every request.", "anchors": ["src/config.c:parse_config_file", "src/config.c:top_level_parsetab", "src/config.c:parse_service", "src/config.c:parse_named_acl", "src/config.c:assign_acl", "src/config.c:foreach_client_cert", "src/config.c:parse_listen_http", "src/config.c:parse_listen_https", "src/svc.c:get_service", "doc/pound.8"]}
{"id": "C102", "title": "Messages about the configuration name the place they are about", "statement": "A message about a word, number, string or end of line in a configuration file begins with the name of the file, the line and the first and last column of that word, counted with tabulator stops every eight columns.", "quantifier": "all texts that consist of words, strings, comments and newlines; all tokens in them; all file names and messages", "why_tests_cant": "The place is kept by counting characters that are read and given back, across lines, tabulators, comments and quoted strings; tests look at a few places in small files.", "anchors": ["src/cfgparser.c:input_getc", "src/cfgparser.c:input_ungetc", "src/cfgparser.c:input_gettkn", "src/cfgparser.c:stringbuf_format_locus_range", "src/cfgparser.c:vconf_error_at_locus_range"]}
{"id": "C103", "title": "Answering a control request gives back the memory of the answer", "statement": "A request for the status of the program, or of one listener, service or backend, is answered with the JSON text of that status in the indentation asked for; while it is answered no released memory is used, and afterwards all memory taken for it has been released.  When memory runs out the answer is whole or an error.", "quantifier": "all states of the program with any number of listeners, services, backends and sessions; all indentations; all states of the memory; all patterns of failing allocations", "why_tests_cant": "The answer is a tree of blocks made by functions that hand it on, add to it after they have handed it on, and release it in part when something fails; tests see neither lost blocks nor uses of released ones, and allocations do not fail in them.", "anchors": ["src/json.c:json_value_free", "src/json.c:json_object_set", "src/json.c:json_array_append", "src/json.c:json_new_array", "src/svc.c:backends_serialize", "src/svc.c:service_session_serialize", "src/svc.c:listener_serialize", "src/svc.c:pound_serialize", "src/svc.c:send_json_reply"]}
