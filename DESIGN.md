# Formal model of graygnuorg/pound in Lean 4

## Layout

* `lean/Verif/Model/*.lean`  executable model of the C code, function by function.
  Every definition cites the file and lines in `/repo` that it models and says
  where it simplifies.
* `lean/Verif/Spec/*.lean`   small specifications that do not use the model's
  helpers; they import the model for its data types only.
* `lean/Verif/Proof/*.lean`  helper lemmas.
* `lean/Verif/Props/*.lean`  the property theorems; beside each one an `example`
  showing that a concrete non-trivial case meets its hypotheses.  Where the code
  as it stands violates the property, the property's negation is proved on a
  concrete witness (theorem name ends in `_fails`), and a theorem suffixed
  `_partial` keeps what does hold.
* `properties.jsonl`  the properties in English; `MANIFEST.json` the theorems for
  each; `seeded/LOG.jsonl` the wrong programs the theorems were tested against.

## Conventions

* A C `char` buffer is `List UInt8`; a C string is such a list without 0 bytes.
* Undefined behaviour (read/write out of bounds, use after free, NULL
  dereference, signed overflow) is a distinct outcome of the model (`Res.ub`, or
  a constructor `ub` of the outcome type), never assumed away.  A failed
  assertion, `abort` or `exit` is another outcome.
* Loops which may not terminate get an explicit fuel argument, and "out of fuel"
  is a distinct outcome; the theorems either exclude it or say when it occurs.
* A function that mutates through a pointer returns the new value.  Where
  aliasing or lifetime matters (lists, string buffers, hash tables, dynamic
  backends) objects live in an explicit store with numbers as pointers.
* External calls (OpenSSL, libc regex, crypt, DNS, clock, random, realloc) are
  parameters: the theorems hold for every behaviour of them, except for the
  assumptions listed below.
* Threads: an operation that runs under a lock is one atomic step; code outside
  the lock is split in separate steps, and histories are arbitrary sequences of
  steps of all threads.  Memory-model effects below that are not modelled.
* `malloc` failure is modelled only where noted (string buffers, JSON).

## Trusted base

* Lean 4.33.0: its kernel.  `vcheck` replays all modules through it.
* Axioms: every theorem depends on at most `propext`, `Classical.choice` and
  `Quot.sound`.  No axiom was added; there is no `sorry`, no `native_decide`, no
  `bv_decide`.  `decide +kernel` is used for statements about whole finite tables
  (all 256 bytes, the method table) and for concrete witnesses; it is evaluated
  by the kernel and adds no axiom.
* The translation from C to Lean, made by reading: it was neither generated nor
  tested against the running program (the sandbox cannot build it).  Each
  definition cites the lines it was made from.
* The specifications in `Spec/` and the statements in `Props/`.
* Assumptions on parameters, each one a hypothesis of the theorems concerned:
  * regular expressions: `regexec` is a parameter (C12, C13, C14, C16), except for
    those pound itself composes or has built in, which are modelled as scanners
    or by a small semantics of the fragment in use (C47, C48, C52);
  * `getaddrinfo` for numeric hosts (C32, C38), `fnmatch` (C49, C61), digests,
    base64 and `crypt` (C34), `strtod`/`printf` for numbers (C56, C58): parameters
    with the hypotheses named in the notes of MANIFEST.json;
  * the clock does not go back (C17, C18); job numbers do not wrap (C18, C19);
  * the resolver library adns: any answers; its status codes as in its header
    `adns.h` (C82);
  * OpenSSL's `LHASH` is a finite map, traversed in some order;
  * pthread mutexes, condition variables and `poll` behave as POSIX says.

## Properties

| id | what is modelled | how it is proved | status |
|----|------|------|------|
| C01 | `strtoclen`, `get_content_length` over byte lists, cutoff/cutlim arithmetic on the 63-bit maximum | induction over the digits against positional value | proved |
| C02 | `copy_chunks` over the model of `get_line`, `copy_bin` | induction over the stream, soundness and completeness against a grammar of chunked bodies | partial |
| C03 | `copy_bin` with its buffer loop | induction over the loop, length arithmetic | proved |
| C04 | `get_line`, `drain_eol` | induction over the stream | proved |
| C05 | the header fold of `do_http` and the decision after it | case analysis plus induction over the header list | proved |
| C06 | `parse_http_request`, `find_method`, the method table | string lemmas; the finite table by `decide` | proved |
| C07 | `http_request_split`, `_rebuild_url` | list splitting lemmas | partial |
| C08 | query parse / get / set / rebuild | refinement to association lists | proved |
| C09 | `http_header_list_append` and its parts | induction over the header list | partial |
| C10 | `cs_locate_token` | induction, specification by splitting at commas | proved |
| C11 | sanitising loop of `redirect_response` | induction over bytes; negation for bytes >= 0x80 | partial |
| C12 | `expand_string_to_buffer`, accessor look-up | functional specification on tokenised templates; negations for end-of-string reads | partial |
| C13 | submatch ring buffer | invariant: ring = last 8 pushes | proved |
| C14 | `match_cond` on trees | structural induction, specification by three-valued logic | partial |
| C15 | `get_service` | induction on lists | proved |
| C16 | `rewrite_apply` etc. | induction on rules | partial |
| C17 | session hash and list, expiry job | invariant and refinement to a map | proved |
| C18 | session table composed with the timer | invariant over all interleavings, progress measure | proved |
| C19 | job queue, timer, cancel list | invariant by induction over operations | partial |
| C20 | balancer selection | induction over backend lists, termination measure | partial |
| C21 | random balancing | counting lemmas | partial |
| C22 | interleaved weighted round robin | cycle fairness by counting | proved |
| C23 | balancer totals, `kill_be`, `touch_be` as two steps | invariant under atomic operations; negation for the racy interleaving | partial |
| C24 | `get_backend`, `upd_session` | refinement to the session map | partial |
| C25 | control-interface path resolution and actions | induction over nested lists | partial |
| C26 | end-point table and dispatch | finite table, prefix lemmas | partial |
| C27 | index computation of the serializers | induction over nested lists | partial |
| C28 | list.h on a heap of nodes | representation predicate (list segment), per-operation refinement, histories | partial |
| C29 | string buffers (mem.c) | representation invariant, allocation oracle | partial |
| C30 | JSON objects | sorted-list map refinement, binary search invariant | proved |
| C31 | JSON strings | two-pass scanner round trip, negation for `\b`/`\f` | partial |
| C32 | CIDR parsing and matching | bit-level lemma; negations for parse errors | partial |
| C33 | genpat fixed strings, Boyer-Moore | soundness, termination, completeness for a class of patterns; negations | partial |
| C34 | bauth.c | cache invariant, first-entry theorem | partial |
| C35 | worker pool | transition system, invariants, progress | partial |
| C36 | dispatcher | induction over listeners | partial |
| C37 | dynbe.c and the status of look-ups | invariant over all histories with reference counts; negations | partial |
| C38 | forwarded-for extraction | induction over the hops | proved |
| C39 | log format compiler and interpreter | grammar soundness and completeness | partial |
| C40 | SSL info callback | automaton invariant | partial |
| C41 | `backend_response` | automaton over responses | partial |
| C42 | connection reuse in `do_http` | decision logic over exchanges | partial |
| C43 | fail-over loop | induction over attempts | partial |
| C44 | configuration scanner: strings | induction, exact denotation | partial |
| C45 | include stack | measure and invariant over file identities | proved |
| C46 | numeric settings | induction over digits | partial |
| C47 | regular expressions of Host conditions | semantics of the fragment; negations | partial |
| C48 | `need_rewrite`, `rewrite_location` | decision logic | partial |
| C49 | SNI call-back | induction over certificates | proved |
| C50 | supervisor and exit handlers | transition system | partial |
| C51 | size counter of `copy_chunks` | arithmetic invariant | partial |
| C52 | `http_request_read` | induction over lines | proved |
| C53 | `send_to_backend` | composition of framing theorems | partial |
| C54 | `bio_err_reply`, `bio_http_reply` | computation of lengths | proved |
| C55 | `acme_response` | string lemmas; negation | partial |
| C56 | JSON documents | structural induction, parser stack invariant | partial |
| C57 | JSON formatter | grammar of RFC 8259 | partial |
| C58 | JSON parser and arrays | fuel bound, list refinement | proved |
| C59 | log suppression and status | bit mask lemmas, histories | partial |
| C60 | time-out call-back of backend connections | automaton over operations | partial |
| C61 | certificate selection against client verification | fnmatch semantics; negations | partial |
| C62 | configuration scanner: tokens | printing and re-reading round trip | proved |
| C63 | `cfg_read_to_end` | list lemmas | partial |
| C64 | boolean settings | finite table | partial |
| C65 | `parser_loop`, statement tables | soundness against nested statements | partial |
| C66 | keyword tables | induction over nesting | proved |
| C67 | add_forwarded_headers, addr2str and their place in send_to_backend | effect of http_header_list_append on the headers of each name, composed over all steps; witnesses for the deviations | partial |
| C68 | add_ssl_headers with set_header_from_bio and get_line on OpenSSL's output | the same, with the lines of the BIO; induction over the lines of the certificate | partial |
| C69 | send_to_backend up to the rewriting rules | invariance of the headers of other names under each step; codes of headers proved from their names | partial |
| C70 | the parsers of all conditions, Match, Not and of Service sections on the tokens of the text; the loop over statements; the structures as matched at run time | a grammar of sections with the formula each denotes; soundness by induction on the fuel of the parser, completeness by mutual induction on the grammar; composed with C14; the loop on tokens is related to that of C65 by simulation | partial |
| C71 | the parsers of modifications, Rewrite, Else and End with the four tables of rules, and the collection of unconditional modifications into rules | as C70; programs with the same runs are identified, since modifications outside of Rewrite are merged; composed with C16 | partial |
| C72 | the serialization of workers, backends, services, listeners and the whole state; the walk over the JSON value with its label stack; every gen_ function; formatting and the reply | a specification that lists, family by family, the samples of all objects; the walk, which mixes families, is shown to collect them by an invariant on what was added and in which order families were first seen | partial |
| C73 | as C72 | a parser of the text format as specification; round trip by induction on lines, labels and bytes; distinctness by the labels that hold places | partial |
| C74 | the statement tables and parsers of Backend sections, references, and the statements of services that define backends, on tokens; named backends | a generic grammar of sections (Spec/CfgSect) with soundness by induction on the parser's fuel and completeness by induction on the grammar; settings folded, and the last one of each kind shown to determine each field | partial |
| C75 | backend_finalize, backend_resolve, str_is_ip, cb_be_setup, service_finalize, and the balancers it leaves; address look-ups are parameters | decision procedure against a relational specification by cases and induction over groups; str_is_ip against groups between colons by induction over the loop state; invariants of C20 established for every accepted configuration | partial |
| C76 | the whole parser of tmpl.c: tokens, texts between actions, pipelines, the tables of action parsers, definitions; functions with fuel, endless loops are a distinct outcome | a concrete syntax tree that keeps every byte; compilation of trees to actions; mutual structural induction: scanning the text of a tree in front of any rest gives its compilation | partial |
| C77 | evaluation of pipelines, functions and actions, with environments and named templates; doubles are parameters | denotational specification on syntax trees with calls nested to a depth; simulation by mutual induction, relation between environments | partial |
| C78 | func_printf with its reading of directives and the conversions; buffer of 64 bytes | formats as lists of specifications; induction over the list; digits against Nat.toDigits | partial |
| C79 | the tables of statements of HTTP and HTTPS listeners, their arguments and effects, the defaults, address resolution over a parameter for getaddrinfo, certificates of conditions, names; OpenSSL contexts as lists of operations | products of statement tables (Proof/CfgSet) give soundness and completeness of sections with two kinds of statements; the fold of settings is characterised field by field, and shown to be determined uniquely | partial |
| C80 | parse_config_file with top_level_parsetab, control_parsetab and resolver_parsetab on token lists; the statements see the settings in force (`depFind`) | soundness and completeness from those of the parts (C74, C75, C79) with lemmas on tables that are combined and on statements that depend on settings; the settings by induction (`glob_iff`) | partial |
| C81 | service_matrix_srv_update_backends with analyze_srv_response and the sweep, over the state of Model/DynBe.lean (a target is a matrix there), as an additional layer of steps; qsort by any permutation that is sorted | invariant of the tables, preserved by every step (SInv); what one record, all records and the sweep do (SAdded, SSwept) composed; groups of equal priority by induction over the records (StatsOk) | partial |
| C82 | dns_query with its chain of aliases, dns_generic_lookup, dns_addr_lookup, dns_srv_lookup, the tables of status codes, and the two update functions up to the records and the time of the next look-up; the library is a function of query number, name and type | case analysis on the answers; induction over the rounds of the alias loop | partial |
| C83 | poundctl from its arguments to its exit code: socket name, URL, request, reply, JSON; the server by the models of requests and control handlers | composition of C25 with lemmas about the request line, header lines, Basic credentials, the reply and its JSON; the status line by case analysis of strtol; witnesses for findings | partial |
| C84 | Job queue with cancellations, running look-ups, and for each dynamic backend its state, stored job number and reference count; every event of the program is one step | Invariants by induction over histories: reference counts equal owners plus look-ups; numbers of jobs are unique and stored numbers belong to their backend; counting look-ups over steps. Witnesses for what fails. | partial |
| C85 | For each piece of code that uses mutexes, the sequence of its lock, unlock and table access operations; threads run any sequences of pieces, interleaved in any order, with recursive mutexes (Model/Locks). | A rank for each mutex such that all pieces lock in ascending order; in a circle of waiting threads ranks would grow without bound.  Balanced traces for the release.  Accesses under the mutex of the service and single owners for exclusion.  Deadlock and races by executions that lead there. | partial |
| C86 | Remover threads step by step (lock, look at one backend, end of the list, condition wait with signals and spurious wake-ups), references taken with and dropped without the mutex of the service, sweeps that start removers or not (Model/Remover). | Invariant over all histories for safety.  For release: a second invariant, that each removed backend without references is still ahead of some thread, and that somebody listens as long as the list is not empty.  Failures by histories, one of them for any number of threads by induction. | partial |
| C87 | Model/WorkDir.lean: working directories with their reference counts, statements that name files, the fix-up of password files, the end of configuration, and the change of current and root directories; symbolic links and the contents of files are not modelled | invariant on the names of directories for the files that are used; invariant on reference counts for safety | partial |
| C88 | Model/Channel.lean: connect_nb, backend_probe, open_backend, select_backend, close_backend, the part of do_http that deals with backends and pound_http_destroy, as a list of events; which backend get_backend returns and what the system answers are parameters; a forced HTTP/1.0 or failed copy ends the loop as the last request does | invariants over the list of events by induction on requests and attempts | partial |
| C89 | Model/Startup.lean: main after the configuration was read, listener_init, listener_socket_from, detach, pidfile_create, unlink_at_exit and cleanup; setuid and its kin follow POSIX, descriptors are allocated lowest first; other outcomes of system calls are parameters | step lemmas for each phase, composed; induction on listeners and on attempts to change the user | partial |
| C90 | Model/Replies.lean: http_err_reply, default pages, error_response with response rewriting, acme_response, redirect_response (Model/Expand.lean), and the loop of do_http with what is written to the client; reading and checking of requests as in Model/Exchange.lean | rewriting keeps the classification of headers (mutual induction on rules); each reply is framed; induction on requests; the specification of reading is shown to be unambiguous | partial |
| C91 | The bits set from the headers of request and response and the condition for switching (Model/Exchange), the relaying loop of backend_response with pending bytes, events, unbuffered reads, rests of TLS records and failing writes as choices of the environment (Model/Tunnel). | The regular expression for `upgrade` is proved equal to a specification of words; bits by induction on headers; without agreement the result is proved independent of the tunnel; in the loop, an invariant says that bytes passed on, pending and unread make up each stream; every iteration that goes on increases the bytes passed on. | partial |
| C92 | all of service_parsetab except statements that include files or make ACME services: backends (C74), conditions and rules (C70, C71), Session, TrustedIP, ForwardedHeader, LogSuppress | the proofs of C70 and C71 are made for sections with other statements, given by a relation and what each statement does; those statements are folded and the last one of each kind shown to determine each field; completeness of sessions as an invariant of the loop over statements | partial |
| C93 | the loop over requests (C42) with the preparation of headers (C67-C69) in place of the parameter for edits, and a specification of what a server reads: lines, folded headers, framing, body | reading is shown to be unambiguous, so it is enough that what is sent for one request can be read as that request: header texts stay well folded through each step, framing headers keep their values, chunked bodies stay chunked with the same payload; then induction over the requests | partial |
| C94 | conditions, templates and rewriting rules of C12-C16 on the states of a connection: requests and responses, one after another, with the history of matches; the preparation of headers and the loop over requests as in C93 | by an invariant: all texts in request, headers and history are single lines; it is kept by each kind of condition and operation, hence by rules nested in any way; a second invariant says that framing headers stay the same; composed with C93 | partial |
| C95 | the loop over requests (C42) with backend_response (C41), rewriting rules (C94) and Location (C48) in place of the parameters, and a specification of what a client reads: status line, fields, framing by RFC 7230, body | reading is shown to be unambiguous; one exchange is shown to give a response that can be read as that of the backend, by the theorem on final responses, the invariants of C94 for rules and a lemma that rewritten Location headers stay single lines of other names; then induction over the requests, with bodies until the end of the stream only at the end | partial |
| C96 | the functions that call regexec, pcre_exec and pcre2_match, the allocation of the array of groups and the record of a match; the libraries are parameters that give places of groups, and so is what was in the memory | case distinction on the kind of pattern shows that the array holds the places of the groups whatever it held; then by C12 and C13 | partial |
| C97 | requests, responses, headers, parameters and string buffers at the level of pointers: a heap of blocks in which any allocation may fail, and where reading or releasing a block that is not in use is a fault; whole connections with any rules | triples over the heap with a frame rule, for each function; what is owned is a count per block, so that sums settle ownership; induction on headers, rules, responses and requests | partial |
| C98 | getopt, main of poundctl, its configuration file by the tables of its parser, the search for templates, and verification of certificates; files, resolver and TLS library are parameters | induction on the arguments for getopt against a grammar of command lines; induction on the statements and options, keeping for each setting the last value; induction on the search path | partial |
| C99 | config_parse, feature_set and set_include_dir; getopt as in C98, parsing of the file and stat as parameters | induction on the options, which end in the state that depends on the last -f and -p and on which other options occur; then case distinction | partial |
| C100 | the hash functions and comparisons of all tables, insertion, removal and retrieval at the level of nodes and memory blocks, and the two ways of dealing with duplicates | invariant by induction on the history: entries are live, and there is one node for each key present, with the hash value of the key; for duplicates that are released, an invariant that the node of a key is dead | partial |
| C101 | the whole table of top-level statements with the parsers of services, listeners, access lists, backends, controls and resolver working on one state, and the choice of the service at run time; the loop of do_http for listeners as they were read, with the replies of Error and Redirect backends and with what is sent to regular ones, and what is relayed from these | soundness of each parser on texts of a class closed under parts of the text, composed through the section loops (a statement that is accepted is a statement of the specification, with the state before and after); then induction over the list of services with the evaluation theorem of C14; completeness by acceptance lemmas for each statement from every state like the documented one, with fuel from some number on, composed through the same loops; the decision about each request as a relation on the text, refined by the selection of backends, and the streams of C90 | partial |
| C102 | the place of the scanner (line, column, column before the last newline), reading and giving back of characters, the places of tokens and of messages about strings, the text of places | invariant of the scanner: its line is the number of newlines before it plus one and, on lines with leading tabulators only, its column is that of the last character read; induction over the tokens of the text | partial |
| C103 | The blocks of JSON values (value, array, slots, object, pair, key, text), constructors, release, json_object_set and json_array_append with their allocations, and the functions of svc.c and pound.c that build the status, with their error paths; the reply through a string buffer. | Ownership triples for every function: each value owns its blocks; makers give the value of the model without memory (C72), by induction on sessions, backends, services and listeners.  For failing allocations a triple that allows memory to be lost.  Witnesses with one failing allocation for what the code violates. | partial |

## Where the code and the properties disagree

Each of these is a theorem with a concrete witness (suffix `_fails`) or a hypothesis of the `_partial` theorem; the theorem names are in MANIFEST.json.  Also listed: restrictions of the statements.

* **C02** Chunked bodies are framed exactly: The code accepts and relays text between the data of a chunk and the end of that line (C02_strict_framing_fails); soundness is proved against the chunked grammar with that laxness.
* **C05** Ambiguous request framing is refused: Stated on the header list as read (well-formed lines, combinable headers merged).
* **C07** Splitting a URL loses nothing: A URI with several question marks is cut at the last one (C07_first_qmark_fails); everything else is proved for all URIs and edit histories.
* **C09** Adding a header honours the requested mode: Text consisting only of the name of an existing header, without colon, damages that header or reads out of bounds (C09_malformed_fails); other malformed text is proved to change nothing, and the effect of well-formed text is proved in full.
* **C10** Comma-separated token search is exact: Stated for non-empty tokens, the only ones used.
* **C11** Redirect locations cannot inject or be mangled: Every byte that is not allowed in a URL is percent-encoded, so no line can be injected (full); decoding gives back the target only if it has no non-ASCII bytes, which are printed sign-extended (C11_nonascii_fails).
* **C12** String templates expand to their defined value: Proved for all templates outside a few constructs on which the code deviates; each of these has a concrete counterexample (the _fails theorems).
* **C13** The submatch history returns the latest matches: The property is proved for all histories. Side finding: what is recorded includes matches that failed (C13_only_matches_fails).
* **C14** Conditions evaluate as the boolean formula that was configured: Two disagreements: an OR without operands (a names file without lines) holds (C14_empty_or_fails) and a query test on a request without a query hands a null pointer to the matcher (C14_no_query_fails). Trees without these are proved to evaluate as the formula, left to right, with short circuit and error propagation. Pattern matching, access lists, passwords and certificates are parameters.
* **C15** A request goes to the first enabled matching service: Conditions as in C14.
* **C16** A rewrite rule chain applies exactly one branch: Proved for conditions as in C14 and templates as in C12; setting a header from text that is only the name of an existing header is excluded (see C09). Responses: C16_response_partial.
* **C17** The session table behaves as a map with expiry: Clock assumed not to go back; OpenSSL's hash table is modelled as a map.
* **C18** Expired sessions always get collected: For the first 2^64 jobs. Composition of session table and timer, with every interleaving of session operations, timer wake-ups and job threads.
* **C19** Timer jobs run in time order, each at most once: A job cancelled after it became due, but before the timer thread got the mutex back, is still run (C19_late_cancel_fails); a job cancelled before its time is proved never to run. Everything else is proved in full.
* **C20** Backend selection only returns active backends and returns one if it exists: A selected backend is proved active in all cases. Finding one is proved when weighted round robin over several backends occurs only in the last group and priorities are positive; otherwise the selection does not end when it comes to such a group with no backend that can be used (C20_emergency_fails, in general C20_endless_fails; C20_found_exactly says when it ends and when not) or find nothing (C20_zero_priority_fails). random() is a parameter (any list of numbers with a usable one).
* **C21** Random balancing follows priorities: Exact on every block of consecutive numbers; over the whole range of random() the shares deviate by less than one block (C21_uniform_fails). C21_requests says it of the requests to a service, without a session, when no backend of the groups before can be used.
* **C22** Weighted round robin is fair in every cycle: From any state, any number of cycles; C22_requests says it of the requests to a service, without a session, when the groups before hold single backends that cannot be used. C22_traffic says it of the requests without a session among requests of all kinds, C22_any_number for any number of them.
* **C23** Balancer totals match the active backends: All histories of atomic events; marking a backend alive again is not atomic in the code, and the numbers can go wrong (C23_race_fails). A dead backend is probed again for as long as it is dead (C23_probed).
* **C24** Sticky sessions keep their backend: A disabled backend with a session and no other active one gives 503 (C24_disabled_fails); a late response creates a session with a dead backend (C24_late_response_fails). The rest is proved for all reachable states, and over whole histories: from a request that was given a backend to any later one with its key (C24_history_partial). The response that sets the session cookie creates no session (the header looked for is Cookie), so the next request may go to another backend; keys are cut to 127 bytes.
* **C25** Control requests address the object they name: For every configuration with distinct backends: paths resolve to the designated object only; the flag or session change is exact; whatever requests are made, what serves the control interface keeps its state. Priorities and generated backends are in Balance/Dynbe, not here. Findings: an empty segment (trailing slash) means index 0, -4294967296 means 0, DELETE of the whole configuration dereferences NULL, other kinds of backends report success without effect, session requests ignore further segments, and a session request about a service made by a Control or ACME statement dereferences NULL, because such services have no table of sessions (C25_no_table_fails; C25_sessions_partial is about the others).
* **C26** Control requests are dispatched to the right handler or rejected: Dispatch to the longest listed prefix with the method, for every path. Findings: since the empty URI is listed for GET, unknown paths and wrong methods are answered with the full list (GET) or 400 (others), never 404; a refused indent still has its effect; two requests have undefined outcome.
* **C27** Reported backend indices are right: Listing complete, in the order used for addressing; parent index always right; session index right for backends of the last group only: session_backend_index does not leave the outer loop (C27_session_fails).
* **C28** Intrusive lists implement sequences: Proved for every history of operations on any number of lists over a memory model with NULL, dangling and freed pointers (doubly-linked: complete, including removal and freeing during the safe traversal). Singly-linked: all operations, except that SLIST_CONCAT of a non-empty and an empty list loses the tail pointer (C28_concat_empty_fails; the macro is not used in pound). The sequence is given a length-many-steps traversal bound, so traversals end.
* **C29** String buffers never overflow and hold what was added: Proved for every history of operations with allocation failures at any point (realloc is an oracle). Deviations proved: an error is forgotten by a later successful addition; the needed size is computed modulo 2^64; a date format with empty expansion never succeeds; truncating beyond the length exposes uninitialised memory.
* **C30** JSON objects behave as maps: Proved for every sequence of sets and gets, including that the binary search never leaves the list. Side finding, outside of the statement: json_object_filter (no callers) breaks the count (C30_filter_fails).
* **C31** JSON strings survive formatting and parsing: Proved for all strings in which no backspace or form feed is followed by three hexadecimal digits; for the others the first pass of the parser miscounts: heap overflow or rejection (_fails). Other texts (not produced by the formatter) are read beyond their end or overflow the buffer (_fails).
* **C32** ACLs match exactly the addresses in their networks: Full for bodies whose mask lengths fit the address (getaddrinfo for numeric hosts is a parameter). Refusal of malformed entries is partial: bad addresses and masks with foreign characters are refused; empty, negative and too large masks are not (C32_refused_fails: the empty mask matches everything, /-1 means /7, /136 and above write out of bounds).
* **C33** Fixed-string patterns match exactly their language: Exact, begins-with and ends-with: full. Contains: soundness, termination and memory safety for all non-empty patterns and subjects without the byte 255; completeness for patterns whose proper borders are runs of one letter; false for others (is_prefix in genpat.c is inverted), for the empty pattern and for the byte 255 (_fails).
* **C34** Basic authentication accepts only listed credentials: For every history of requests and file versions (distinct non-zero time stamps, lines below 4095 bytes without NUL), by an invariant of the cache; digests, base64 and crypt are parameters. Findings: crypt hashes work as passwords, tails of overlong comments are entries, short {SHA} and apr1 hashes read uninitialised or foreign memory, equal time stamps and read errors keep old entries, quoted credentials never work, and the cache has no lock (C34_race_fails).
* **C35** The worker pool stays in bounds and serves every request once: Counts, FIFO and exactly-once, progress proved for all interleavings of critical sections, assuming start-up without time-outs and signals not consumed by timing-out threads. Violations proved: WorkerMinCount 0 loses a connection, consumed signal, unsynchronised counter at start-up, connection waits although the pool could grow.
* **C36** The dispatcher accepts from exactly the ready enabled listeners: Proved for rounds in which no disabled listener has a connection, and up to the first such one; attribution of connections proved without restriction. Violation proved: the index of poll is not advanced after a connection on a disabled listener.
* **C37** Dynamic backends track DNS: In every history of look-ups, requests, jobs and operator commands: exactly one backend per wanted address after a look-up, kept ones untouched, removed ones out of service for good, released only when unused. What fails: with session types for which responses create sessions a removed backend gets new requests and is used after release; an answer without addresses frees a balancer that is still used; an empty balancer or a failed connection to a removed backend ends the program; a temporary failure of one family removes the backends of that family; other failures stop look-ups for good. One service, any number of matrices, atomic steps under the service mutex.
* **C38** Forwarded-for addresses are taken from trusted hops only: For every header value and every accepted list of trusted networks; getaddrinfo is a parameter assumed to return Internet addresses only and to refuse the empty text.
* **C39** Log formats compile to what they say: For every format: compiled without error message exactly if it is a sequence of texts and documented specifiers, and then it prints text and documented values in order for every request. Findings: %D prints milliseconds, %{sec}t is not recognised, a later warning makes an erroneous format accepted, a trailing % or %{..} reads past the end.
* **C40** Client renegotiation is refused: Proved for every history of callback events: aborted exactly after a client hello that follows a completed handshake, and then every read and write fails; AllowClientRenegotiation disables it. Finding: the states compared are those of OpenSSL before 1.1 (fallback defines), so with later libraries nothing is ever refused (C40_numbering_fails).
* **C41** A response is relayed with correct framing: Proved for final responses, including rewritten Location headers; responses after interim ones are lost (C41_after_100_fails, C41_after_103_fails), HEAD/204/304 with Transfer-Encoding (C41_head_chunked_fails) and invalid lengths (C41_bad_length_fails) are mishandled. That the loop over the headers reads a removed header (C97_response_fails) is not modelled here: what is said of responses with an invalid length holds if that memory has not been reused.
* **C42** A connection is reused only when both sides agree on the message boundary: Close as one element of a Connection list in a response is not noticed (C42_close_in_list_fails); replies generated by pound leave the request body in the stream, where it is taken for a request (C42_unread_body_fails).
* **C43** Service response to a failed backend is fail-over: Proved for every pattern of outcomes; failed set-up of a connection gives 503 without fail-over and leaks a reference (C43_setup_fails). With weighted round robin, fail-over from several backends to an emergency one never ends (C43_endless_fails).
* **C44** Configuration strings are read back literally: Exact denotation of quoted strings, and every string without newline and NUL can be written. Newlines cannot be written (C44_newline_fails); other escapes are accepted with a message (C44_escape_fails).
* **C45** Include files cannot loop: Every history of parser operations over finitely many finite files, which may even change between inclusions.
* **C46** Numeric settings are in range or refused: Exact for all decimal numbers; findings: file modes of 2^63 and more are truncated, a missing mode is a NULL dereference, a missing argument at the end of a line shifts by a negative number, redirection codes are truncated to 32 bits.
* **C47** Host conditions match the configured host only: The configured host is always accepted, and -beg, -end and -contain mean what they say for names without ^, $ and |. The property itself does not hold: an exact name accepts every host that begins with it, with -case the header name is compared case-sensitively, bars in names are alternatives over all headers, and the second and later lines of a file are regular expressions. POSIX regular expressions are modelled for the fragment these conditions produce.
* **C48** Location headers are rewritten only when they point back to us: Exact condition for locations pointing to the backend, exact new text, nothing else changed. Findings: with RewriteLocation 1 the conditions for the listener are joined by || so every absolute URL with a different port or scheme is rewritten to this host; listener_port reads a pointer as an address; is_listener_address compares only addresses of different families; the regular expression is not anchored, so URLs inside relative ones are found; IPv6 hosts are cut at the first colon.
* **C49** Certificates are selected by server name: Every list of certificates, every server name; fnmatch is a parameter.
* **C50** Shutdown handlers and supervision: Clean-up order and supervisor decisions proved for all sequences of events delivered in sigwait. Violations proved: signals outside sigwait are lost; failed wait starts a second process.
* **C51** The request size limit holds for chunked bodies: The size counter is a signed 64-bit integer that overflows (C51_limit_fails); as long as it does not, the limit holds.
* **C52** The head of a request is read exactly: The merged header's table of names is a parameter; regular expression HEADER is modelled as a scan.
* **C53** A request is forwarded with the body it announces: An HTTP/1.0 request with a chunked body is forwarded without it (C53_http10_chunked_fails). Edits of the head are a parameter; C93 fills it in.
* **C54** Replies made by the program delimit themselves: Redirects are covered by C11_no_injection for their target; the theorem is about error replies and bio_http_reply.
* **C55** ACME challenges are answered from the configured directory: The name is proved to be the rest of the URL; it may lead out of the directory (C55_escape_fails).
* **C56** JSON documents survive the trip from server to client: Numbers: printf/strtod are parameters assumed to read back what was written (proved for integers). Strings as in C31.
* **C57** JSON replies are valid JSON: Proved if strings have no control characters other than \b \f \n \r \t; others are written raw (C57_control_fails).
* **C58** JSON parsing stops and arrays keep their elements: Proved; strtod is assumed to return a final part of its argument. Side finding, outside of the statement: inserting beyond the end of an array leaves slots uninitialised (C58_insert_gap_fails; no callers do that).
* **C59** Which requests are logged, and with which status: Suppression exact for status 100-599 and every list of words. Findings: response_code is not reset between requests nor after a handler that stored a status fails, so a later error is logged with the previous status; 'all' does not cover codes from 600.
* **C60** A connection that times out is not used again: Every history of operations for limits up to 2147483 s. Findings: larger limits overflow (undefined), the largest are negative and make every operation fail; interruptions restart the limit.
* **C61** Certificates are chosen as clients verify them: fnmatch is specified for patterns without brackets and backslashes. Findings: comparison is case-sensitive, and a wildcard matches any number of labels, so a wildcard certificate shadows a later suitable one.
* **C62** A configuration text is read as the tokens it consists of: Texts made of well-formed tokens; all other texts have tokens as well (C65_tokens).
* **C63** Text blocks are taken literally: The first line must not be empty: cfg_read_to_end then reads before its buffer (C63_empty_line_fails).
* **C64** Boolean settings: The words are compared with strcmp although the manual says that case does not matter (C64_case_fails).
* **C65** A configuration is read as nested statements, or refused: Every text and every table of statements with fixed arguments, sections and End. Finding: tokens that belong to no statement only cause a message, and the configuration is accepted (C65_junk_fails). Whoever writes a file that is refused gets at least one message (C65_explained).
* **C66** Keywords are looked up without regard to letter case: Every table with references nested to any depth.
* **C67** Forwarding headers tell who the client is: Proved of the whole preparation of the header (http.c 4160-4240) for every request and configuration: the first X-Forwarded-Proto and -Port are replaced by true ones and the client's address is added to the first X-Forwarded-For; off, they are untouched. Deviations: further headers of these names that a client sends are passed on (forged addresses); for clients of UNIX listeners without a name the server reads outside a buffer; IPv6 addresses are written in brackets, which another pound behind does not accept as addresses.
* **C68** TLS headers come from the client's certificate: Proved: each header made from certificate and cipher replaces the first one of its name, for names printed in up to 4094 bytes; certificates of any number of lines. Deviations: without TLS or without client certificate the client's own X-SSL headers pass unchanged; the same for a subject printed in more than 4094 bytes; second headers of a name always pass.
* **C69** Forwarding changes nothing but the headers that concern the backend: Proved for every header list and configuration. Deviations: a Destination with a URL somewhere inside is replaced by the path of that URL; for backends on UNIX sockets the rewritten Destination is not a URL of the backend.
* **C70** A service's conditions are those of its section: Soundness and completeness for whole service sections, with all their statements (C92), without double negation, Host with a file of names (its second and later lines are taken for expressions, C70_name_file_fails) and (soundness) response rules; composed with C14 for all requests. Findings: Not Not X followed by another condition silently drops that condition (C70_not_not_fails); IgnoreCase in a service also applies to the services after it (C70_ignore_case_fails).
* **C71** A service modifies requests as its section says: As C70, composed with C16. Finding: in response rules, conditions and modifications for requests are accepted after Not and after a second Else (C71_response_fails).
* **C72** The metrics page shows the state of every object: Whole page, for every state in which all services have backends. Finding: one service without backends (allowed with a warning) makes every request for the page fail with status 500 (C72_no_backends_fails). The walk along parents in backend_serialize_dyninfo is a parameter.
* **C73** A scraper reads from the metrics page what it shows: Distinctness for all states; round trip if names and addresses have no quotes, backslashes and line feeds. Finding: label values are not escaped, so a quote in a name breaks the page (C73_quote_fails) or forges labels (C73_forged_fails).
* **C74** A service has the backends that its section says, with the properties they are given: Soundness and completeness for all sections of backend statements (together with the other statements of services: C92). Findings: ServerName accepted without HTTPS (C74_sni_fails); Priority 0 refused although documented (C74_priority_fails); a second HTTPS discards the certificate given before (C74_https_fails).
* **C75** Accepted backend declarations become working balancers: Exact acceptance condition and result for all services if every named backend has an address; balancers satisfy BalsOk. Findings: IPv4 addresses are never recognized as addresses (C75_address_fails); UseBackend ignores the Priority and Disabled of the definition (C75_use_fails); a reference to a named backend without Address dereferences NULL (C75_noaddr_fails).
* **C76** Every template written as the manual says is accepted: Every well-formed template (a concrete syntax tree with all its bytes, TmBody.Ok) is accepted, at any size and nesting. Missing: the rejection of other texts, and the documented forms the program does not accept. Findings: {{template "x"}} without a value is rejected or prints a NULL pointer (C76_template_fails); a quote cannot be written in a string (C76_quote_fails); fractions (C76_fraction_fails); with and range on a variable free memory twice (C76_variable_fails); blocks with a defined name (C76_block_fails); an unterminated string aborts, a large number overflows (C76_abort_fails); texts on which the program does not end (C76_loop_fails, C76_comment_fails); errors not found (C76_unknown_fails).
* **C77** A template prints what the manual says for every value: Every well-formed template prints what the specification says whenever that is defined (TmPrints), for all values whose objects have ascending keys (as the JSON parser builds them, C56). Operations on doubles are parameters. Findings: {{continue}} within if (C77_continue_fails); small numbers are empty (C77_small_fails); comparison of booleans and of integers with numbers (C77_compare_fails); index beyond the end, and functions without arguments (C77_index_fails); variables visible in called templates (C77_scope_fails).
* **C78** printf in templates gives what printf(3) says: All formats whose specifications are among those the program handles as printf(3) says (pfConv); conversion of doubles is a parameter. %s takes numbers, truth values, null and objects as well as strings, and integers may be given as numbers. Findings: %s of an array reads a pointer as a number (C78_array_fails), numbered arguments (C78_position_fails), width of floating-point numbers (C78_float_fails), %x of large numbers, %.3o, %.0s, %.0d, %#x of 0 (C78_digits_fails), asterisks (C78_star_fails), a precision from 63 on overflows the buffer (C78_overflow_fails), missing arguments and a percent sign at the end (C78_missing_fails).
* **C79** A listener is what its section says: Soundness and completeness for all listener sections, over any parsers of the other statements that have the same properties, and instantiated with services and their backends. Findings: Address and Port after SocketFrom are accepted and ignored (C79_socket_from_fails); paths of sockets as Address refused (C79_unix_address_fails); NoHTTPS11 is 0 by default, not 2 (C79_nohttps11_fails); ClientCert 0 takes no depth (C79_client_cert_0_fails); a certificate after ClientCert is used without asking clients for theirs (C79_cert_order_fails); Err405 unknown (C79_err405_fails); ForwardedHeader must be quoted (C79_forwarded_header_fails).
* **C80** A configuration means what its statements say: Soundness, completeness and uniqueness for whole configurations (settings, named backends, services by their backends, listeners, control sockets, resolver). Findings: ConnTO is not TimeOut by default (C80_connto_fails); settings apply only to what follows, against the documentation (C80_balancer_fails, C80_client_fails); LogLevel must follow its LogFormat (C80_loglevel_order_fails); HeaderOption needs a newline (C80_header_option_fails). Not in the model: ACL, TrustedIP, Include, SSLEngine, ECDHCurve, ConfigText; conditions of services are in C70.
* **C81** SRV records become balancer groups: Invariant over all histories on top of the model of C37. Partial: the group is that of the record only as long as the priority of the record does not change (C81_group_fails: the group is never changed afterwards); a host and port named in two groups gets backends in the first one only, with the last weight (C81_twice_fails); a target removed while its first address look-up is pending leaves a group without backends, and the next request ends the program (C81_pending_fails).
* **C82** Dynamic backends follow the name service: For every behaviour of the resolver library (a parameter, with the status codes of adns.h). Partial: the code violates the property. Findings: with CNAMEChain of 2 or more, looking up an alias of an alias writes past a block of one byte (C82_chain_fails), and would never find the addresses because the query is repeated for the first name (C82_chain_never_fails); SERVFAIL or REFUSED removes all backends (C82_server_fails); after a system error such as EAGAIN, or a broken response, the name is never looked up again (C82_errno_fails, C82_permanent_fails); OverrideTTL replaces RetryInterval for absent names (C82_override_fails); a temporary failure for one family removes the backends if the other has no records (C82_mixed_fails).
* **C83** poundctl does what it is told and says whether it was done: The client, the request on the wire, the server's reading of it, the handler and the client's reading of the reply are composed; the theorems hold for all configurations, paths of visible characters and times. Missing, because the code does not do it: names in session commands, keys with spaces or ampersands, URLs with a path that is just a slash, IPv6 addresses, credentials over 48 bytes; line breaks in arguments inject requests; replies that are cut short may be taken for success; the rest of C25's findings (in particular, sessions only in services that have a table).
* **C84** Names of backends in use are looked up for as long as they are in use, once at a time: Memory safety and reference counts hold in all histories (C84_alive, C84_references). That look-ups go on is proved if no look-up fails for good and no backend is disabled before its first answer while job 0 is another backend's look-up; that there is one at most if backends are disabled only while the look-up whose number is stored waits. The code violates the full property: the number of a retry after a temporary failure is not stored, so that such a look-up is never cancelled (C84_disabled_fails, C84_once_after_failure_fails); disabling and enabling while a look-up runs makes two chains that never merge (C84_once_fails, C84_chains); the number stored before the first answer is 0, which is that of the first job, so that disabling one backend stops the look-ups of another (C84_stopped_fails); a permanent failure ends the look-ups (C84_failure_fails).
* **C85** Threads never wait for each other in a circle, and never work on the tables of a service at the same time: For all numbers of threads, sequences of operations and interleavings: no circle of waiting threads and no stop before the end, unless the timer thread cancels jobs of backends (C85_cancel_fails: it holds the mutex of the job queue and waits for that of the backend, whose owner waits for the job queue); threads give back all mutexes; tables of services are not changed while others use them, except by control requests: disabling a dynamic backend changes them without the mutex of the service, and single backends, services to be disabled and targets of new sessions are looked for without it.
* **C86** Removed backends are released once nobody uses them, and not before: Safety (released once, only when unused, never used afterwards, no assertion fails) for all histories. Release in the end: proved for histories in which no last reference is dropped after the only remover has passed the backend, and no backends are removed without a remover being started; also, whatever happened before, after the next look-up with addresses. Otherwise it fails: the signal is sent without the mutex of the service and can be lost; SRV records that go away and disabled backends start no remover; and each look-up during a long request starts another thread, of which all but one wait for ever.
* **C87** Relative file names are looked up in the include directory: The files that are used are proved for every configuration that is read to its end (C87_files, C87_include); that reading ends well and password files are found is proved for configurations whose certificate names are absolute and that name a file before the first IncludeDir (C87_safe_partial). The code fails otherwise: IncludeDir as first statement dereferences a null pointer; each relative certificate name drops a reference that was never taken, so that the include directory is released while in use; absolute names need the include directory; password files use the directory in effect at the end; with RootJail a password file in / is refused.
* **C88** Connections to backends are opened, used and closed in order: Sockets, dead backends, the backend in charge, connect_nb and the probe are proved for all client connections. The code fails in these cases: a failed TLS handshake (or lack of memory) loses the reference to the backend; if no socket can be made the backend is accessed after its reference was given back; without memory for the TLS layer the TLS object is lost; time-outs above 2147483 seconds overflow.
* **C89** The server starts with the privileges, files and sockets it should have, and leaves none behind: Credentials, modes, jail, standard descriptors and the file for the process identifier are proved for all configurations and starts. No request is served if a step of the start fails (C89_failed). The code fails in these cases: supplementary groups of the superuser are kept; if standard descriptors are closed at the start, the sockets of listeners are closed on the way to the background; the control socket is not removed (and another file is) if its name is relative and the server goes into the background, or if it comes before RootJail; with RootJail, files in the root directory are not removed.
* **C90** Every request is answered once, with the page that is configured: Proved for every stream of requests other than HEAD: one reply each, in order, with the configured code and page (that of a redirect links to the location), and nothing else; reading is unambiguous (C90_read_once). Rewriting rules must leave header lines without a transfer coding. The code fails in these cases: HEAD requests are answered with a body (C90_head_fails); if the file of an ACME challenge cannot be read to its end (or is a directory), a second reply follows in the middle of the first (C90_acme_fails); replies of Error backends announce that the connection will be closed, and it is not (C90_close_fails).
* **C91** Connections are switched to WebSocket by agreement only, and relayed faithfully: Partial because of the code: after an interim 100 response the head of the 101 response is swallowed (C91_after_100_fails); when a client closes its side, what the backend has sent and poll has reported is dropped (C91_half_closed_fails).
* **C92** A service is what its section says, sessions included: Partial because soundness and completeness leave out what C70 and C71 do (double negation, Host with a file of names, response rules). The completeness of sessions is proved for everything that is accepted. Findings: ID accepted for session types for which it is not permitted (C92_id_fails); Type and TTL not mandatory in a second Session section (C92_mandatory_fails).
* **C93** Backends read the requests of clients one for one: Partial because it is not so for requests with a body that the server answers itself: the body is taken for the next request (C93_unread_body_fails); for junk after chunk data, which strict servers refuse (C93_strict_fails); and for chunked bodies of HTTP/1.0 (C93_http10_fails). Rewriting rules are a parameter with the condition that they leave lines well-formed and the framing headers alone; C94 shows which rules do.
* **C94** Clients cannot inject lines by way of rewriting rules: That lines stay single lines is proved in full for rules whose texts are single lines. One for one is partial because of what is partial in C93; because certificates of clients are passed on in several lines, which a rule can move into the request line (C94_certificate_fails); and because rules that delete framing headers (C94_framing_fails) or take header names from clients (C94_name_fails) are applied without any check.
* **C95** Clients read the responses of backends one for one: Proved for backends that follow the standard and answer in time. Partial because of the code: a response with another transfer coding and a length is taken to end by its length, and the connection is kept (C95_codings_fails); 305 and 306 are relayed without their bodies (C95_proxy_codes_fails); a body until the end of the stream that is late is dropped and the connection kept (C95_late_fails); interim responses lose final ones (C41_after_100_fails, C41_after_103_fails). Responses generated by the server are those of C90.
* **C96** References to groups stand for what the groups matched, with every kind of pattern: For POSIX patterns, fixed strings, and PCRE patterns whose last group takes part. Partial because of the code: with PCRE, groups after the last one that took part are never written, and references to them use memory that was not initialised (C96_unset_fails); an error of regexec is taken for a match (C96_posix_error_fails), one of PCRE, such as the limit of backtracking, for no match, so that negated conditions hold (C96_pcre_error_fails). What is missing in C12 is missing here.
* **C97** Requests and responses use memory correctly, whatever allocations fail: Proved without bounds on connections, for every pattern of failing allocations (no combined headers, no X-Forwarded-For, no query parameters), and for all operations if none fails. Partial because of the code: a response with a Content-Length that is not a number makes the server read a header after releasing it (C97_response_fails); the table of combined headers is lost when a first line is refused (C97_combine_fails); too little memory leads to a read through NULL when an address is added to X-Forwarded-For (C97_append_fails) and to leaks of parameters (C97_params_fails) and of combined headers (C97_composed_fails). Replies of Error backends: C97_errors_partial; if a rule for responses fails, or memory is short, the headers of such a reply are lost, without bound over requests (C97_errors_fails, C97_error_memory_fails). Values and texts: C97_read, C97_value, C97_texts.
* **C98** poundctl does what its command line and its configuration ask for: The command line: iff. The settings: if poundctl gets as far as connecting. Partial because of the code: sections without Verify are not verified though the manual says that is the default (C98_verify_default_fails); options before -S are dropped (C98_option_order_fails); TemplatePath is ignored (C98_template_path_fails); a file given with -t is looked for in the path, too (C98_template_verbatim_fails); an empty template file makes poundctl fail whatever it is to do (C98_empty_template_fails); the certificate of any host is accepted if its chain verifies (C98_other_host_fails).
* **C99** The command line of pound means what the manual says: Starting: iff; -c: the status for every command line; status 0 only as said. Partial because of the code: -c says that a file without listeners is OK (C99_check_fails); -W include-dir without a value passes a null pointer to stat (C99_include_dir_fails). Parsing of the file is a parameter here (C65-C80).
* **C100** Look-ups in tables find exactly what was added: Hash values agree with comparisons in all tables (C100_hash); with that, all histories. LHASH of OpenSSL is modelled as nodes in any order with their hash values. Partial because of the code: when a name is repeated in CombineHeaders, the entry that was stored is released instead of the one replaced, and the next header of that name makes the server read released memory (C100_combine_fails, for every list with a repetition; look-ups are safe exactly for the other lists).
* **C101** A whole configuration means what its text says, down to the service that gets a request: Joins C70, C71, C75, C78, C80 and C15: one parser for the whole file with access lists, services in full and listeners with theirs; FullConfigures says what the text means, and C101_routed_partial goes on to the service chosen. C101_complete_partial: everything documented is accepted, without messages and with that meaning (up to the representation of conditions and rules), so that a text has one meaning (C101_one_partial), and requests go to the services that the documented text says (C101_documented_partial) and are modified by the rules that it has in the listener and then in the service (C101_rewritten_partial), and are given the backends that it declares in the service (C101_served_partial), the same one as long as the sessions last that the text has in the service (C101_sticky_partial), and another one declared there when connecting fails (C101_failover_partial); with Balancer iwrr, requests are shared in the proportion of the priorities in the text (C101_shares_partial, C101_traffic_partial), and with Balancer random or none so are the numbers that random() gives (C101_random_partial). C101_answers_partial goes from the text and the bytes that a client sends to the bytes that it gets, for services with Error and Redirect backends; C101_forwards_partial goes on to the bytes that regular backends read: the request as it was taken, with the forwarding headers and after the rules of the text; C101_relays_partial goes back to what clients read from those: the response of the backend, but for Location and Content-Location, which follow RewriteLocation. Missing: double negations, Host with files of names and rules for responses, which are not read as documented (C70, C71); Include (C63, C65), ACME, the deprecated names of DeleteHeader and SetHeader in listeners, ECDHCurve and SSLEngine; CheckURL is read with the defaults at the start of the listener. Deviations: IgnoreCase in a service applies to all that follows it, even in other listeners (C101_ignore_case_fails); an access list can be named only after its definition (C101_acl_order_fails); ClientCert in rules is not noticed where there is no encryption (C101_rule_cert_fails). With Balancer iwrr and several backends, Emergency backends are never reached (C101_endless_fails).
* **C102** Messages about the configuration name the place they are about: Lines are right for all texts (C102_lines). Columns are right on lines where tabulators come first only, the rest is partial: after a word a tabulator is counted as eight columns and given back as one (C102_tab_fails). Finding: an unterminated string is reported on the line after it (C102_string_fails). Not covered: the places of whole sections, and messages after the end of the outermost file, which have none.
* **C103** Answering a control request gives back the memory of the answer: Proved for all states with memory at hand (status, core, listener, service, backend, refused indentation), with the text that is sent; for core and for backends without statistics also under any pattern of failing allocations (whole answer or error, no fault).  Partial because the code violates the rest: json_new_array returns a value whose array is NULL when its second allocation fails, since the out-of-memory hook returns (C103_array_fails); listener_serialize adds services to an array it has released (C103_released_fails) and overwrites earlier errors, so that a listener is sent without its name and with status 200 (C103_omits_fails); backend_stats_serialize ignores errors (C103_stats_fails); values that cannot be added are lost (C103_lost_fails).

## Which functions are modelled

By source file: functions of which at least half of the lines are cited by a model definition (with the module), then the ones of which parts are cited, then the ones that are not modelled.  Functions that only allocate or free what the model treats as values count as not modelled.

### bauth.c

* modelled: Bauth: `auth_plain`, `to64`, `apr_md5_encode`, `auth_apr`, `auth_sha1`, `auth_match`, `pass_file_fill`, `basic_auth_internal`, `basic_auth`; Locks: `auth_crypt`
* not modelled: `user_pass_free`, `pass_file_changed`

### cfgparser.c

* modelled: BeCfg: `cfg_assign_string`, `cfg_assign_int_enum`; CfgParser: `parser_find`, `cfgparser`, `cfgparser_parse`, `cfg_parse_end`, `cfg_int_set_one`, `cfg_assign_string_from_file`, `cfg_assign_bool`, `cfg_assign_unsigned`, `cfg_assign_int_range`, `cfg_assign_mode`; Input: `fopen_error`, `input_putback`, `cur_token`, `last_token_locus_range`, `push_input`, `pop_input`, `gettkn`, `cfg_parse_include`; Lexer: `kw_to_tok`, `input_close`, `input_open`, `input_gettkn`, `gettkn_expect_mask`, `gettkn_any`, `gettkn_expect`, `putback_tkn`, `cfg_read_to_end`; Locus: `stringbuf_format_locus_point`, `same_file`, `stringbuf_format_locus_range`, `vconf_error_at_locus_range`, `conf_error_at_locus_range`, `vconf_error_at_locus_point`, `conf_error_at_locus_point`, `input_getc`, `input_ungetc`; TopCfg: `cfg_assign_log_facility`; WorkDir: `pathname_alloc`, `xgetcwd`, `workdir_get`, `workdir_free`, `workdir_cleanup`, `get_include_wd_at_locus_range`, `fopen_wd`, `fopen_include`, `filename_resolve`, `cfgparser_open`, `cfgparser_finish`, `cfg_parse_includedir`
* not modelled: `token_type_str`, `token_mask_str`, `kw_to_str`, `stderr_error_msg`

### config.c

* modelled: Acl: `new_acl`, `cidr_match`, `sockaddr_bytes`, `acl_match`, `masklen_to_netmask`, `parse_cidr`, `acl_by_name`, `parse_acl`, `parse_named_acl`; BeCfg: `backend_create`, `xbackend_create`, `named_backend_table_init`, `named_backend_table_free`, `named_backend_retrieve`, `assign_address_string`, `assign_address_family`, `assign_port_generic`, `assign_port_int`, `assign_cert`, `backend_parse_https`, `backend_parse_cert`, `backend_assign_ciphers`, `backend_assign_priority`, `set_proto_opt`, `disable_proto`, `resolve_mode_str`, `assign_resolve_mode`, `format_locus_str`, `parser_loop`, `parse_backend_internal`, `parse_backend`, `parse_use_backend`, `parse_emergency`, `parse_control_backend`, `parse_metrics`, `parse_redirect_backend`, `parse_error_backend`, `parse_balancer`, `parse_named_backend`, `str_is_ipv4`, `str_is_ipv6`, `str_is_ip`, `backend_matrix_to_regular`, `backend_resolve`, `be_setup_closure_init`, `backend_finalize`, `cb_be_setup`, `service_finalize`; FullCfg: `assign_dfl_ignore_case`, `foreach_client_cert`; HashTab: `named_backend_insert`; HostCond: `stringbuf_escape_regex`, `host_prefix_regex`, `parse_cond_host`; Lexer: `read_resolv_text`; Log: `log_format_diag`, `compile_canned_formats`, `parse_log_format`; LstCfg: `assign_port_string`, `assign_CONTENT_LENGTH`, `parse_errorfile`, `listener_parse_xhttp`, `listener_parse_checkurl`, `listener_parse_socket_from`, `parse_rewritelocation`, `parse_header_options`, `listener_alloc`, `find_listener_ident`, `forbid_ssl_usage`, `resolve_listener_address`, `parse_listen_http`, `https_parse_cert`, `verify_OK`, `https_parse_client_cert`, `https_parse_disable`, `https_parse_ciphers`, `https_parse_honor_cipher_order`, `https_parse_allow_client_renegotiation`, `https_parse_calist`, `https_parse_verifylist`, `https_parse_crlist`, `https_parse_nohttps11`, `client_cert_cb`, `flush_service_client_cert`, `parse_listen_https`; PoundCmd: `set_include_dir`, `feature_is_set`, `feature_set`, `config_parse`; SvcAll: `assign_acl`, `sess_type_to_str`, `session_type_parser`, `parse_session`, `parse_log_suppress`, `find_service_ident`, `new_service`, `parse_service`; SvcCfg: `parse_acl_ref`, `service_cond_append`, `parse_match_mode`, `parse_regex_compat`, `parse_cond_matcher_0`, `parse_cond_matcher`, `parse_cond_acl`, `parse_cond_url_matcher`, `parse_cond_path_matcher`, `parse_cond_query_matcher`, `parse_cond_query_param_matcher`, `parse_cond_string_matcher`, `parse_cond_hdr_matcher`, `parse_cond_head_deny_matcher`, `parse_cond_basic_auth`, `parse_cond_client_cert`, `parse_match`, `parse_not_cond`, `parse_cond`, `parse_end_else`, `rewrite_op_alloc`, `parse_rewrite_op`, `parse_delete_header`, `parse_set_header`, `parse_set_url`, `parse_set_path`, `parse_set_query`, `parse_set_query_param`, `rewrite_rule_alloc`, `parse_else`, `parse_sub_rewrite`, `parse_response_else`, `parse_response_sub_rewrite`, `parse_rewrite`, `rewrite_rule_last_uncond`, `SETFN_SVC_DECL`; Tls: `get_subjectaltnames`, `load_cert`, `SNI_server_name`; TopCfg: `parse_log_level`, `parse_threads_compat`, `parse_control_socket`, `parse_control_listener`, `parse_combine_headers`, `assign_regex_type`, `read_resolv_conf`, `parse_resolver`, `parse_config_file`; WorkDir: `cond_pass_file_fixup`, `rule_pass_file_fixup`, `pass_file_fixup`, `service_pass_file_fixup`, `listener_pass_file_fixup`
* in part: SvcAll: `parse_acme`
* not modelled: `regcomp_error_at_locus_range`, `openssl_error_at_locus_range`, `parse_ECDHCurve`, `parse_SSLEngine`, `string_ref_alloc`, `string_ref_incr`, `string_ref_free`, `print_help`

### dynbe.c

* modelled: DynBe: `backend_table_addr_lookup`, `backend_mark`, `service_matrix_addr_update_backends`; HashTab: `djb_hash_add`, `djb_hash`, `BACKEND_hash`, `BACKEND_cmp`, `backend_table_hostname_lookup`, `backend_table_delete`, `backend_table_insert`, `backend_table_foreach`; Locks: `job_resolver`; Lookups: `job_enqueue_resolver`, `backend_matrix_update`, `backend_matrix_schedule_update`, `backend_matrix_init`, `backend_matrix_disable`, `backend_remover_cleanup`, `start_backend_removal`; Remover: `backend_sweep`, `thr_backend_remover`, `backend_ref`, `backend_unref`; Resolver: `dns_not_found_response_alloc`, `response_override_ttl`, `backend_matrix_addr_update`, `backend_matrix_srv_update`; Srv: `backend_set_prio`, `analyze_srv_response`, `service_matrix_srv_update_backends`
* not modelled: `dns_addr_to_addrinfo`, `backend_table_new`, `backend_table_free`, `backend_release`

### genpat.c

* modelled: Cond: `genpat_match`; Expand: `genpat_nsub`; Genpat: `genpat_compile`, `exact_exec`, `prefix_exec`, `suffix_exec`, `fill_bad_char_delta`, `is_prefix`, `longest_suffix_length`, `fill_good_pfx_delta`, `strstr_compile`, `strstr_exec`; HostCond: `posix_pattern_compile`; Regex: `posix_pattern_exec`, `substr_num_submatch`
* not modelled: `genpat_error`, `genpat_free`, `posix_pattern_init`, `posix_pattern_error`, `posix_pattern_nsub`, `posix_pattern_free`, `substr_init`, `substr_free`, `substr_compile`, `substr_error`, `strstr_init`, `strstr_free`

### http.c

* modelled: Balance: `select_backend`; BeCfg: `http_status_to_pound`; Channel: `close_backend`, `open_backend`; Cond: `match_headers`, `match_cond`, `rewrite_rule_check`, `rewrite_apply`; Exchange: `http_headers_send`, `http_request_send`, `force_http_10`, `http_response_validate`, `backend_response`, `do_http`; Expand: `bio_http_reply_start`, `bio_http_reply`, `submatch_queue_get`, `submatch_queue_push`, `accessor_url`, `accessor_path`, `accessor_query`, `accessor_param`, `accessor_header`, `accessor_host`, `accessor_port`, `find_accessor`, `expand_string_to_buffer`, `expand_string`, `expand_url`, `redirect_response`; Forward: `strip_eol`, `add_forwarded_headers`, `set_header_from_bio`, `add_ssl_headers`, `send_to_backend`; Framing: `isws`, `trimwsl`, `copy_status_string`, `copy_bin`, `drain_eol`, `get_line`, `strtoclen`, `get_content_length`, `copy_chunks`; HashTab: `strhash_ci`, `HEADER_NAME_hash`, `HEADER_NAME_cmp`, `combinable_header_add`, `is_combinable_header`; Headers: `cs_locate_token`, `qualify_header`; Locks: `backend_update_stats`; Own: `http_header_alloc`, `http_header_free`, `http_header_change`, `http_header_copy_value`, `http_header_get_value`, `http_header_list_locate`, `http_header_list_locate_name`, `http_header_list_next`, `http_header_list_append`, `http_header_list_append_list`, `http_header_list_free`, `http_header_list_remove`, `http_header_list_filter`, `http_request_split`, `http_request_rebuild_line`, `http_request_rebuild_url`, `http_request_rebuild_query`, `http_request_get_request_line`, `http_request_orig_line`, `http_request_get_url`, `http_request_set_url`, `http_request_get_path`, `http_request_set_path`, `http_request_get_query`, `query_param_free`, `http_request_free_query`, `http_request_parse_query`, `http_request_get_query_param`, `http_request_get_query_param_value`, `http_request_set_query`, `http_request_set_query_param`, `http_request_header_value`, `http_request_host`, `http_request_free`, `COMPOSE_HEADER_hash`, `COMPOSE_HEADER_cmp`, `compose_header_free`, `compose_header_hash_free`, `compose_header_finish`, `http_request_read`, `get_basic_auth`, `http_request_get_basic_auth`, `parse_http_request`, `rewrite_op_apply`; OwnErr: `parse_header_text`, `error_response`; Regex: `submatch_realloc`, `submatch_free`, `submatch_reset`, `submatch_queue_free`, `submatch_exec`; Replies: `bio_http_reply_start_list`, `pound_to_http_status`, `bio_err_reply`, `http_err_reply`, `acme_response`; Request: `find_method`, `method_name`; Tls: `set_callback`; Workers: `thr_http`
* not modelled: `control_response`, `is_readable`, `log_duration`, `socket_setup`, `log_error`

### json.c

* modelled: Json: `json_format_indent`, `json_format_delim`, `escape`, `json_format_escape`, `json_array_insert`, `json_array_get`, `json_object_get`, `json_object_filter`, `utf8_wctomb`, `j_get_text`, `json_parse_string`; JsonMem: `json_value_create`, `is_valid_type`, `is_valid_value`, `json_value_free`, `json_value_copy`, `json_value_format`, `json_copy_generic`, `json_new_null`, `json_format_null`, `json_new_bool`, `json_format_bool`, `json_new_number`, `json_format_number`, `json_new_integer`, `json_format_integer`, `json_new_string`, `json_free_string`, `json_copy_string`, `json_format_string`, `json_new_array`, `json_free_array`, `json_copy_array`, `json_array_expand`, `json_array_append`, `json_array_set`, `json_format_array`, `json_new_object`, `json_free_object`, `json_copy_object`, `json_object_lookup_or_install`, `json_object_set`, `json_format_object`
* not modelled: `json_strerror`, `json_format_writez`, `json_format_writec`, `j_context_type`, `j_context_push`, `j_context_pop`

### log.c

* modelled: Acl: `acl_match_ip`, `scan_forwarded_header`, `get_forwarded_header_name`, `get_trusted_ips`, `save_forwarded_header`; Log: `http_log_parser_error`, `http_log_parser_warning`, `add_instr`, `print_str`, `i_print`, `anon_ip`, `anon_addr2str`, `i_remote_ip`, `i_forwarded_ip`, `i_local_ip`, `i_response_size`, `i_response_size_clf`, `i_protocol`, `i_method`, `i_query`, `i_status`, `phttp_field_ptr`, `i_timedfl`, `i_timefmt`, `i_time_s`, `i_time_msec`, `i_time_msec_frac`, `i_time_usec`, `i_time_usec_frac`, `argprt_find`, `p_time`, `i_process_time_ms`, `i_process_time_us`, `i_process_time_s`, `i_process_time_f`, `p_process_time`, `i_user_name`, `i_url`, `i_listener_name`, `i_tid`, `i_request`, `i_backend`, `be_service_name`, `i_service`, `i_listener`, `p_objname`, `i_backend_locus`, `i_service_locus`, `i_listener_locus`, `p_objloc`, `i_header`, `i_header_clf`, `find_spec`, `find_log_prog`, `http_log_format_find`, `http_log_format_check`, `http_log_format_compile`, `http_log`

### mem.c

* modelled: Own: `stringbuf_init`, `stringbuf_free`, `stringbuf_add_char`, `stringbuf_add`, `stringbuf_add_string`, `stringbuf_set`, `stringbuf_finish`, `stringbuf_vprintf`; StringBuf: `mem2nrealloc`, `stringbuf_reset`, `stringbuf_expand`, `stringbuf_truncate`, `stringbuf_strftime`
* not modelled: `xmalloc`, `xcalloc`, `xrealloc`, `x2nrealloc`, `xstrdup`, `xstrndup`, `stringbuf_printf`

### metrics.c

* modelled: Metrics: `metric_labels_add`, `metric_labels_pop`, `metric_labels_copy`, `metric_labels_free`, `exposition_metric_find`, `json_object_get_type`, `json_object_get_name`, `exposition_apply_family`, `exposition_iterate`, `gen_listener_enabled`, `gen_listener_info`, `gen_backends_count`, `gen_service_info`, `gen_backend_state`, `gen_backend_stats`, `gen_workers`, `exposition_fill`, `exposition_format`, `send_reply`, `metrics_response`
* not modelled: `metric_samples_add`, `metric_samples_free`, `metric_add_sample`, `metric_free`, `exposition_free`, `gen_service_enabled`, `gen_backend_requests`, `gen_backend_request_time_avg`, `gen_backend_request_stddev`

### pound.c

* modelled: Channel: `pound_http_destroy`; JsonMem: `lognomem`; Locks: `vlogmsg`, `pound_http_enqueue`, `pound_http_dequeue`, `get_thr_qlen`, `active_threads_decr`, `active_threads_wait`; Metrics: `workers_serialize`; Startup: `unlink_file_location`, `unlink_file`, `unlink_at_exit`, `pidfile_create`, `pound_atexit`, `cleanup`, `detach`, `read_fd`, `listener_socket_from`, `listener_init`, `main`; Workers: `worker_start`, `thr_dispatch`, `supervisor`
* in part: Startup: `probe_pthread_cancel`; Workers: `server`
* not modelled: `logmsg`, `xnomem`, `abend`, `l_init`, `l_lock`, `l_id`, `listener_cleanup`, `signull`, `thr_cancel`

### poundctl.c

* modelled: CtlMain: `parse_server`, `read_config`, `open_socket`, `find_template_file`, `read_template`, `main`; Poundctl: `find_keyword`, `get_socket_name`, `url_parse_host`, `url_parse_creds`, `url_parse_scheme`, `url_parse`, `oi_getn`, `check_uri`, `xgets`, `read_response_line`, `read_response`, `send_request`, `command_list`, `command_on_off`, `command_disable`, `command_enable`, `command_delete_session`, `command_add_session`, `find_command`
* in part: Poundctl: `openssl_errormsg`
* not modelled: `write_string`, `print_json`, `usage`, `xnomem`, `line_start`, `line_no`

### progname.c

* not modelled: `set_progname`, `print_string_values`, `print_version`

### regex_pcre.c

* modelled: Regex: `pcre_pattern_exec`
* not modelled: `pcre_pattern_init`, `pcre_pattern_compile`, `pcre_pattern_error`, `pcre_pattern_nsub`, `pcre_pattern_free`

### regex_pcre2.c

* modelled: Regex: `pcre2_pattern_exec`
* not modelled: `pcre2_pattern_init`, `pcre2_pattern_compile`, `pcre2_pattern_free`, `pcre2_pattern_error`, `pcre2_pattern_nsub`

### resolver.c

* modelled: HashTab: `CNAME_REF_hash`, `CNAME_REF_cmp`; Resolver: `get_negative_expire_time`, `dns_state_free`, `dns_state_key_create`, `dns_state_create`, `dns_get_state`, `adns_to_dns_status`, `errno_to_dns_status`, `cname_install`, `dns_query`, `dns_generic_lookup`, `rr_a_conv`, `rr_aaaa_conv`, `dns_generic_addr_lookup`, `dns_addr_lookup`, `rr_srv_conv`, `dns_srv_lookup`; Srv: `srv_cmp`
* in part: Resolver: `dns_log_cb`
* not modelled: `resolver_set_config`, `dns_response_alloc`, `dns_response_free`

### svc.c

* modelled: Balance: `random_in_range`, `rand_pri_init`, `rand_pri_update`, `rand_select`, `iwrr_init`, `iwrr_reset`, `iwrr_select`, `iwrr_pri_init`, `iwrr_pri_update`, `balancer_select_backend`, `balancer_init`, `balancer_reset`, `balancer_pri_init`, `balancer_pri_update`, `service_lb_select_backend`, `service_lb_init`, `find_backend_by_key`, `find_key_by_header`, `find_backend_by_header`, `key_authbasic`, `key_cookie`, `service_has_backends`, `get_backend`, `upd_session`, `balancer_recompute_pri_unlocked`, `service_recompute_pri_unlocked`, `service_recompute_pri`, `cb_backend_disable`, `balancer_list_get`; BeCfg: `get_host`; Channel: `connect_nb`, `backend_probe`; Cond: `match_service`, `get_service`; Control: `backend_disable`, `get_param`, `session_backend_index`, `service_session_serialize`, `backend_type_str`, `addrinfo_serialize`, `find_backend_index`, `send_json_reply`, `control_list_core`, `control_list_all`, `ctl_getident`, `locate_listener`, `locate_service`, `locate_backend`, `ctl_backend`, `ctl_service`, `ctl_listener`, `list_handler`, `control_list_listener`, `control_list_service`, `service_has_control`, `listener_has_control`, `disable_handler`, `control_disable_listener`, `control_enable_listener`, `control_disable_service`, `control_enable_service`, `session_remove_handler`, `session_add_handler`, `control_delete_session`, `control_add_session`, `find_endpoint`, `control_response_basic`; DynBe: `service_lb_reset`, `kill_be`, `touch_be`; Forward: `addr2str`, `str_be`; HashTab: `service_session_remove_by_key`; Jobs: `job_mutex`, `job_alloc`, `job_arm_unlocked`, `job_enqueue_unlocked`, `job_enqueue`, `job_enqueue_after_unlocked`, `job_enqueue_after`, `job_remove`, `job_get_timestamp`, `job_cancel`, `thr_job_runner`, `thr_timer`; JsonMem: `timespec_serialize`, `backend_stats_serialize`, `backends_serialize`, `listener_serialize`, `pound_core_serialize`, `pound_serialize`, `write_string`; Location: `is_proto`, `sun_set_port`, `is_backend_address`, `is_listener_address`, `listener_port`, `need_rewrite`; Locks: `job_mutex_init`, `RSA_tmp_callback`, `generate_key`, `do_RSAgen`; Lookups: `timer_cleanup`; Metrics: `nabs`, `nsqrt`, `backend_serialize_dyninfo`, `backend_serialize`, `service_serialize`; Session: `session_table_new`, `session_link_at_tail`, `session_unlink`, `session_free`, `expire_sessions`, `service_session_promote`, `service_session_add`, `service_session_find`, `service_session_remove_by_backend`; Tls: `SSLINFO_callback`
* not modelled: `DH_tmp_callback`, `init_rsa`, `set_ECDHCurve`, `POUND_SSL_CTX_init`, `POUND_SSL_CTX_init`, `foreach_listener`, `foreach_service`, `itr_service_backends`, `foreach_backend`, `balancer_list_remove`

### tmpl.c

* modelled: Tmpl: `find_func`, `template_strerror`, `tmpl_input_init`, `tmpl_input_error`, `tmpl_input_putback`, `tmpl_input_token`, `tmpl_gettok`, `tmpl_gettext`, `scan_arg`, `scan_pipeline`, `if_action_parser`, `parse_with_var`, `parse_range_vars`, `find_action_parser`, `scan_action`, `template_lookup`, `template_define`, `template_parse`; TmplRun: `tmpl_pipeline_eval`, `is_empty`, `single_arg`, `two_args`, `func_and`, `func_or`, `json_cast_to_integer`, `json_cast_to_string`, `func_index`, `func_len`, `json_cmp_eq`, `json_number_cmp`, `json_integer_cmp`, `json_string_cmp`, `json_cmp`, `assert_numeric_value`, `func_add`, `func_sub`, `func_mul`, `get_num`, `func_printf`, `tmpl_env_print_json`, `tmpl_action_eval`, `template_run`
* in part: TmplRun: `tmpl_va_arg_n`
* not modelled: `write_string`, `print_json`, `json_error`, `errormsg`, `tmpl_env_new`, `tmpl_env_free`, `actual_arg_head_free`, `formal_arg_head_free`, `tmpl_command_free`, `tmpl_pipeline_free`, `is_true`, `assert_args`, `func_not`, `func_eq`, `func_ne`, `func_lt`, `func_le`, `func_gt`, `func_ge`, `func_even`, `func_typeof`, `func_exists`, `func_div`, `sb_write_string`, `stringbuf_print_json`, `tmpl_input_mark`, `tmpl_getchar`, `tmpl_lookahead`, `tmpl_input_less`, `tmpl_tok_free`, `tmpl_command_new`, `tmpl_env_write`, `env_write_string`, `tmpl_action_free`, `tmpl_action_list_free`, `tmpl_action_new`, `parser_tables_copy`, `elseif_action_parser`, `endif_action_parser`, `elsewith_action_parser`, `with_action_parser`, `break_action_parser`, `continue_action_parser`, `range_action_parser`, `block_action_parser`, `define_action_parser`, `template_action_parser`, `find_action_parser_def`, `template_install`, `tmpl_run_in_env`

Headers: list.h (Lists), parts of pound.h, ht.h, json.h and cfgparser.h are cited where used.
