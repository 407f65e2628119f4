# Formal model of OctaneWeb/Octane in Lean 4

## Layout

- `lean/Verif/Model/*.lean`: the model of the code, function by function. Every definition cites the file and lines of `/repo` it models.
- `lean/Verif/Spec/*.lean`: small independent specifications, written without the model's helpers.
- `lean/Verif/Proof/*.lean`: helper lemmas.
- `lean/Verif/Props/*.lean`: the property theorems, with a non-vacuity `example` beside each.
- `lean/Verif/Check/RepoTests.lean`: the tests of `/repo` (unit tests of `src`, `tests/*.rs`) replayed on the model, as a check of the model; no theorem depends on it.
- `lean/Verif/Check/Cases*.lean`: concrete data for the theorems with hypotheses. A theorem is applied to data that meet its hypotheses either in an `example` beside it in `Props` or in one of these files. `Check/Decide.lean` and `Check/Requests.lean` let the conditions on the data be computed; no theorem depends on these files.
- `properties.jsonl`, `MANIFEST.json`: the property list and which theorems settle which property.
- `seeded/LOG.jsonl`: the wrong programs the theorems were tried against.

## Modelling conventions

- A Rust `&str`/`String` is a `List Char`; a `&[u8]` is a `List UInt8`. UTF-8 is Lean core's own encoder/decoder.
- A panic is the explicit value `Res.panic`. `Option`/`Result` stay data.
- A `HashMap` is an association list with at most one entry per key. Its enumeration order is never relied on: wherever the code enumerates a map, the model takes an arbitrary permutation.
- `usize`/`u64`/`i64` are `Nat`/`Int`. Where the code parses a number the bound of the machine type is kept.
  The date computation is done in checked `i64` arithmetic (`Time.timeWith`, C109).
- Cargo features `faithful`, `url_variables`, `cookies`, `raw_headers` are Boolean parameters where they change behaviour.
- Handlers are arbitrary functions `MatchedRequest → S → Res (S × Flow)`, for an arbitrary state `S` (the response plus anything else they touch).
- A socket is a list of segments with arbitrary boundaries; a read with buffer size `n` returns a non-empty prefix of the first segment of length at most `n`.

## Plan per property

- **C01** A parsed path is always normal. `Path.parse` over `List Char`; invariant of the segment fold.
- **C02** Path resolution and rejection are exactly the '..' rule. Independent right-to-left resolver (`Spec.resolve`, counts pending `..`) and prefix-depth predicate; equality by induction on segments.
- **C03** Displaying and re-parsing a path is the identity; redundant separators do not matter. Round trip through `display`; split/append law of the segment fold.
- **C04** A request path can never address a file outside the base directory. Spec: a directory walk (`Spec.walkDepth`) over the components of the resulting relative path; depth never negative, never absolute.
- **C05** Route pattern matching is segment-wise with ':' variables. `Path.checkMatches` against a relational spec (`Spec.Matches`) and a bindings spec (last position).
- **C06** Path concatenation and subtraction are inverse. Algebraic laws on `List`.
- **C07** 'Starts with' holds only for prefixes. False of the code (zip truncates): counter-example + partial theorem for arguments not longer than the path.
- **C08** Route lookup returns exactly the matching routes. Trie refinement: every reachable trie represents its registration list; lookup = filter of that list up to permutation (multiset equality).
- **C09** Route lookup and insertion never panic. Panics are explicit `Res.panic` values; shape invariant of the trie.
- **C10** Iterating a route table visits every route exactly once. Iterator modelled as a stack machine; enumeration order of each hash map is chosen by an arbitrary permutation when a map is pushed.
- **C11** A handler receives exactly the URL variables of its own pattern. Part of the router refinement (each run handler gets the spec's bindings).
- **C12** Handlers run in registration order. Router refinement: `run` of any built router = run of the registration log filtered for the request.
- **C13** Flow::Stop ends the chain, Flow::Next continues it. Corollary of C12's refinement, stated on the log.
- **C14** Method isolation. Corollary of the refinement.
- **C15** Mounting a router equals registering its routes in place. `append` relation over all permutations of hash-map enumeration; refinement to log concatenation.
- **C16** A rejected registration has no effect. Failed registration leaves an empty method node: refinement shows it is invisible.
- **C17** Routing terminates without panicking. `run` never yields `Res.panic` for non-panicking handlers; number of handler calls bounded.
- **C18** Percent-decoding is exact. `DoublePeek` state machine modelled literally; refinement to a three-line recursive spec; encode/decode round trip.
- **C19** Percent-decoding is UTF-8 aware. False of the code (decodes to Latin-1): counter-example + partial theorem for ASCII.
- **C20** Query parsing yields the last value of every key. `parseQuery` against a 'last occurrence' lookup spec; round trip from an encoder.
- **C21** get_query returns the query of the request URI. False of the code (the '?' is never stripped and Display appends '/'): counter-examples, for all such URIs; partial theorem on what is returned.
- **C22** Extended queries: strings win, otherwise the first kind wins. `parseExtendedQuery` against an order-based lookup spec.
- **C23** Sub-slice search finds the first occurrence. `findInSlice` loop against minimal-index spec.
- **C24** Splitting on a separator is lossless. `Spliterator` state machine; termination measure; join law.
- **C25** Request parsing does not depend on how TCP segments the bytes. Socket modelled as a list of segments with arbitrary boundaries; reader loop refined to a function of the concatenation.
- **C26** The request body is exactly Content-Length bytes. False of the code when more than Content-Length bytes arrive with the head: counter-example + partial theorem (remainder no longer than Content-Length).
- **C27** Header names are case-insensitive and repeated headers are joined. `Headers.parse` against filter/map/intercalate spec.
- **C28** Accepted headers are well-formed (no control characters). False of the code at U+001F (`is_ctl` uses `<`): counter-example + partial theorem. `C28_iff`: both directions.
- **C29** Request-line parsing round-trips. `RequestLine.parse`; round trip from a printer; refusal lemmas.
- **C30** Every malformed request is answered. False of the code (several panics): counter-examples + exact characterisation of the inputs that are answered.
- **C31** Keep-Alive header parsing. `KeepAlive.parse` against 'last well-formed entry' spec.
- **C32** HTTP/1.1 requests without Host are refused before any handler runs. `Http.validate` and `serve`; theorem over every router.
- **C33** Unknown methods are answered 501 without running handlers. `serve`.
- **C34** A response is 404 exactly when no handler produced a body. `serve`; `C34_iff` from `C36_iff`.
- **C35** At most one response per connection. `serve` consumes one head; output is one response; bytes after it do not matter (partial: Content-Length bodies, see C26).
- **C36** The serialised response is parsed back to what the handler set. Independent client-side parser; round trip. False with cookies (missing CRLF): counter-example + partial. `C36_iff`: any body is replaced by the bytes that it delivers, so the round trip and what is known of cookies give both directions.
- **C37** Response headers behave like a map. Response operations as a state machine; refinement to a last-write map.
- **C38** Content-Length equals the body length. False of the code (`send` then `send_file`): counter-example + partial theorem. `Spec/Announced.lean` reads off the operations which length is announced and which bytes follow; the model agrees with it after any operations (`C38_exact`), so it is known exactly when the two differ (`C38_wrong`).
- **C39** send_file delivers the file. False of the code (`poll_read` never advances the buffer): the delivered body is empty for every file.
- **C40** Default Content-Type never overrides an explicit one. `default_headers`.
- **C41** redirect sets 302 and Location. `redirect`; `C41_iff` on the wire.
- **C42** Status codes and reason phrases. Status table as data, whole-table `decide +kernel` lifted by lemma; custom statuses universally.
- **C43** MIME type detection. `mimeType` table; lower-casing.
- **C44** MIME types are well-formed. False of the code for `bin` (typo): counter-example + partial theorem for every other extension. `C44_iff`: both directions.
- **C45** The Date header denotes the current instant. `Time.time` on `Int` with truncating division; independent calendar spec (day count by year/month lengths). `C45_range`: the seconds that have a date, in figures.
- **C46** The Date header has the IMF-fixdate shape. False of the code in September (`Sept`): counter-example + partial theorem. `C46_iff`: both directions.
- **C47** Distinct seconds have distinct dates. Injectivity from C45 and decimal printing.
- **C48** Connections do not interfere. Connections as event-driven state machines; arbitrary interleavings; projection theorem. Exactly when a connection can still be answered as if alone: `C48_iff`.
- **C49** The accept loop serves every connection. Accept loop over accept results; false after an accept error: counter-example + partial.
- **C50** Configuration replacement. Configuration operations as a state machine.
- **C51** Request cookies are parsed in order. `Cookie.parse` with a model of cookie-rs name/value parsing.
- **C52** A malformed Cookie header does not crash the request. False of the code (`unwrap`): counter-example + exact characterisation.
- **C53** HTTP version tokens round-trip. False of the code (`2.0` printed as `0.2`): counter-example + partial. `C53_iff`: both directions.
- **C54** End-to-end: a served route. Composition of C12, C25, C26, C29, C36.
- **C55** Error pages are well-formed. `Error.send`.
- **C56** HEAD responses carry no body. False of the code: counter-example + what is sent. `C56_iff`: both directions.
- **C57** #[octane::main] keeps the function. Token-tree model of `StreamParser::parse`.
- **C58** status_codes! generates distinct names. `pascalCase` and the table.
- **C59** Derived JSON conversion round-trips. Token-tree model of the field scanner and of the semantics of the generated code; false for `pub` fields: counter-example + partial.
- **C60** Derived JSON impls are for the declared type. Token-tree model of `handle_derive`'s loop; independent grammar of parameter lists; false for lifetimes: counter-example + partial.
- **C61** Named statuses are the registered ones. `Spec.Registry` states the registry by class; both inclusions over the whole table. False for 101, 300, 305 and 418: differences listed, partial theorems for the rest.
- **C62** Attachment file names are quoted. Inductive spec of the HTTP quoted-string, inductive spec of the Rust literal `{:?}` prints; unambiguity of both. False for control characters: counter-example, partial and exact condition; no control character and injectivity for all names.
- **C63** path! gives an existing path. `expandPath` on tokens; Rust literals as in C62. False for literals with escapes: counter-example, partial and exact condition; what is accepted exists, for all inputs.
- **C64** The listen callback runs once the server is listening. Start-up as two concurrent tasks, an event is one step of one of them with the answer of the operating system. False (the callback runs before the bind, always): counter-example, universal negative theorem, partial for 'at most once'.
- **C65** TLS trouble does not stop plain HTTP. Projection theorem on the start-up machine. False when the TLS port is the plain port (a race for the port): counter-example + partial for different ports.
- **C66** TLS uses the configured key and certificates. The file system and the PEM decoders are arbitrary functions. False for key files without RSA key (panic): counter-example, exact panic condition, partial.
- **C67** Hash order does not matter. Outcome equal and answers equal up to a permutation of the header lines (specification `SameUpToOrder` on raw bytes).
- **C68** No request waits for ever. False (no timeouts, no limit on the head): counter-example and general families; partial: it waits only for a silent client with an incomplete request. Exactly when a connection is waited for: `C68_iff`.
- **C69** Nothing registered, nothing done. Matching is specified on the log of registrations, not on the tree.
- **C70** The query string does not choose the route. False (the query stays in the last segment): counter-example; partial for routes that do not look at the last segment literally.
- **C71** Percent-encoded targets are decoded. False (no decoding): counter-example; partial for segments matched by a wildcard; exact value of variables.
- **C72** Header lookup ignores case. False (names are stored in lower case, lookup is literal): counter-example, exact failing set; partial for lower-case names. `C72_iff`: both directions.
- **C73** Chunked bodies are decoded. False (transfer codings are ignored): counter-example; the body seen is empty for every chunking; partial: exactly the empty content is right. `C73_length_wins`: with a `Content-Length` beside the coding the length decides, so the chunk framing itself is handed over as the body.
- **C74** Keep-alive state follows RFC 7230. False (HTTP/1.1 defaults to close; only the exact value is recognised): counter-examples, exact condition; partial: never claims persistence wrongly.
- **C75** Request text cannot split the answer. True of header values and cookies; path segments have no CRLF pair but may have LF; query parameters may have CRLF (counter-example, end to end). Exactly which parameters have more than one line: `C75_iff`.
- **C76** Every connection comes to an end. Infinite sequences of events; a well-founded rank (phase, bytes left) that every awaited event lowers.
- **C77** Response settings are what was set last, and cookies add up. `LastSet` says which operation decided a setting; it determines the value. Cookies are compared with the list of added cookies, and `C77_cookie_lines` finds them in the bytes. Added after a wrong program (a `cookie` that keeps only the last cookie) was noticed by no theorem.
- **C78** A cookie that was set comes back unchanged. `Spec/Jar.lean` is the client: `Keeps` (what it keeps of a Set-Cookie value) and `Jar` (last value per name, any order). `C78_iff` gives the exact condition for one cookie, `C78_comes_back_partial` is the claim for any list of cookies meeting it, `C78_handlers_see` goes from the bytes of the next request to the handlers. False in full: nothing is quoted or encoded, so a value with `;` is cut (`C78_counterexample`). That the head of a response with cookies can be read by the client at all is C36.
- **C79** The query does not lead to another path. `C79_other_partial` proves it for queries that do not climb (no prefix of their slash-separated pieces has more `..` than names). `C79_reaches` shows the failure for all others of the simplest form: `dir/last?query/../rest` is answered exactly as `dir/rest`, for every server. `C79_counterexample`: `GET /p?/../a` runs the handler of `/a`. `C79_iff`: exactly the targets of which the claim holds.
- **C80** get_extended_query returns the extended query of the request. `C80_exact`: from the bytes to the map, the accessor parses the tokens with the path before the first and a slash after the last. `C80_inner_partial`: keys of neither of those tokens are right. `C80_counterexample`: `/p?a[]=1&a[]=2` gives `a` the list `[2/]`.
- **C81** status_codes! makes one variant per number and phrase. `C81_exact`: for every token stream, exactly what the macro takes it for and when it panics (not a number, a text without two ASCII ends, a phrase without a letter; a number alone at the end is ignored). `C81_generates_partial`: the claim for literals without a backslash. `C81_counterexample`: the source text of a literal with an escape is quoted a second time. `C81_library`: the arguments in `octane_http` give the table, with different names, none of them `Other`.
- **C82** The attribute macros set up the runtime the documentation says. `C82_main`, `C82_test`: the whole generated token stream, written out, for every token stream cut at its first brace group (`C82_cut`: there is exactly one such cut).
- **C83** From bytes to answer: the complete behaviour of one connection. `C83_connection`: all outcomes in terms of the bytes and the log of registrations, no model function in the conditions; `C83_one_request`: the cases do not overlap; `C83_written`: every well-formed request is among them. `C51_any` completes C51 for arbitrary Cookie headers.
- **C84** Requests handled in parallel. `C84_interleaving`: the model, in which `Router::run` is cut at every access of a handler, does the same as programs that take turns. `C84_uninterrupted`: a request that is not interrupted does what the atomic model (`Server.handle`) does. `C84_one_access_partial`: one access per request gives an equivalent sequential order. `C84_movers_partial`: so do several accesses of which all but one can change places with those of the others (proof by moving accesses, `Proof/Movers.lean`). `C84_counterexample`: a lost update.
- **C85** A handler that does not return holds up only its own request. `C85_others_partial`: true while fewer such requests are being handled than the runtime has threads. `C85_stalled`: with as many as threads nothing is ever done for a waiting request. `C85_stops`: for every number of threads that many requests do it. `C85_iff`: exactly when a waiting request can still be answered.
- **C86** Ambiguous lengths are refused. `C86_length`: the exact rule for the length, from the headers alone. `C86_ignored`, `C86_served`: such a request is read with an empty body and served. `C86_no_body_partial`: at least no byte after the head reaches a handler. `C86_counterexample`. `C86_iff`: with a known method, exactly the requests of HTTP/1.1 without Host get 400 whatever is registered.
- **C87** Absolute-form targets are served as their path. `C87_path`: the path is `http:`, the host, then the path. `C87_routed`: it is answered as `/http:/host/path` is. `C87_not_found`: 404 whenever no pattern begins by `http:` or a variable. `C87_same_partial`: the claim for handlers without a path. `C87_counterexample`. Handlers never get the request they would get for the path: `C87_never`.
- **C88** Repeated Host headers are refused. `C88_served`: with one or more Host headers the request is served. `C88_none_partial`: with none it is refused. `C88_counterexample`. Exactly which are refused: `C88_iff`.
- **C89** Other versions of HTTP are refused. `C89_same`: every version token but 1.1 is treated alike. `C89_served`: such requests are served, without a Host. `C89_counterexample`.
- **C90** headers_sent tells whether something was sent. `C90_exact`: true exactly if some operation stored a header, unless headers are removed by hand. `C90_sent_partial`: the documented example and its generalisation. `C90_counterexample`: both directions fail.
- **C91** Every answer has a Date. `C91_date`: after `send` or `default_headers` the Date is that of the clock. `C91_send_partial`: as the client reads it; error pages: `C55_error_pages`. `C91_none`: otherwise there is none. `C91_counterexample`: `send_file`. `C91_iff`: both directions, by the last operation that sets the Date.
- **C92** Memory in proportion to what was sent. `C92_abort_only`: an abort is over a declared length. `C92_partial`: none when no more is declared than sent. `C92_held_for_nothing`, `C92_amplifies`: any amount is allocated before a byte of the body comes. `C92_limit`: the bound in figures. `C92_counterexample`. `C92_head`, `C92_head_unlimited`: the buffer of the head.
- **C93** Reading the head takes time in proportion to its length. Counted functions in `Model/Cost.lean`, `C93_same` ties them to the plain ones. `C93_quadratic`, `C93_quadratic_head`: a lower bound in the square of the length for every stream. `C93_counterexample`. `C93_partial`: upper bound reads × bytes; `C93_reads`: exactly how many reads that are; `C93_buffers`: for a head that does not end, the number of 512-byte reads however the bytes are cut.
- **C94** Parsing the headers takes time in proportion to their length. `C94_same`, `C94_split` (at most 2 comparisons per byte), `C94_split_least` (at least one for every two bytes), `C94_written` (exactly what is written), `C94_repeated` (exact for one header repeated), `C94_counterexample`, `C94_bound` (upper bound), `C94_partial` (different names).
- **C95** Finding the handlers of a request. `C95_same`, `C95_visits` (exact), `C95_bound`, `C95_bound_literal`, `C95_scans`. The invariant of the trees (`Proof/Trie.lean`) gets the set of nodes.
- **C96** with_type accepts short names. `C96_verbatim`: the text is stored as it is. `C96_seen`: and is what the client reads. `C96_full_partial`: full types. `C96_short_never`: a short name never gives its type. `C96_counterexample`. `C96_iff`: both directions.
- **C97** Expect: 100-continue is answered. `C97_waits`: while any of the body is missing the server waits silently. `C97_impatient_partial`: a client that does not wait is served with its body. `C97_counterexample`. Exactly which waiting clients are left waiting: `C97_iff`.
- **C98** No body after 1xx, 204, 304. `C98_iff`: the client sees a body exactly if the handlers left one, whatever the status. `C98_sent`: after `send` the text and its length. `C98_empty_partial`: an empty body without length. `C98_counterexample`.
- **C99** The end of the connection is announced. `C99_iff`: it is announced exactly if handlers stored it. `C99_pages`: error pages never announce it. `C99_not_added`: no operation but storing that header adds it. `C99_set_partial`: handlers can announce it. `C99_counterexample`.
- **C100** White space before the colon is refused. `C100_refused_partial`: in faithful mode nothing reaches a handler, but the task panics instead of answering; folded lines included. `C100_lenient`, `C100_hidden`, `C100_length`: without the feature the header exists under the name with the blanks, and `Content-Length : 5` declares nothing; `C100_unread`: such a request is read with all its headers and an empty body. `C100_counterexample` (both modes).
- **C101** White space behind a value is not part of it. `C101_exact`: blanks before are dropped, behind they are kept, and in faithful mode a tab there makes the head unreadable. `C101_partial`: nothing behind. `C101_length`: a blank after the digits loses the body. `C101_counterexample` (both modes).
- **C102** HEAD is answered like GET. `C102_not_found`: where all registrations are for other methods, every HEAD is 404. `C102_same_partial`: where the same registrations apply the answers are equal, body included. `C102_counterexample`.
- **C103** Nothing is left unread at closing. Per-connection invariants of all executions (`run_each`). `C103_exact`: what is left, exactly. `C103_single_partial`: nothing of a client that sends one request. `C103_left`: of anything more all but at most 511 bytes. `C103_counterexample`.
- **C104** The whole process: handlers of all connections at the same time. `C104_process`: simulation of the process by programs that take turns, with the connection of each program and the request in its bytes. `C104_one_request`: the bytes determine the request. `C104_one_access`: one after the other. `C104_atomic`: every execution of `Model/Listen.lean` is one of `Model/Process.lean`.
- **C105** A handler that does not return holds up only its own connection. `C105_others_partial`: true while fewer connections with handlers that might not return are handled than there are threads. `C105_stalled`: with as many as threads nothing is ever done again on any connection not being handled: no reading, no handshake, no writing. `C105_stops`: for every number of threads, that many requests do it. `C105_counterexample`. `C105_iff`: exactly when a connection that waits for a thread can still come to its end.
- **C106** Nothing is served over TLS before the handshake. `C106_handshake_first`: invariant over executions with the event at which the handshake ended. `C106_never_served`, `C106_no_tls`: consequences for connections without successful handshake and servers without TLS listener.
- **C107** Every connection comes to its end, with handlers on threads. `C107_threads`: a task that holds a thread and whose handlers return gives it back (induction over the program). `C107_ends`: rankings for reading (bytes left), handling (program), writing (bytes left). `C107_alive`: no client and no handler ends the process. Fairness is an explicit hypothesis; C105 shows that the bound on the number of handlers that do not return is needed.
- **C108** Registrations that do not apply do not matter. `C108_same`: the dispatch equals the replay of the log (C12), the replay depends only on the applicable entries, and reading does not depend on the router. `C108_added`, `C108_swapped`: instances.
- **C109** The date computation never overflows. `Time.timeWith` takes the treatment of results that do not fit as a parameter. `C109_no_overflow`: it is never used. `C109_overflow_iff`: exactly which `i64` stamps would overflow (none that a clock gives).
- **C110** Spellings of a target are one request. `C110_same`: equal behaviour of `serve`, nothing assumed of the registrations. `C110_iff`: the requests are equal exactly when the paths are. `C110_spellings`: which pieces may be left out.
- **C111** An empty line before the request is ignored. False of the code: `C111_panics` (the task panics, whatever follows, and nothing is answered), `C111_two_lines` (two empty lines are answered by the 400 page), `C111_counterexample`, `C111_iff`.
- **C112** A path registered for another method. False of the code: `C112_unregistered` (the answer is that of a server without registrations), `C112_refused_partial` (404, no handler runs, never an Allow), `C112_counterexample`.
- **C113** A query takes no more room than its text. `C113_decode`, `C113_query`, `C113_extended`, `C113_request`; `C113_query_tight`: the bound is met.
- **C114** What a client is sent depends on the other clients only through what its handlers read. `C114_outcome`, `C114_bytes`, for handlers as programs over the shared state (`Prog`), with a per-connection invariant rule (`Proof/Alone.lean`); `C114_needed`: with handlers that tell what they read it is false.
- **C115** The error page tells the error. False of the code: the page of every error is the 404 page. `C115_page` (its pieces, for every status), `C115_iff` (it tells the code exactly for 404), `C115_markup` (its tags do not match), `C115_partial` (the 404 page), `C115_counterexample` (400 with a page that says 404, on every server).
- **C116** Header lines may be reordered, recased and combined. `C116_same`; `C116_swap`, `C116_case`, `C116_combine` (which lines have the same fields); `C116_needed`: a handler that looks at the raw lines can tell them apart.
- **C117** Spelling of patterns and names of variables do not matter. `C117_same` (both at once), `C117_spelling` (only the spelling); `C117_needed`: a renaming that merges two variables changes what handlers see.
- **C118** Parsing a query takes time in proportion to its length. `C118_same` (what is counted is what the code does), `C118_decode`, `C118_decode_exact` (the number of calls is given by the length and the percent signs), `C118_query`, `C118_extended`; from below `C118_query_least`, `C118_extended_least`. An operation on a hash map counts as one step and one for every byte of the key: the collisions of the hash are not modelled.
- **C119** How deep a request makes the lookup call itself. `C119_same` (what is counted is what the code does), `C119_exact`, `C119_bound`.
- **C120** What switching off a feature changes. `C120_faithful`, `C120_query`, `C120_extended`, `C120_cookies`, `C120_variables`, `C120_needed`.
- **C121** The work for one request. `C121_same`, `C121_head`, `C121_bound`, `C121_quadratic`; from below `C121_least`.
- **C122** Handlers without branches are one handler. `C122_one_handler`, `C122_split`.
- **C123** Applications that send texts. `C123_texts` from C122 and `C83_connection`; `C123_documented` for the program in `src/lib.rs`.
- **C124** The tests of the repository, for all requests. `C124_server`, `C124_router`, `C124_variable`, `C124_header`.
- **C125** The examples of the documentation. One theorem per example from `C83_connection` and `C36_roundtrip_partial`; `C125_never` for the promises no server keeps, `C125_kept_partial` for those every server keeps.
- **C126** The size of the route tables. Positions of a tree enumerated without repetition (`nodeKeys`, `leafKeys`), `Rep.nodes`, `Rep.leaves`, summed over the methods with the router invariant.
- **C127** The cost of setting up a router. Counted versions of the functions proved equal; exact count by induction over the program: each accepted route once for every router around it.
- **C128** The number of open connections is limited. Induction over the events of the process: what one event may do to one task (`Moves`), a silent task stays, the bytes kept and to come never grow except by a connection.
- **C129** A form arrives as it was filled in. The encoding of the URL standard is a percent-encoding of the bytes (spaces as `+`), so decoding gives the bytes as characters; with `C21_exact`, the pairs as they arrive.
- **C130** Headers nobody knows are ignored. Handlers that look only at some names cannot tell apart two requests that agree on these; the server itself looks only at three names. `C130_same` for any two heads that agree, `C130_ignored` for one header more; `C130_needed` shows that each of the three names matters.
- **C131** A URL variable names one entry of a directory. Parsed paths are normal (C01), their segments are pieces of the target, and variables are bound to segments (C11). Resolving a directory followed by a slash and such a name ends in the entry of that directory.
- **C132** An application that sends the files of a directory shows no other files. Handlers that agree on variables that are names of entries (C131) make servers that agree on all connections (`C132_same`); the file handler is such (`C132_files`); a directory followed by a slash and such a name leads to an entry of the directory (`C132_directory`, with `C131_inside`).
- **C133** What follows a complete request does not matter. Reads of a stream with more segments behind it are the reads of the stream (`readSegs_more`), hence the head (`readHead_more`) and the body (`fromRaw_more`). `Spec.Incomplete` is that of C68.
- **C134** Targets of no known form are refused. The first empty piece of a target is skipped like all empty pieces, so the target without its slash is the same request (from C110).
- **C135** Folded header lines are refused or unfolded. The splitter cuts at every CRLF; C27 says which lines are refused, and C100 with nothing before the blank is the faithful case.
- **C136** Bytes outside ASCII in header values are opaque. The head is decoded as UTF-8 as a whole before it is parsed; values that are UTF-8 fall under C130. `C136_iff`: both directions.
- **C137** A request of HTTP/1.0 needs no header. The head is cut at its first CRLF into request line and headers; a head of one line has none, and is refused before anything else.
- **C138** Every answer says HTTP/1.1. An invariant of the response is carried through the replay of the log (C12); the answers outside are the error pages.
- **C139** Operations on a response do not panic. Each operation panics exactly in the cases named, whatever the response; then C122's scripts never panic, and the replay of the log ends.
- **C140** The size of an answer. The serialisation is a concatenation; the sum over the headers does not depend on their order. The pages have a fixed size but for phrase and date, and no year of a clock has more than twelve digits.
- **C141** The keys of a derived object are the names of its fields. Keys are the identifiers as proc_macro prints them, which keeps the r# of raw identifiers.
- **C142** The cookies of several Cookie lines are the cookies of all of them. Lines of one name are joined by a comma and a space before the cookies are parsed, and a comma does not end a cookie.
- **C143** No answer has two headers of one name. The headers are a map from names compared exactly, so a name spelled otherwise than the library does is another header.
- **C144** The whole life of an application. A refinement: an execution of start-up and process is one of the process whose listeners were opened at once, without the events that could not happen; invariants tie the listeners to the start-up.
- **C145** Nobody is served before the callback. The invariant of C144 for the plain port; an execution in which the spawned task is quicker for the TLS port.
- **C146** Nobody is served after listen has failed. The listeners do not open again; the TLS task is not stopped by the end of listen.
- **C147** Targets with characters no URI has are refused. The request line is cut at spaces and nothing looks at the characters of the target.
- **C148** An application comes to serve its clients. A rank of each of the two start-up tasks that its own steps lower and no other event raises; then the infinite execution of the application is one of the process with listeners foreseen (C144), and C107 applies.
- **C149** Requests that are too large are refused. Head, target and body are read whatever their size; only a declared length above i64::MAX cannot be allocated.
- **C150** The name and value of a cookie add no attribute. The text of a cookie is a concatenation; cutting it at `;` gives the pieces of name and value followed by the attributes.
- **C151** get_query and get_extended_query agree. The value of a key in either reading is that of the last token of the key; token by token the two readings agree.
- **C152** What a request occupies while its handlers run. `Server.held` sums the lengths of what exists at the first call of a handler; bounds for each from C94/C121's lemmas; a header of growing length reaches the factor. `C152_exact` gives the number itself.
- **C153** The examples of the router and the request. Each example as a registration program. For those that read something: whatever is done with it, every connection is treated as if nothing had been read (C153_header_none, C153_query_none).
- **C154** All the work for a request, its answer included. `Server.serveC` is `Octane::serve` with a count at every function, proved to do the same (`C154_same`); its count is that of C121 and of the copies, and `outC_snd` bounds the writing; from below `C154_least`.
- **C155** When a registered route can never be called. `Dead` compares the patterns and mentions no request. One direction: such a pattern applies to whatever the later one applies to. The other: put in for every variable a segment longer than any constant before; a request for that path reaches the registration.
- **C156** Which bytes become the body. `ReadEnd` says where reads can end: at the end of a piece or a multiple of 512 bytes into one. Induction over the reads: the read ends of a socket are the first read and those of what remains.
- **C157** Where accesses can change places the order does not matter. `Commutes` and `Free` say when an access can change places. An execution is cut into its accesses; neighbouring accesses of different requests are swapped until those of each request are together (Lipton's reduction). With at most one access that must not be moved per request this gives some order (C84, C104), with none it gives every order.
- **C158** Every method can be routed by itself. False: the router has functions for six methods and one for all methods; `C158_counterexample`. `C158_alone_partial` for the six; `C158_never`, `C158_alike`, `C158_left_out`, `C158_not_found` for the other three.
- **C159** When the order of two registrations matters. `Target.Meets` is read off the patterns. The registrations that apply to one request meet pairwise, so a rearrangement that keeps the order of those leaves the list of those that apply as it is (`C108_same`). Conversely a path is built from two overlapping patterns, and a panicking and an answering handler tell the orders apart. `C159_behind` takes the pattern common to both as a registration of its own and asks whether that is dead (C155).
- **C160** When two sets of routes are the same. `Table.calls` lists names and variables of the registrations that apply. What handlers that ask by name do is decided by that list; conversely handlers that only note their calls leave exactly that list.
- **C161** A complete test suite for routes. Replacing every segment of a path that is no constant by a new one, another at each position, leaves what applies as it is and keeps different values different (`typical`); longer paths reach only the registrations without pattern.
- **C162** Comparing two sets of routes by computation. The test paths decide about all paths (as for C161); a variable that no pattern names has no value, so finitely many names suffice; constants that cannot be sent are left out of the test paths.
- **C163** How many tests routes need. For each of six methods and each path the registration of just that method and path differs from no registration only on connections that ask for it, and a connection asks for one method and path.
- **C164** When two sets of routes with stopping handlers are the same. What is behind a handler that never hands on does not matter (`replay_reached`), so the tables can be cut there and C160 to C162 used for what is left; noting handlers that stop give the converse.
- **C165** Routes that are the same for one connection are the same for the whole process. A step asks the router only about a request that has been received (`step_congr`, with the invariant of the process), and what the router does with it is decided by the replay of the registrations.
- **C166** Comparing single connections is enough to compare processes. One direction is C165. For the other a client is connected whose request is handled differently: it is read in enough turns (`polls_handling`), its handlers note their calls in the shared state (`pnoting`), and after enough accesses (`access_all`) the shared state shows the difference.
- **C167** When two handlers without branches do the same. Every sequence has an effect that does not depend on the response (`effect_of`): each field is kept or set, each header kept, removed or set, with two headers that also depend on the length and the character set. Two effects that agree on the tests agree everywhere. For three responses the pigeonhole (`three_holes`) gives two sequences they do not tell apart.
- **C168** Writing the counter of a router. The invariant of C12 with the number of each registration given instead of counted (`InvN`), kept by every call and every write; the numbers are computed by a separate specification (`numbered`). The order follows because strictly increasing arrangements are unique. `C168_iff`: the registrations that apply to one request are then sorted both ways; conversely two that meet and are numbered the other way round are given handlers of which one panics and one answers.
- **C169** Writing the other fields of a router. The scan for the smallest index finds the head of the merge of all groups, whatever they are (`scanMin_merge`), so the loop runs the merge (`dispatch_merge`); no sortedness is needed. The router holds what a separate table says (`InvT`, `table`).
- **C170** The counter of a router in a release build. `execRL` is the set-up with additions modulo 2^64. `C170_total`, `C170_checked` (same router as with overflow checks), `C170_unwritten` (so the model with numbers of any size is right for both builds), `C170_by_number`. `C170_first`, `C170_counterexample`: registration order fails though the counter is only raised; `C170_raised_partial`: it holds while all numbers fit. `C170_iff` as `C168_iff`.
- **C171** How deep the route tables are. `drops` follows the destructor the compiler generates; `after` is the state of an iterator after any number of turns of its loop. The keys of nodes and leaves are those of the patterns (C126); an invariant bounds the stack, and a visit of every tree reaches the bound.
- **C172** Looking ahead loses nothing. `Model/Peek.lean` runs programs of uses, `Spec/Peek.lean` says by positions what they return (`C172_exact`); `C172_next`, `C172_first`, `C172_two` for what the decoder relies on, `C172_two_not` for the exception.
- **C173** What the server says of itself. Case analysis of `serve` for every socket, with the causes in terms of the bytes and of the request read (`C173_answers`), the codes (`C173_codes`), and every client of a process in every execution (`C173_process`).
- **C174** Writing any field of a router in a release build. `execFRL` is the set-up of C169 with the additions of C170; `tableRL` is the table of C169 modulo 2^64. `C174_runs`, `C174_checked`, `C174_merge`, `C174_one`; `C174_around` is a case where the builds differ.

## Trusted base

1. The kernel of Lean 4.33.0.
2. The axioms of Lean's own library listed below. No file declares an axiom; nothing is left open (`sorry`), and nothing is trusted to the compiler (`native_decide`, `bv_decide`, `implemented_by`).
3. The reading of the Rust source into the definitions of `lean/Verif/Model` (each cites its lines).
4. The statements: the definitions in `lean/Verif/Spec` and the statements in `lean/Verif/Props`.
5. The behaviour of the libraries below the modelled code, as described under "Not modelled".

Finite facts (the status table, the MIME table) are proved by kernel evaluation (`decide +kernel`) over the whole table; they are not samples.

### Axioms of the property theorems

<!-- axioms:begin -->
- `Classical.choice`, `Quot.sound`, `propext` (609 theorems): C04_no_traversal, C05_bindings, C05_matches_iff, C08_lookup_exact, C09_no_panic, C100_counterexample, C100_length, C100_refused_partial, C100_unread, C101_counterexample, C101_exact, C101_length, C101_partial, C102_counterexample, C102_exact, C102_not_found, C102_same_partial, C103_counterexample, C103_exact, C103_left, C103_single_partial, C104_atomic, C104_movers, C104_one_access, C104_one_request, C104_process, C105_counterexample, C105_iff, C105_others_partial, C105_stalled, C105_stops, C106_handshake_first, C106_never_served, C106_no_tls, C107_alive, C107_ends, C107_threads, C108_added, C108_same, C108_swapped, C109_no_overflow, C109_overflow_iff, C10_iterators, C110_iff, C110_same, C111_counterexample, C111_iff, C111_panics, C111_two_lines, C112_counterexample, C112_refused_partial, C112_unregistered, C113_decode, C113_extended, C113_query, C113_query_tight, C113_request, C114_bytes, C114_needed, C114_outcome, C115_counterexample, C115_false, C115_iff, C115_page, C115_partial, C116_needed, C116_same, C117_needed, C117_same, C117_spelling, C118_extended, C118_extended_least, C118_query, C118_query_least, C118_same, C119_bound, C119_exact, C11_own_variables, C120_cookies, C120_extended, C120_faithful, C120_needed, C120_query, C120_variables, C121_bound, C121_head, C121_least, C121_quadratic, C122_one_handler, C122_split, C123_documented, C123_texts, C124_header, C124_router, C124_server, C124_variable, C125_asks, C125_attachment, C125_charset, C125_cookie, C125_counterexample, C125_elsewhere, C125_file, C125_get, C125_headers_sent, C125_kept_partial, C125_never, C125_redirect, C125_set, C125_status, C125_with_router, C125_with_type, C126_bound, C126_entries, C126_lists, C126_nodes, C126_total, C126_total_bound, C126_trees, C127_bound, C127_counterexample, C127_exact, C127_linear_partial, C127_square, C128_accepts, C128_bound_partial, C128_counterexample, C128_held, C128_idle, C128_unread, C129_arrives_iff, C129_counterexample, C129_exact, C129_inner_partial, C12_registration_order, C12_run_is_replay, C130_ignored, C130_needed, C130_same, C131_one_entry, C132_directory, C132_files, C132_same, C133_complete, C133_no_body, C133_no_head, C133_not_waited_for, C134_counterexample, C134_same, C134_unregistered_partial, C135_counterexample, C135_no_colon, C135_own_header, C135_refused_partial, C136_counterexample, C136_iff, C136_refused, C136_utf8_partial, C136_value, C137_any_partial, C137_counterexample, C137_refused, C138_invariant, C138_kept, C138_version, C139_answered, C139_ops, C13_flow, C13_stop_is_last, C140_bound, C140_exact, C140_made, C140_order, C140_page, C140_pages, C141_counterexample, C141_iff, C141_order, C141_plain_partial, C141_read, C141_refused, C141_written, C142_count, C142_counterexample, C142_exact, C142_iff, C142_one_partial, C143_counterexample, C143_exact, C143_iff, C143_one_partial, C143_pages, C144_clients, C144_one_port, C144_plain, C144_ports, C144_process, C144_settings, C144_startup, C144_tls, C145_counterexample, C145_iff, C145_plain_partial, C146_counterexample, C146_ends, C146_exit, C146_iff, C146_plain_partial, C147_counterexample, C147_iff, C147_read, C147_space_partial, C148_accepted, C148_ends, C148_plain, C148_served, C148_tls, C149_body, C149_counterexample, C149_header, C149_limit_partial, C149_target, C14_any_method_runs, C14_method_isolation, C150_cookies, C150_iff, C150_segment, C151_counterexample, C151_exact, C151_faithful, C151_iff, C151_partial, C151_request, C152_at_least, C152_body, C152_bound, C152_exact, C152_nine, C152_once, C152_pairs, C152_total, C152_when, C153_counterexample, C153_header_none, C153_header_partial, C153_hello, C153_never, C153_query_none, C153_request_line, C153_variables, C154_bound, C154_head, C154_least, C154_same, C154_six, C154_write, C155_called, C155_iff, C155_left_out, C156_any, C156_at_most, C156_body, C156_iff, C156_large, C156_read, C156_same, C157_any_order, C157_process, C157_same, C158_alike, C158_alone_partial, C158_counterexample, C158_left_out, C158_never, C158_not_found, C159_asked, C159_behind, C159_iff, C159_rearranged, C15_mount_is_inline, C160_iff, C161_complete, C162_decides, C163_needed, C163_suite, C164_complete, C164_decides, C164_iff, C165_left_out, C165_life, C165_life_tables, C165_rearranged, C165_same, C165_tables, C166_decides, C166_iff, C167_context, C167_decides, C167_four, C167_not_three, C167_server, C168_by_number, C168_counterexample, C168_iff, C168_inv, C168_last, C168_lowered, C168_panics, C168_raised_partial, C168_same_partial, C169_merge, C169_one, C169_options, C169_panics, C169_rewritten, C16_error_iff, C16_rejected_no_effect, C170_by_number, C170_counterexample, C170_first, C170_iff, C170_last, C170_raised_partial, C170_total, C170_unwritten, C171_borrowed, C171_drop, C171_owned, C173_answers, C173_codes, C173_process, C174_around, C174_merge, C174_one, C174_runs, C17_bounded, C17_no_panic, C19_utf8_partial, C20_last_value, C20_round_trip, C21_counterexample, C21_exact, C21_inner_pairs_partial, C22_accessors, C22_extended_query, C24_split_lossless, C25_head_from_bytes, C25_segmentation, C26_body_no_trailing_partial, C26_body_partial, C26_body_read, C26_counterexample, C26_false, C27_accepts, C27_every_text_is_lines, C27_header_map, C27_refuses, C28_iff, C28_no_crlf_nul, C28_wellformed_partial, C29_panics, C29_refuses, C29_roundtrip, C30_abort, C30_counterexample, C30_exact_partial, C31_keep_alive, C32_passes, C32_refused, C32_refused_bytes, C33_unknown_method, C33_unknown_method_bytes, C34_client_partial, C34_counterexample, C34_dispatch, C34_iff, C35_counterexample, C35_exact, C35_first_request_partial, C35_iff, C35_one_response, C36_cookies_break, C36_cookies_exact, C36_cookies_readable, C36_cookies_unreadable, C36_counterexample, C36_iff, C36_roundtrip_partial, C36_set_cookie, C37_frame, C37_one_entry, C37_read_back, C37_removed, C38_exact, C38_file, C38_iff, C38_length_partial, C38_no_body_partial, C38_wrong, C39_file, C39_success, C40_first_type_stays, C40_send, C40_with_type, C41_counterexample, C41_iff, C41_reads, C41_redirect_only_is_404, C41_redirect_state, C41_redirect_wire_partial, C42_custom, C42_custom_ascii, C42_set, C42_status_line, C42_three_digits, C43_by_extension, C43_depends_only, C43_every_path, C43_no_extension, C45_calendar_sanity, C45_date_denotes_instant, C45_date_unambiguous, C45_fields_all_stamps, C45_range, C46_counterexample, C46_iff, C46_imf_fixdate_partial, C46_september, C47_date_injective, C48_alive, C48_alone_partial, C48_counterexample, C48_frame, C48_iff, C48_progress, C48_sequential, C49_counterexample, C49_exact, C49_exit, C49_no_error_partial, C51_any, C51_cookies, C51_handlers_see, C52_counterexample, C52_crash, C52_handled_partial, C54_served, C55_clock_before_epoch, C55_error_pages, C56_body_follows, C56_counterexample, C56_empty_body_partial, C56_iff, C56_reads, C57_main_iff, C57_test_iff, C59_named_iff, C59_tuple_iff, C59_tuple_partial, C60_header_partial, C60_iff, C62_iff, C62_injective, C63_exists, C63_expands_partial, C63_iff, C65_error_iff_partial, C65_independent_partial, C65_never_both, C65_opens_partial, C67_order, C68_counterexample, C68_iff, C68_unbounded_head, C68_waits_body, C68_waits_head, C68_waits_only_partial, C69_unmatched, C70_counterexample, C70_exact, C70_literal_404, C70_same_partial, C71_counterexample, C71_exact, C71_same_partial, C71_variable_raw, C72_counterexample, C72_iff, C72_lower_partial, C72_upper_never, C73_counterexample, C73_empty_partial, C73_ignored, C73_length_wins, C74_counterexample, C74_exact, C74_sound_partial, C74_state, C75_clean_partial, C75_counterexample, C75_headers_partial, C75_iff, C75_pairs_partial, C75_splits, C76_alone, C76_answered, C76_ends, C77_body, C77_cookie_lines, C77_cookies, C77_settings, C78_comes_back_partial, C78_counterexample, C78_handlers_see, C78_iff, C78_set_and_back_partial, C79_counterexample, C79_iff, C79_other_partial, C79_reaches, C80_counterexample, C80_exact, C80_inner_partial, C81_counterexample, C81_exact, C81_generates_partial, C81_library, C82_cut, C82_main, C82_test, C83_connection, C83_one_request, C83_written, C84_counterexample, C84_interleaving, C84_movers_partial, C84_one_access_partial, C84_uninterrupted, C85_counterexample, C85_iff, C85_others_partial, C85_stops, C86_counterexample, C86_iff, C86_ignored, C86_no_body_partial, C86_served, C87_counterexample, C87_never, C87_not_found, C87_path, C87_routed, C87_same_partial, C88_counterexample, C88_iff, C88_none_partial, C88_served, C89_counterexample, C89_same, C89_served, C90_exact, C90_sent_partial, C91_counterexample, C91_date, C91_iff, C91_none, C91_send_partial, C92_abort_only, C92_amplifies, C92_counterexample, C92_head, C92_head_unlimited, C92_held_for_nothing, C92_limit, C92_partial, C93_buffers, C93_counterexample, C93_partial, C93_quadratic, C93_quadratic_head, C93_reads, C93_same, C94_bound, C94_counterexample, C94_partial, C94_repeated, C94_same, C94_split, C94_split_least, C94_written, C95_bound, C95_bound_literal, C95_scans, C95_visits, C96_iff, C96_seen, C97_counterexample, C97_iff, C97_impatient_partial, C97_waits, C98_counterexample, C98_empty_partial, C98_iff, C98_sent, C99_counterexample, C99_iff, C99_not_added, C99_pages, C99_set_partial.
- `Quot.sound`, `propext` (84 theorems): C01_parsed_path_normal, C02_dotdot_rule, C02_every_string_is_a_join, C03_display_parse, C03_redundant_separators, C06_concat_subtract, C07_starts_with_exact, C07_starts_with_only_prefixes_partial, C100_hidden, C100_lenient, C110_spellings, C118_decode, C118_decode_exact, C119_same, C126_refused, C150_counterexample, C150_exact, C150_partial, C157_needed, C161_number, C168_pathless, C169_kinds, C170_checked, C172_exact, C172_first, C172_next, C172_two, C174_checked, C18_decode_encode, C18_decode_exact, C18_encoding_exists, C18_no_percent, C19_latin1, C20_every_query_has_tokens, C21_query_kept_in_path, C23_first_occurrence, C24_empty_separator_diverges, C26_body_overrun, C29_every_line_is_tokens, C37_case_sensitive, C38_counterexample, C40_charset_text, C42_distinct, C50_config_history, C50_history, C50_step, C50_worker_threads_dropped, C57_counterexample, C57_error_iff, C57_main_partial, C57_refused, C58_every_phrase, C58_pascal, C58_shape, C59_counterexample, C59_named_partial, C60_counterexample, C61_named_partial, C61_registered_partial, C62_counterexample, C62_no_control, C62_read_back_partial, C62_type, C63_counterexample, C64_once_partial, C64_too_early, C65_after_tls, C65_ports, C66_acceptor, C66_error_partial, C66_never_accepts, C66_panic_iff, C66_task, C77_determined, C78_client, C84_between, C85_stalled, C86_length, C90_counterexample, C95_same, C96_counterexample, C96_full_partial, C96_short_never, C96_verbatim.
- `propext` (40 theorems): C02_is_a_walk_from_the_root, C05_plain, C07_counterexample, C115_markup, C116_case, C116_combine, C116_swap, C127_same, C12_parsed_method, C131_inside, C172_two_not, C19_counterexample, C28_counterexample, C36_example_writable, C39_counterexample, C39_empty_file_partial, C39_failure, C39_nothing_delivered, C42_library_codes, C42_table, C44_counterexample, C44_iff, C44_wellformed_partial, C53_accepted, C53_iff, C53_roundtrip_partial, C57_test_partial, C58_generated, C59_generic_comma, C59_pub_field, C59_tuple_loses, C60_arrow, C60_where_generics, C61_counterexample, C61_differences, C64_counterexample, C65_counterexample, C65_race, C66_counterexample, C66_openssl.
- no axioms (4 theorems): C121_same, C50_with_config, C53_counterexample, C58_distinct.
<!-- axioms:end -->

## What is modelled

| File in `/repo` | Model | Not modelled |
|---|---|---|
| `src/path.rs` | `Model/Path.lean`: parsing, display, matching, subtraction, concatenation, the tree with insertion, look-up, both iterators, `Extend`/`FromIterator` | `Debug` output |
| `src/router.rs` | `Model/Router.lean`: registration, `append`, `run`, the `Flow` protocol, the trait `Route`, macros `route!` and `route_next!`/`route_stop!` by their expansion | boxing and `Send`/`Sync` of closures |
| `src/request.rs` | `Model/Request.lean` | `Debug` output |
| `src/query.rs` | `Model/Query.lean`: plain and extended queries | |
| `src/cookie.rs` | `Model/Request.lean`, `Model/Response.lean` | the attributes of `cookie::Cookie` are kept as text |
| `src/responder.rs` | `Model/Response.lean` | `json` (its feature does not compile), `Debug` output |
| `src/file_handler.rs` | `Model/FileHandler.lean` | metadata other than kind and length |
| `src/http/*.rs` | `Model/Server.lean` | |
| `src/server.rs` | `Model/Server.lean` (one connection), `Model/Listen.lean` (all connections), `Model/Parallel.lean` (handlers of several requests at the same time), `Model/Process.lean` (both together), `Model/Config.lean`, `Model/Startup.lean` (`listen`), `Model/Life.lean` (start-up and process together) | |
| `src/server_builder.rs`, `src/tls/*.rs` | `Model/Startup.lean` (opening the ports, acceptors), `Model/Listen.lean` and `Model/Process.lean` (accept loops, handshakes) | TLS records: a TLS stream is a byte stream or a failed handshake |
| `src/config.rs` | `Model/Config.lean` | |
| `src/time.rs` | `Model/Time.lean` | |
| `src/util.rs` | `Model/Util.lean` (`Spliterator`), `Model/Response.lean` (`AsyncReader`) | |
| `src/constants.rs`, `src/error.rs`, `octane_http/src/lib.rs` | `Model/Status.lean`, `Model/Server.lean` (error pages) | `Display` of errors that are only logged |
| `octane_http/src/http1x/*.rs` | `Model/Http1x.lean` | |
| cost of reading a head, parsing headers, routing | `Model/Cost.lean`: the same functions with a count; the results are proved equal (`C93_same`, `C94_same`, `C95_same`) | everything not counted: sorting of matches, hashing, writing |
| cost of decoding and parsing queries | `Model/CostQuery.lean`: the same functions with a count; the results are proved equal (`C118_same`) | collisions in hash maps, growing of buffers |
| uses of `DoublePeek` other than the decoder's | `Model/Peek.lean`: programs of `next`, `peek` and setting `unpeek` | items other than characters; iterators that go on after their end |
| cost of one whole request | `Model/CostServe.lean`: request line, headers, cookies, body and connection header with a count, and the sum of all counts (C121) | the handlers, sorting the matches, copying variables and the request for the handlers, writing the answer, zeroing of the body buffer, collisions in hash maps |
| copies for the handlers, forming and writing the answer, and all of `serve` together | `Model/CostWrite.lean`: `Octane::serve` with a count at every function; the result is proved equal (`C154_same`) | the handlers, `sort_by_key`, growing of buffers, collisions in hash maps, the date |
| memory of one request | `Model/Held.lean`: the lengths of `data`, of the headers, of `body_vec` and of the three requests that exist when the handlers are called, and the pairs of references in the maps of variables (C152) | capacities, the tables of maps and vectors, what handlers allocate, copies dropped earlier (`temp`, single header lines) |
| size of the route tables, cost of setting them up | `Model/Size.lean`: nodes, lists and entries of the trees (C126); calls of `insert` (C127, `C127_same`) | the capacity of vectors and hash maps, the bytes of patterns and closures |
| depth of recursion of `PathNode::dfs` | `Model/Depth.lean`: the same function with the number of open calls; the result is proved equal (`C119_same`) | the size of a stack frame |
| depth of dropping a tree, height of the iterators' stacks | `Model/Levels.lean`: the open calls of the generated destructor, the states of the iterators of `Model/Path.lean` turn by turn (C171) | dropping the closures themselves |
| `tests/*.rs`, the program in `src/lib.rs`, the examples in `src/responder.rs`, `src/cookie.rs`, `src/server.rs`, `src/router.rs`, `src/request.rs`, `src/query.rs` | `Model/Programs.lean`, `Model/Examples.lean`, `Model/Examples2.lean`: the registrations and handlers as programs of the model (C123, C124, C125, C153); `Check/RepoTests.lean`: the requests of the tests, replayed | the HTTP client `reqwest`, the TLS tests |
| `octane_macros/src/*.rs` | `Model/Macros.lean`, `Model/Json.lean`, `Model/PathMacro.lean`, `Model/Status.lean`, `Model/StatusMacro.lean` | spans and hygiene; `rustc` itself |

## Not modelled, or modelled by an assumption

- **tokio**: tasks, the executor and wake-ups. The accept loops and the connections are a transition system (`Model/Listen.lean`) whose steps may come in any order; fairness is assumed nowhere except where a theorem says so. A panic ends the task it happens in and nothing else (that is tokio's documented behaviour).
- **Handlers** are arbitrary functions on an arbitrary shared state that may panic. In `Model/Server.lean` and `Model/Listen.lean` one request's chain of handlers is one atomic step on that state. In `Model/Parallel.lean` handlers are programs whose accesses to the shared state interleave with those of other requests and which may never return; `C84_uninterrupted` proves that the atomic model is the uninterrupted case. A handler's program is finite between being called and returning, panicking or hanging; a single access is atomic (relaxed memory orders are not modelled). `Model/Process.lean` puts both together: the connections of the whole process, whose tasks need a worker thread for every step and keep it from the first to the last handler; C104 reduces it to programs that take turns, and `C104_atomic` proves that every execution of `Model/Listen.lean` is one of `Model/Process.lean`. Accepting a connection is not made to wait for a thread there: the accept loop of the plain port runs in `block_on`, not on a worker, and for the TLS port the handshake, which comes first on a connection, waits for a thread.
- **Worker threads** occur in `Model/Parallel.lean` and `Model/Process.lean`: a request holds a thread from the beginning to the end of its handlers. Reading and writing give the thread back at every await; they are left out in the first and are steps that need a free thread in the second.
- **Writing** to the socket never fails in the model of a single connection (`Server.serve`); in the model of all connections (`Model/Listen.lean`) a write may be cut anywhere or fail.
- **Memory**: allocation may fail only for the two buffers whose size the peer declares (`Content-Length`); the parameter `allocOk` is arbitrary.
- **Machine integers** are unbounded except where the code parses numbers, adds to an index that can reach the bound, or asks for memory. The router's counter is 64 bits; theorems about it assume fewer than 2^64 registrations.
- **Unicode tables** (`char::to_uppercase`, `to_lowercase`, `{:?}` escapes of non-ASCII) are parameters (`structure Unicode`), constrained on ASCII only.
- **The file system, the clock, the PEM decoders and the TLS libraries** are arbitrary functions.
- **The `cookie` crate**: `Cookie::parse` and `Display` are modelled from their documentation for version 0.14 (`cookieRsParse`, `Cookie.toStr`).
- **`FromJSON`, `ToJSON`, `Value`** are not in the repository; they are assumed to be what the generated code needs.
- The fields of `Router` are public (`src/router.rs:212-219`). The theorems about routers are about those made by its methods (`new`, the registrations, `append`); programs that write to `route_counter`, `middlewares` or `paths` are the subject of C168 and C169 (`Model/Counter.lean`, `Model/RouterFields.lean`), with additions that panic when they overflow; for release builds, where they wrap around, see C170 and C174 (`Model/Wrap.lean`, `Spec/FieldsRelease.lean`).
- `Octane::add` in `src/server.rs` repeats `Router::add`; one definition models both.
- `rustls`/`openssl` behaviour for mismatched key and certificate is internal to these libraries.

## Where the code does not do what a reader would expect

Each row is a proved counter-example; the theorem `…_partial` beside it states what does hold.

| Claim | Finding |
|---|---|
| C07 | `check_starts_with` is also true when the path is a prefix of the argument |
| C19 | percent-decoding is per byte (Latin-1), not UTF-8 |
| C21 | the query string is never cut from the path; the last value gets a trailing `/` |
| C26 | bytes that arrive together with the head beyond the declared length become part of the body; the body depends on the segmentation |
| C28 | U+001F is accepted in header values |
| C30 | malformed requests panic the connection task instead of getting 400; a huge `Content-Length` aborts the process (`C30_abort`) |
| C34, C36 | with cookies the head is not ended by a blank line |
| C35 | bytes of a following request can change the answer to the first (through C26) |
| C38 | `send_file` after `send` leaves the old Content-Length |
| C39 | `send_file` delivers no bytes |
| C41 | a redirect without body becomes 404 |
| C44 | `bin` has a misspelt MIME type |
| C46 | September is written `Sept` in the Date header |
| C48 | one connection can abort the process for all others (through `C30_abort`) |
| C49 | an accept error ends its listener; later connections are not served |
| C52 | a Cookie header with a piece without `name=` panics the task |
| C53 | version 2.0 is printed as 0.2 |
| C56 | HEAD is answered with a body |
| C57 | `#[octane::main]` loses the body of functions with braces in the signature |
| C59, C60 | the derive macros mistake `pub`, commas in types, lifetimes, const parameters, arrows; their last `compile_error!` text has an unclosed string, so the macro panics |
| C61 | the status table differs from the IANA registry in four codes (101 and 300 phrases, 305 missing, 418 extra) |
| C62 | control characters in attachment names are not read back |
| C63 | `path!` takes the literal's source text; escapes are not interpreted; further tokens are ignored; it uses the compiler's working directory |
| C64–C66 | `set_reuse_address` comes after the bind and has no effect; the callback of `listen` runs before the ports are open; when the TLS and the plain port are the same number, which one opens is a race; the rustls acceptor panics if the key file has no RSA key |
| C68 | no time-out and no limit on the head: a silent client waits for ever |
| C70, C71 | the query string and percent-encoding take part in routing |
| C72 | `Headers::get` needs the lower-case name, although the documentation uses `HeaderName` |
| C73 | `Transfer-Encoding` is ignored |
| C74 | HTTP/1.1 without `Connection` counts as not persistent; the state is computed but never used, and every connection is closed after one answer without `Connection: close` |
| C75 | query parameters can bring CRLF into a header |
| C78 | cookie values are not quoted or encoded: of `a;b` only `a` comes back |
| C79 | `..` in the query climbs: `/p?/../a` is `/a` |
| C80 | `get_extended_query` parses path and query together, as `get_query` does |
| C81 | `status_codes!` quotes the source text of a literal again, so escapes in a phrase are doubled |
| C84 | handlers of different requests are not kept apart: read-then-write on shared memory loses updates |
| C85 | handlers block the runtime's threads: as many requests to a handler that does not return as threads stop the server |
| C86 | an unusable or repeated `Content-Length` counts as 0 instead of being refused; `+5` counts as 5 |
| C87 | a target in absolute form is routed as `/http:/host/path` |
| C88, C89 | several Host headers and unknown versions of HTTP are accepted |
| C90 | `headers_sent` tells whether the header map is non-empty, not whether anything was sent |
| C91 | the answer to `send_file` has no Date (nor Content-Length) unless `default_headers` is called |
| C92 | the body buffer is allocated at the declared length before any of the body has come: 50 bytes make the server hold (or abort over) any amount up to `i64::MAX`; the head has no limit at all |
| C93 | after every read the search for the blank line starts again at the first byte: a head of n bytes costs about n²/1024 comparisons |
| C94 | a repeated header copies the joined value each time: n headers `a:` write about n² bytes |
| C96 | `with_type("json")` sends `Content-Type: json` (the code has a TODO) |
| C97 | `Expect: 100-continue` is ignored: a client that waits is never answered |
| C98 | a 204 or 304 with `send` is sent with its body and length, which the client takes for the next answer |
| C99 | no answer says `Connection: close`, though every connection is closed |
| C100 | a blank before the colon panics the task (faithful) or makes another header of it |
| C101 | blanks behind a header value are kept: `Content-Length: 5 ` declares nothing; a tab there panics the task (faithful) |
| C102 | HEAD is 404 for what is registered with `get` |
| C103 | a pipelined request is left unread when the connection is closed |
| C105 | as many requests to a handler that does not return as threads also stop answers that are already being written to other clients |
| C111 | an empty line before the request line panics the task; two are answered 400 |
| C112 | a path registered for another method is answered 404, without `Allow` |
| C115 | the page of every error says 404 NOT FOUND, and closes its `h5` by `/h2` |
| C125 | of the documented examples, those of `attachment` get the 404 page, that of `cookie` cannot be read, that of `charset` sends `text/html ;charset="utf-8"`, that of `send_file` sends no bytes, no length and no date |
| C127 | `with_router` inserts every route of the mounted router again; routers mounted in each other cost the square of the number of calls |
| C128 | no limit to the open connections; a client that has gone silent is never given up, and its task keeps what it received |
| C129 | of a form sent with GET, spaces arrive as `+`, letters outside ASCII as two or more, the first field under another name and the last with a slash |
| C134 | a target without a slash in front is the target with it: `GET a` is `GET /a`, `OPTIONS *` is `OPTIONS /*` |
| C135 | a folded header line is not a continuation: the task panics, or (not faithful, with a colon) it is a header whose name begins with a blank |
| C136 | one byte that is not UTF-8, in any header value, makes the whole request a bad one |
| C137 | a request without any header is answered 400, also with HTTP/1.0 |
| C141 | the JSON key of a field `r#type` is `r#type`, not `type` |
| C142 | with two Cookie lines `a=1` and `b=2` the handlers find one cookie, `a` with the value `1, b=2` |
| C143 | `set("content-type", …)` and `send` make an answer with two content types |
| C145 | a TLS client can be accepted and answered before the callback of `listen` has been called |
| C146 | when `listen` has returned an error because its port is taken, TLS clients are still accepted and answered, until the program ends |
| C147 | a line feed, a control character or an umlaut in the target is accepted and given to the handlers |
| C149 | there is no limit on the size of a head, a target or a body, except that a body of 2^63 bytes or more panics the task |
| C150 | a `;` in the value of a cookie starts an attribute: `/x;Domain=b` sets one, if a handler puts the segment into a cookie |
| C151 | without `faithful` a query token `=v` is an entry with the empty key for `get_query` and nothing for `get_extended_query` |
| C153 | `headers.get("HeaderName")` in the documentation of `Headers` and `MatchedRequest` never finds a header; `get_query().get("value")` in a handler for `/` never finds a value, because with a query that handler is not called |
| C155 | a route with a blank in a constant segment is registered without complaint and can never be called; without `url_variables` so is one with a segment that starts with `:` |
| C156 | a request that declares a body of 1 to 510 bytes can be given up to 511 bytes of what the client sent, depending on how the stream was cut |
| C158 | OPTIONS, TRACE and CONNECT are understood, but no handler can be registered for one of them: they reach only what is registered for all methods (`add_route`, `add`), and get 404 otherwise |
| C168 | the counter that numbers the handlers is a public field: a router whose counter is lowered between two registrations runs the later one first, and a handler mounted with the number 2^64−1 makes a request that only it applies to panic as soon as a route exists |
| C170 | in a release build the numbers wrap around: a handler registered later gets a small number and runs first |
| C172 | `DoublePeek` with both items held: after `unpeek` the first look shows the first item, the second look shows none (no caller does this) |

Smaller observations that are part of the model: `with_config` drops `worker_threads`; `with_ssl_config` leaves the port; the charset is written ` ;charset="utf-8"`; `Response::set` does not escape CRLF; without feature `url_variables` patterns with `:` never match; keys `k[..]` of extended queries are not percent-decoded; without `faithful` the empty query gives the pair `"" = ""`; requests with an unknown HTTP version are handled like others.

## Testing the theorems

`seeded/LOG.jsonl` lists edits of the model that imitate plausible bugs, each with the claim it makes false and the theorems that then fail. A theorem that survived an edit that makes its English claim false was tightened; the log says so.
