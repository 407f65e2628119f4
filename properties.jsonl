{"id": "C01", "title": "A parsed path is always normal", "statement": "Whenever a URL path or a route pattern is accepted, the resulting list of segments contains no empty segment, no '.', no '..', and no segment containing a '/'.", "quantifier": "every path string", "why_tests_cant": "the set of path strings is infinite and the bad segments can only be produced by particular combinations of '.', '..' and '/'", "anchors": ["src/path.rs: PathBuf::parse"]}
{"id": "C02", "title": "Path resolution and rejection are exactly the '..' rule", "statement": "Parsing a path resolves '.', '..' and repeated '/' the way a file-system walk from the root would, and it is rejected with an error exactly when some prefix of the path climbs above the root.", "quantifier": "every path string", "why_tests_cant": "acceptance depends on every prefix of an unboundedly long string", "anchors": ["src/path.rs: PathBuf::parse", "src/error.rs: InvalidPathError"]}
{"id": "C03", "title": "Displaying and re-parsing a path is the identity; redundant separators do not matter", "statement": "Parsing the displayed form of any accepted path gives the same path back, and inserting or doubling '/' or '/./' at a segment boundary never changes the result of parsing.", "quantifier": "every accepted path and every split point of a path string", "why_tests_cant": "round-trip law over an infinite domain", "anchors": ["src/path.rs: PathBuf::parse", "src/path.rs: impl Display for PathBuf"]}
{"id": "C04", "title": "A request path can never address a file outside the base directory", "statement": "The file-system path obtained from an accepted request path is relative and, walked from any directory, never leaves that directory at any intermediate step.", "quantifier": "every accepted request path", "why_tests_cant": "traversal attacks are chosen adversarially; sampling strings cannot exclude one", "anchors": ["src/path.rs: PathBuf::to_std_pathbuf", "src/path.rs: PathBuf::parse"]}
{"id": "C05", "title": "Route pattern matching is segment-wise with ':' variables", "statement": "A pattern matches a path exactly when both have the same number of segments and every pattern segment either starts with ':' or equals the path's segment at that position; the bindings map each variable name to the segment at its (last) position and contain nothing else.", "quantifier": "every pattern and every path", "why_tests_cant": "two unbounded inputs", "anchors": ["src/path.rs: PathBuf::check_matches"]}
{"id": "C06", "title": "Path concatenation and subtraction are inverse", "statement": "Subtracting a prefix from a path succeeds exactly when it is a prefix, and subtraction and concatenation undo each other; the 'starts with' test answers true for every prefix of the path.", "quantifier": "every pair of paths", "why_tests_cant": "algebraic law over an infinite domain", "anchors": ["src/path.rs: PathBuf::subtract", "PathBuf::concat", "PathBuf::concat_owned", "PathBuf::check_starts_with"]}
{"id": "C07", "title": "'Starts with' holds only for prefixes", "statement": "The 'starts with' test on paths answers true only if its argument is a prefix of the path.", "quantifier": "every pair of paths", "why_tests_cant": "needs all pairs, including an argument longer than the path", "anchors": ["src/path.rs: PathBuf::check_starts_with"]}
{"id": "C08", "title": "Route lookup returns exactly the matching routes", "statement": "Looking a path up in a route table returns every registered route whose pattern matches that path, each exactly as often as it was registered, and no other route.", "quantifier": "every history of route registrations and every looked-up path", "why_tests_cant": "depends on the whole registration history; the tree shares prefixes between routes", "anchors": ["src/path.rs: PathNode::insert", "PathNode::dfs", "PathNode::get"]}
{"id": "C09", "title": "Route lookup and insertion never panic", "statement": "Registering any accepted pattern and looking up any accepted path never reaches one of the panicking branches (leaf/node confusion, indexing an empty segment, unwrapping a failed match).", "quantifier": "every history of registrations and every looked-up path", "why_tests_cant": "panic freedom must hold in every reachable tree", "anchors": ["src/path.rs: PathNode::unwrap_node", "unwrap_leaf", "PathNode::insert", "PathNode::get"]}
{"id": "C10", "title": "Iterating a route table visits every route exactly once", "statement": "Both the borrowing and the consuming iterator over a route table terminate and yield every registered route exactly once, whatever order the hash maps enumerate their entries in.", "quantifier": "every registration history and every hash-map enumeration order", "why_tests_cant": "hash-map order is randomised per process; tests see only some orders", "anchors": ["src/path.rs: PathNodeIterator", "OwnedPathNodeIterator", "PathNode::iter", "PathNode::into_iter"]}
{"id": "C11", "title": "A handler receives exactly the URL variables of its own pattern", "statement": "When a route handler runs, the variables it sees are those of its own pattern matched against the request path; handlers registered for all paths see no variables.", "quantifier": "every router, request and handler position", "why_tests_cant": "variables of several matching patterns could leak into one another in some mix of routes", "anchors": ["src/router.rs: Router::run", "src/path.rs: PathNode::get", "src/request.rs: MatchedRequest"]}
{"id": "C12", "title": "Handlers run in registration order", "statement": "For every request, the handlers that apply to it (same method and matching pattern, any-method routes with matching pattern, and path-less middleware) run in the order in which they were registered, regardless of which of the three kinds they are.", "quantifier": "every sequence of registrations and every request", "why_tests_cant": "order must hold for every interleaving of the three registration kinds", "anchors": ["src/router.rs: Router::run", "inject_method!", "Route for Router::add", "src/server.rs: Route for Octane"]}
{"id": "C13", "title": "Flow::Stop ends the chain, Flow::Next continues it", "statement": "After a handler returns Stop no later handler runs; a handler runs if and only if it applies to the request and every applicable handler registered before it returned Next.", "quantifier": "every handler chain and every handler behaviour", "why_tests_cant": "quantifies over arbitrary handler functions", "anchors": ["src/router.rs: Router::run", "Flow::should_continue"]}
{"id": "C14", "title": "Method isolation", "statement": "A handler registered for one HTTP method never runs for a request with another method; a handler registered with add_route runs for every method, and one registered with add runs for every method and path.", "quantifier": "every router, method and path", "why_tests_cant": "negative property over all routers", "anchors": ["src/router.rs: Router::run", "Route for Router"]}
{"id": "C15", "title": "Mounting a router equals registering its routes in place", "statement": "with_router behaves exactly as if the mounted router's registrations had been performed directly on the server at that point, in their original order, including nested mounts and whatever order hash maps are enumerated in.", "quantifier": "every pair of registration histories, nesting, request and hash-map enumeration order", "why_tests_cant": "depends on hash-map enumeration order and the whole history", "anchors": ["src/router.rs: Router::append", "src/server.rs: Octane::with_router", "src/path.rs: Extend/FromIterator for PathNode"]}
{"id": "C16", "title": "A rejected registration has no effect", "statement": "When registering a route returns an error, every later request is handled exactly as if the call had not been made.", "quantifier": "every registration history and every later request", "why_tests_cant": "depends on all later behaviour", "anchors": ["src/router.rs: inject_method!"]}
{"id": "C17", "title": "Routing terminates without panicking", "statement": "Dispatching a request through any router runs at most as many handlers as were registered and never panics unless a handler does.", "quantifier": "every router, request and handlers", "why_tests_cant": "panic freedom and termination over all inputs", "anchors": ["src/router.rs: Router::run"]}
{"id": "C18", "title": "Percent-decoding is exact", "statement": "Decoding replaces every '%' followed by two hex digits by the character with that code, left to right, and leaves every other character unchanged; decoding the percent-encoded form of any string of code points below 256 gives that string back.", "quantifier": "every string", "why_tests_cant": "two-character look-ahead with a hand-written peeking iterator; boundary cases at every position", "anchors": ["src/query.rs: unescape_hex", "DoublePeek", "from_hex"]}
{"id": "C19", "title": "Percent-decoding is UTF-8 aware", "statement": "Decoding the percent-encoded UTF-8 bytes of any string gives that string back.", "quantifier": "every string", "why_tests_cant": "infinite domain", "anchors": ["src/query.rs: unescape_hex"]}
{"id": "C20", "title": "Query parsing yields the last value of every key", "statement": "Parsing an '&'-separated query gives a map in which every key present in the query is bound to the decoded value of its last occurrence (empty if it has no '='), and no other key is present; encoding any list of pairs and parsing gives those pairs.", "quantifier": "every query string / every list of pairs", "why_tests_cant": "unbounded input; override order", "anchors": ["src/query.rs: parse_query"]}
{"id": "C21", "title": "get_query returns the query of the request URI", "statement": "For a request for '/p?q' the query accessor returns exactly the parsed pairs of 'q' and a route for '/p' is matched.", "quantifier": "every request URI with a query", "why_tests_cant": "must hold for all URIs", "anchors": ["src/request.rs: Request::get_query", "src/path.rs: Display", "src/query.rs: parse_query"]}
{"id": "C22", "title": "Extended queries: strings win, otherwise the first kind wins", "statement": "In an extended query, a key that occurs plainly is bound to its last plain value; otherwise a key first used as 'k[]' is bound to the array of all its 'k[]' values in order, and a key first used as 'k[x]' to the object with the last value per inner key.", "quantifier": "every query string", "why_tests_cant": "depends on the relative order of all occurrences", "anchors": ["src/query.rs: parse_extended_query", "QueryValue"]}
{"id": "C23", "title": "Sub-slice search finds the first occurrence", "statement": "Searching a needle in a slice returns the smallest index at which it occurs and fails only if it does not occur; no index is out of bounds.", "quantifier": "every haystack and needle", "why_tests_cant": "unbounded inputs and boundaries at the end of the slice", "anchors": ["octane_http/src/http1x/mod.rs: find_in_slice"]}
{"id": "C24", "title": "Splitting on a separator is lossless", "statement": "Splitting a slice on a non-empty separator terminates, the pieces joined by the separator give the original back and no piece contains the separator.", "quantifier": "every slice and non-empty separator", "why_tests_cant": "infinite domain and termination", "anchors": ["src/util.rs: Spliterator"]}
{"id": "C25", "title": "Request parsing does not depend on how TCP segments the bytes", "statement": "For a given byte stream, whether the request head is accepted, and the resulting request line and headers, are the same however the stream is cut into reads.", "quantifier": "every byte stream and every segmentation of it", "why_tests_cant": "all segmentations of all streams", "anchors": ["octane_http/src/http1x/mod.rs: Http1xReader::new", "parse_without_body"]}
{"id": "C26", "title": "The request body is exactly Content-Length bytes", "statement": "The body a handler sees is exactly the Content-Length bytes following the blank line, however the stream is segmented and whatever follows them.", "quantifier": "every stream, segmentation and Content-Length", "why_tests_cant": "all segmentations; trailing pipelined bytes", "anchors": ["src/request.rs: Request::from_raw", "octane_http/src/http1x/mod.rs: Http1xReader::new"]}
{"id": "C27", "title": "Header names are case-insensitive and repeated headers are joined", "statement": "The parsed header map binds each lower-cased header name to the ', '-joined values of all headers with that name in order, and nothing else; the raw list preserves all headers with their original spelling and order.", "quantifier": "every accepted header block", "why_tests_cant": "unbounded number of headers and repetitions", "anchors": ["src/request.rs: Headers::parse", "Header::parse"]}
{"id": "C28", "title": "Accepted headers are well-formed (no control characters)", "statement": "In faithful mode every accepted header name is a non-empty token and no accepted header value contains a control character (U+0000-U+001F, U+007F); in particular no CR, LF or NUL. Of the accepted values exactly those with U+001F have a control character.", "quantifier": "every header line", "why_tests_cant": "needs every character in every position", "anchors": ["src/request.rs: Header::parse", "src/path.rs: is_ctl", "src/constants.rs: TOKEN_CHARS"]}
{"id": "C29", "title": "Request-line parsing round-trips", "statement": "Every request line '<METHOD> <path> HTTP/<v>' is parsed to that method, that resolved path and that version; unknown methods and versions are reported as such; in faithful mode lines with extra tokens or without 'HTTP/' are refused.", "quantifier": "every request line", "why_tests_cant": "infinite domain", "anchors": ["src/request.rs: RequestLine::parse"]}
{"id": "C30", "title": "Every malformed request is answered", "statement": "Whatever bytes a client sends before closing its sending side, the connection task does not panic and the client gets a response.", "quantifier": "every finite byte stream and segmentation", "why_tests_cant": "adversarial input", "anchors": ["src/server.rs: Octane::serve", "src/request.rs: RequestLine::parse", "src/request.rs: Request::from_raw", "src/cookie.rs: Cookie::parse"]}
{"id": "C31", "title": "Keep-Alive header parsing", "statement": "The Keep-Alive parameters are the last well-formed 'timeout=' and 'max=' values in the comma-separated list, malformed or unknown entries are ignored, and parsing never fails.", "quantifier": "every header value", "why_tests_cant": "infinite domain", "anchors": ["src/request.rs: KeepAlive::parse"]}
{"id": "C32", "title": "HTTP/1.1 requests without Host are refused before any handler runs", "statement": "An HTTP/1.1 request without a Host header is answered 400 and no handler is run; every other well-formed request passes this check.", "quantifier": "every request and router", "why_tests_cant": "negative property over all routers and header sets", "anchors": ["src/http/http11.rs: http11_check", "src/http/mod.rs: Http::validate", "src/server.rs: Octane::serve"]}
{"id": "C33", "title": "Unknown methods are answered 501 without running handlers", "statement": "A valid request whose method is not one of the nine known ones is answered 501 and no handler (not even middleware) is run.", "quantifier": "every method token, router and request", "why_tests_cant": "negative property over all routers", "anchors": ["src/server.rs: Octane::serve", "src/request.rs: RequestMethod::is_some"]}
{"id": "C34", "title": "A response is 404 exactly when no handler produced a body", "statement": "If after running the handlers no body was set the client gets the 404 page; otherwise it gets exactly the status, headers, cookies and body the handlers left. It sees what the handlers left exactly if no cookie was set (or the feature is off) and the body is in memory or an empty file.", "quantifier": "every router, request and handler behaviour", "why_tests_cant": "quantifies over handler functions", "anchors": ["src/server.rs: Octane::serve", "src/responder.rs: Response::has_body"]}
{"id": "C35", "title": "At most one response per connection", "statement": "Each connection is answered with at most one response, computed from the first request on the stream only.", "quantifier": "every byte stream and segmentation", "why_tests_cant": "all streams", "anchors": ["src/server.rs: Octane::serve", "Octane::send"]}
{"id": "C36", "title": "The serialised response is parsed back to what the handler set", "statement": "A client parsing the bytes on the wire recovers exactly the status code, the headers, the cookies and the body of the response, whatever order the header map is enumerated in. Of the responses that can be written, exactly those do that have no cookie (or the feature is off) and whose body is in memory or an empty file.", "quantifier": "every response (status, headers without CR/LF and with token names, cookies, body) and every hash-map order", "why_tests_cant": "round-trip over all responses", "anchors": ["src/responder.rs: Response::get_data", "status_line", "headers", "src/server.rs: Octane::send", "src/cookie.rs: Cookie::serialise"]}
{"id": "C37", "title": "Response headers behave like a map", "statement": "After any sequence of response operations, reading a header returns the value most recently stored under that name and storing one header does not change another.", "quantifier": "every sequence of response operations", "why_tests_cant": "unbounded histories", "anchors": ["src/responder.rs: Response::set", "Response::get", "with_type", "attachment", "redirect"]}
{"id": "C38", "title": "Content-Length equals the body length", "statement": "If a response carries the Content-Length header computed by the library, its value is the number of body bytes that follow. It is wrong exactly if the last operation that brought a body is a send_file of a file that can be served, and either the default headers are set after it and the file is not empty, or they are not and the head already announced a body that was not empty.", "quantifier": "every sequence of response operations, every body", "why_tests_cant": "unbounded histories", "anchors": ["src/responder.rs: Response::send", "Response::default_headers", "Response::send_file"]}
{"id": "C39", "title": "send_file delivers the file", "statement": "After a successful send_file the bytes on the wire are the contents of the file.", "quantifier": "every file content", "why_tests_cant": "all files and read sizes", "anchors": ["src/responder.rs: Response::send_file", "src/util.rs: AsyncReader::poll_read", "src/file_handler.rs: FileHandler::handle_file"]}
{"id": "C40", "title": "Default Content-Type never overrides an explicit one", "statement": "Sending a body keeps an explicitly set Content-Type and otherwise sets text/html, with the charset if one was set; sending never fails and always yields a Content-Length header.", "quantifier": "every sequence of response operations ending in a send", "why_tests_cant": "unbounded histories", "anchors": ["src/responder.rs: Response::default_headers", "Response::send", "Response::with_type", "Response::charset"]}
{"id": "C41", "title": "redirect sets 302 and Location", "statement": "After redirect(l) the status is 302 and the Location header is l until changed again, and the emitted response carries both. The client sees the redirect exactly if a body was sent as well, and no cookie was set (or the feature is off) or the body happens to begin like headers.", "quantifier": "every location and later operations not touching them", "why_tests_cant": "unbounded histories", "anchors": ["src/responder.rs: Response::redirect", "Response::status"]}
{"id": "C42", "title": "Status codes and reason phrases", "statement": "Every named status has a distinct three-digit code and the status line is 'HTTP/<version> <code> <UPPER-CASED REASON>'; a custom status is emitted with its own number and phrase.", "quantifier": "every status, including custom ones, and every version", "why_tests_cant": "the table is finite but custom statuses are not", "anchors": ["octane_http/src/lib.rs: StatusCode, fetch", "octane_macros/src/status.rs: status_codes", "src/responder.rs: status_line"]}
{"id": "C43", "title": "MIME type detection", "statement": "The MIME type depends only on the case-folded last extension of the file name, is the tabulated one for known extensions and text/plain otherwise.", "quantifier": "every file name", "why_tests_cant": "infinite domain", "anchors": ["src/file_handler.rs: FileHandler::mime_type", "FileHandler::get_extension"]}
{"id": "C44", "title": "MIME types are well-formed", "statement": "Every MIME type produced is '<type>/<subtype>' with one of the registered top-level types. It holds exactly for the extensions other than bin, in any case.", "quantifier": "every file extension", "why_tests_cant": "every extension", "anchors": ["src/file_handler.rs: FileHandler::mime_type"]}
{"id": "C45", "title": "The Date header denotes the current instant", "statement": "For every clock reading the formatted date's civil fields denote exactly that instant in the proleptic Gregorian calendar (including leap years and centuries), with the right weekday, and computing it never indexes out of bounds.", "quantifier": "every clock reading", "why_tests_cant": "leap-year, century and 400-year boundaries over an unbounded range", "anchors": ["src/time.rs: Time::time", "Time::now", "src/constants.rs: DAYS_IN_MONTH, LEAPOCH"]}
{"id": "C46", "title": "The Date header has the IMF-fixdate shape", "statement": "For every clock reading up to year 9999 the Date header is a 29-character IMF-fixdate 'Www, DD Mon YYYY HH:MM:SS GMT' with RFC 7231 day and month names. It holds exactly outside September.", "quantifier": "every clock reading", "why_tests_cant": "must hold for each month and day", "anchors": ["src/time.rs: Time::format", "Padding::pad_zero", "src/constants.rs: WEEKS, MONTHS"]}
{"id": "C47", "title": "Distinct seconds have distinct dates", "statement": "Two different clock readings (in seconds) never produce the same Date header.", "quantifier": "every pair of clock readings", "why_tests_cant": "all pairs", "anchors": ["src/time.rs: Time::time", "Time::format"]}
{"id": "C48", "title": "Connections do not interfere", "statement": "For every interleaving of reads on any number of concurrent connections, each connection's response is the one it would have got alone, and a panic while serving one connection does not affect the others.", "quantifier": "every number of connections, every interleaving", "why_tests_cant": "schedules", "anchors": ["src/server_builder.rs: ServerBuilder::listen", "src/constants.rs: task!", "src/server.rs: Octane::serve"]}
{"id": "C49", "title": "The accept loop serves every connection", "statement": "Every connection accepted by the listener is served, also after a transient accept error.", "quantifier": "every sequence of accept results", "why_tests_cant": "fault schedules", "anchors": ["src/server_builder.rs: ServerBuilder::listen", "src/server.rs: Octane::listen"]}
{"id": "C50", "title": "Configuration replacement", "statement": "with_config makes keep-alive and all SSL settings those of the given configuration; with_ssl_config sets key and certificate; ssl(port) sets the port; nothing else changes.", "quantifier": "every configuration history", "why_tests_cant": "unbounded histories", "anchors": ["src/config.rs: OctaneConfig::append", "Config", "src/server.rs: Octane::with_config"]}
{"id": "C51", "title": "Request cookies are parsed in order", "statement": "For every list of name/value cookies joined by '; ' the handler sees exactly those cookies in order.", "quantifier": "every list of cookies", "why_tests_cant": "unbounded list", "anchors": ["src/cookie.rs: Cookie::parse", "src/request.rs: Request::parse"]}
{"id": "C52", "title": "A malformed Cookie header does not crash the request", "statement": "Whatever the value of the Cookie header, the request is handled.", "quantifier": "every header value", "why_tests_cant": "adversarial input", "anchors": ["src/cookie.rs: Cookie::parse"]}
{"id": "C53", "title": "HTTP version tokens round-trip", "statement": "Every version accepted in a request line is printed back as the same token when used as the response version. It holds exactly for the accepted tokens other than 2.0.", "quantifier": "every known version", "why_tests_cant": "couples two functions in two crates", "anchors": ["octane_http/src/lib.rs: HttpVersion::to_string", "src/request.rs: RequestLine::parse"]}
{"id": "C54", "title": "End-to-end: a served route", "statement": "If a client sends a well-formed request (any method, path, headers, body, any segmentation) and the first applicable handler sends a body and stops, the bytes the client receives parse to status 200, that body and its Content-Length.", "quantifier": "every well-formed request, segmentation and server", "why_tests_cant": "composition of every component over all inputs", "anchors": ["src/server.rs: Octane::serve", "src/router.rs: Router::run", "src/responder.rs: Response::send"]}
{"id": "C55", "title": "Error pages are well-formed", "statement": "Every error answered by the library carries the right status code, a Content-Length equal to its body and Content-Type text/html, and parses as a response.", "quantifier": "every error status and clock reading", "why_tests_cant": "all clock readings and header orders", "anchors": ["src/error.rs: Error::send", "declare_error!"]}
{"id": "C56", "title": "HEAD responses carry no body", "statement": "The response to a HEAD request has no body bytes after the header block. If no cookie is set, it holds exactly if the handlers set a body from which nothing comes: an empty one, or a file.", "quantifier": "every server and HEAD request", "why_tests_cant": "all handlers", "anchors": ["src/server.rs: Octane::serve"]}
{"id": "C57", "title": "#[octane::main] keeps the function", "statement": "The attribute keeps the signature without 'async' and the body unchanged for every async function and reports an error for every non-async one.", "quantifier": "every function token stream", "why_tests_cant": "all token streams", "anchors": ["octane_macros/src/stream_parser.rs: StreamParser::parse", "octane_macros/src/lib.rs: main"]}
{"id": "C58", "title": "status_codes! generates distinct names", "statement": "The identifiers generated from the status phrases are pairwise distinct Pascal-case identifiers, for the whole table.", "quantifier": "every phrase (shape), every pair of table entries (distinctness)", "why_tests_cant": "identifier derivation is defined for arbitrary phrases", "anchors": ["octane_macros/src/util.rs: pascal_case", "octane_macros/src/status.rs: status_codes"]}
{"id": "C59", "title": "Derived JSON conversion round-trips", "statement": "For every struct, converting to JSON with the derived ToJSON and back with the derived FromJSON gives the original, and FromJSON refuses objects with missing or additional fields.", "quantifier": "every struct declaration and every value", "why_tests_cant": "all declarations", "anchors": ["octane_macros/src/json.rs: tojson_braces, fromjson_braces, tojson_parens, fromjson_parens"]}
{"id": "C60", "title": "Derived JSON impls are for the declared type", "statement": "For every struct declaration with generic parameters and a where clause, the derive macros emit an impl whose parameter list is the declared one, whose self type is the struct applied to its own parameters, and whose where clause is the declared one plus the derived trait's bound for each type parameter.", "quantifier": "every struct declaration", "why_tests_cant": "all declarations, arbitrarily nested generics", "anchors": ["octane_macros/src/json.rs: handle_derive, fromjson_braces, tojson_braces"]}
{"id": "C61", "title": "Named statuses are the registered ones", "statement": "The named statuses are exactly the codes of the IANA HTTP status code registry, each with its registered reason phrase.", "quantifier": "every named status, every registered code", "why_tests_cant": "the whole table in both directions against an independent registry", "anchors": ["src/constants.rs: status_codes!", "octane_macros/src/lib.rs: status_codes"]}
{"id": "C62", "title": "Attachment file names are quoted", "statement": "attachment_with_filename stores a Content-Disposition value from which a client reads back exactly the file name, whatever characters it contains, and which cannot inject header lines.", "quantifier": "every file name", "why_tests_cant": "arbitrary names, including quotes, backslashes and control characters", "anchors": ["src/responder.rs: attachment_with_filename"]}
{"id": "C63", "title": "path! gives an existing path", "statement": "path!(\"p\") expands to a string literal of the compiler's working directory followed by p, and compiles only if that path exists.", "quantifier": "every token list, working directory and file system", "why_tests_cant": "all literals, all file systems", "anchors": ["octane_macros/src/lib.rs: path"]}
{"id": "C64", "title": "The listen callback runs once the server is listening", "statement": "The closure given to listen is called exactly once, when the server is ready to accept connections.", "quantifier": "every interleaving of the two start-up tasks, every behaviour of the operating system", "why_tests_cant": "all interleavings and all failures", "anchors": ["src/server.rs: listen", "src/server_builder.rs: ServerBuilder::new"]}
{"id": "C65", "title": "TLS trouble does not stop plain HTTP", "statement": "Whether the plain listener opens depends on the calls that open it only; a failure or panic on the TLS side never prevents it, and listen returns an error exactly when opening the plain port failed.", "quantifier": "every interleaving, every behaviour of the operating system and of the TLS library", "why_tests_cant": "all interleavings and failures", "anchors": ["src/server.rs: listen", "src/server_builder.rs: ServerBuilder::new"]}
{"id": "C66", "title": "TLS uses the configured key and certificates", "statement": "The TLS acceptor is made from the first RSA key of the configured key file and the chain of the configured certificate file, and anything wrong with the files is reported as an error; without a good configuration no TLS connection is accepted.", "quantifier": "every settings value, every file content", "why_tests_cant": "all file contents and PEM decoders", "anchors": ["src/tls/rustls.rs: acceptor", "src/tls/openssl.rs: acceptor", "src/config.rs: get_cert, get_key"]}
{"id": "C67", "title": "Hash order does not matter", "statement": "Serving a request gives the same outcome, the same application state and the same bytes for every enumeration order of the hash maps, except for the order of the header lines of the answer.", "quantifier": "every server, socket, state and pair of enumeration orders", "why_tests_cant": "the order is random per process; tests see one of n! orders", "anchors": ["src/request.rs: Headers", "src/responder.rs: Response::get_data", "src/router.rs: Router::run"]}
{"id": "C68", "title": "No request waits for ever", "statement": "The server answers or closes every connection: a client that stops sending does not keep a task for ever.", "quantifier": "every socket, every feature selection", "why_tests_cant": "infinite waiting is not observable by a finite test", "anchors": ["octane_http/src/http1x/mod.rs: Http1xReader::new", "src/request.rs: Request::from_raw", "src/server.rs: serve"]}
{"id": "C69", "title": "Nothing registered, nothing done", "statement": "A well-formed request whose path and method match no registered closure gets a 404 answer and leaves the application state unchanged.", "quantifier": "every registration log, every request, every state", "why_tests_cant": "all route tables and all paths", "anchors": ["src/router.rs: Router::run", "src/server.rs: serve"]}
{"id": "C70", "title": "The query string does not choose the route", "statement": "Two requests that differ only in the query string run the same closures.", "quantifier": "every registration log, every pair of targets", "why_tests_cant": "all targets and route tables", "anchors": ["src/request.rs: RequestLine::parse", "src/path.rs: PathBuf::parse", "src/router.rs: Router::run"]}
{"id": "C71", "title": "Percent-encoded targets are decoded", "statement": "Equivalent percent-encodings of a path reach the same closures, and variables hold the decoded text.", "quantifier": "every registration log, every pair of encodings", "why_tests_cant": "all encodings", "anchors": ["src/path.rs: PathBuf::parse, check_matches", "src/router.rs: Router::run"]}
{"id": "C72", "title": "Header lookup ignores case", "statement": "Headers::get finds a header of the request under every spelling of its name. It holds exactly for spellings without capitals and for headers that were not sent.", "quantifier": "every byte stream, every name", "why_tests_cant": "all spellings and requests", "anchors": ["src/request.rs: Headers::parse, Headers::get"]}
{"id": "C73", "title": "Chunked bodies are decoded", "statement": "Of a request with Transfer-Encoding: chunked the handlers see the content of the chunks.", "quantifier": "every request, every chunking", "why_tests_cant": "all chunkings", "anchors": ["src/request.rs: Request::from_raw"]}
{"id": "C74", "title": "Keep-alive state follows RFC 7230", "statement": "For a request that passes the check the keep-alive state is the one of RFC 7230 section 6.3.", "quantifier": "every parsed request", "why_tests_cant": "all header values", "anchors": ["src/http/mod.rs: Http::validate", "src/http/http11.rs", "src/http/http10.rs"]}
{"id": "C75", "title": "Request text cannot split the answer", "statement": "In faithful mode nothing a handler can take from the head of a request (header values, cookies, path segments and URL variables, query parameters) contains CR or LF, so copying it into a header cannot split the answer.", "quantifier": "every byte stream, every segmentation, every request read from it", "why_tests_cant": "all byte streams; injection needs one unlucky encoding", "anchors": ["src/request.rs: Header::parse, Headers::parse, Request::get_query", "src/path.rs: PathBuf::parse, is_ctl", "src/query.rs: parse_query, unescape_hex", "src/cookie.rs: Cookie::parse"]}
{"id": "C76", "title": "Every connection comes to an end", "statement": "Under a weakly fair scheduler, while the process lives, every accepted connection eventually ends and stays ended, unless its peer falls silent in the middle of a request; if none of its writes and handshakes fail it has then been sent the whole response that serving its bytes gives in the shared state of some moment, or its task panicked because serving panics there.", "quantifier": "every infinite execution, every accepted connection, every byte stream and segmentation", "why_tests_cant": "liveness over infinite schedules; no finite run shows it", "anchors": ["src/server_builder.rs: listen, listen_ssl", "src/constants.rs: task!", "src/server.rs: Octane::serve", "octane_http/src/http1x/mod.rs: Http1xReader"]}
{"id": "C77", "title": "Response settings are what was set last, and cookies add up", "statement": "After any sequence of response operations the status, the version and the charset are those chosen by the last operation that chooses one (and the initial ones if none does), the cookies are the initial ones (or the last list written) followed by every cookie added since in order, and the body is the one sent last. On the wire there is one Set-Cookie line per added cookie, in the order they were added.", "quantifier": "every sequence of response operations, every initial response, every hash-map order", "why_tests_cant": "Tests set one or two things on one response; the claim is about arbitrary interleavings of seventeen operations, including ones that touch several fields at once (redirect, send, send_file).", "anchors": ["src/responder.rs:95-98", "src/responder.rs:138-164", "src/responder.rs:184-231", "src/responder.rs:287-296", "src/responder.rs:335-432", "src/responder.rs:496-513", "src/cookie.rs:82-84"]}
{"id": "C78", "title": "A cookie that was set comes back unchanged", "statement": "If handlers set cookies and a client that follows RFC 6265 keeps them and sends them with its next request, the handlers of that request see, for each name, exactly the value that was set last under it.", "quantifier": "every list of cookies with any attributes, every order in which the client sends them back, every request that carries them", "why_tests_cant": "The claim joins writing Set-Cookie, an independent client and reading Cookie, over all names, values, attributes and orders; tests check a fixed cookie in one direction.", "anchors": ["src/responder.rs:138-164", "src/responder.rs:335-432", "src/cookie.rs:27-92", "src/request.rs: Request::parse"]}
{"id": "C79", "title": "The query does not lead to another path", "statement": "If all handlers are registered for literal paths other than the path before the '?', then no query makes one of them run; the answer is 404.", "quantifier": "every registration log of literal paths, every request target with a query, every query", "why_tests_cant": "The whole target including the query goes through path resolution; only a query with slashes and '..' shows it, and the claim ranges over all of them.", "anchors": ["src/path.rs:24-50", "src/request.rs: RequestLine::parse", "src/router.rs: run"]}
{"id": "C80", "title": "get_extended_query returns the extended query of the request", "statement": "For a request for 'path?query' the accessor get_extended_query returns the extended query 'query': per key the last plain value, else the list or the object.", "quantifier": "every request with a query, every key", "why_tests_cant": "unbounded queries; the existing tests call the parser on a bare query, not the accessor on a request", "anchors": ["src/request.rs:345-347", "src/query.rs:195-262", "src/path.rs: Display"]}
{"id": "C81", "title": "status_codes! makes one variant per number and phrase", "statement": "For any arguments that are, per entry, a decimal number and a string literal with a letter in it (with anything but literals around them), status_codes! generates one variant and one arm per entry, in order: the variant is the Pascal case of the phrase and fetch gives the number and the string that the literal denotes.", "quantifier": "every token stream given to the macro", "why_tests_cant": "all argument lists, and the expansion happens at compile time", "anchors": ["octane_macros/src/status.rs:4-72", "octane_macros/src/util.rs:4-23", "octane_http/src/lib.rs:53-115"]}
{"id": "C82", "title": "The attribute macros set up the runtime the documentation says", "statement": "For every token stream, #[octane::main] generates the signature without 'async' and a body that builds a multi-thread runtime with I/O, 10 MiB of stack and twice as many workers as processors and runs the content of the first brace group on it; #[octane::test] does so with a current-thread runtime and #[test] in front; without 'async' a compile error comes first.", "quantifier": "every token stream, every number of processors", "why_tests_cant": "all functions; the expansion happens at compile time", "anchors": ["octane_macros/src/lib.rs:116-186", "octane_macros/src/stream_parser.rs:10-47"]}
{"id": "C83", "title": "From bytes to answer: the complete behaviour of one connection", "statement": "For a server set up by any registrations and a client that closes its sending side after any bytes: without a readable head the answer is the 400 page; with an understandable request it is the 400 page for HTTP/1.1 without Host, else the 501 page for an unknown method, else the registered handlers that apply run in registration order on exactly that request (method, resolved path, version, headers, cookies, and as the body what follows the head up to the declared length or the end of the read that completed the head, whichever is later) and the client gets the 404 page if they left no body and otherwise the serialised response; in every other case the task panics and nothing is answered. A byte stream contains at most one such request.", "quantifier": "every program of registrations, every byte stream and segmentation, every feature selection, all handlers", "why_tests_cant": "all byte streams times all routers; each stage is tested alone at best, the composition never", "anchors": ["src/server.rs:167-212", "src/http/mod.rs:24-49", "src/request.rs:123-345", "src/router.rs:207-318", "src/cookie.rs:70-79"]}
{"id": "C84", "title": "Requests handled in parallel", "statement": "Handlers of different requests may run at the same time on different threads and share memory. Whatever the order of their accesses, each request runs exactly the handlers that apply to it, in registration order up to one that stops, each continuing with its own response; and the outcome is that of handling the requests one after the other in some order.", "quantifier": "every program of registrations, all handlers (arbitrary programs of reads and writes of the shared state), every interleaving of any number of requests, every number of threads", "why_tests_cant": "data races and orders of accesses depend on timing; a test sees one interleaving", "anchors": ["src/server.rs:187-204", "src/router.rs:14", "src/router.rs:259-316"]}
{"id": "C85", "title": "A handler that does not return holds up only its own request", "statement": "Whatever handlers do not return, every other request whose handlers return can still be answered.", "quantifier": "every program of registrations, all handlers, every reachable state, every number of worker threads", "why_tests_cant": "a test cannot wait for ever, nor try all numbers of stuck requests and threads", "anchors": ["src/server.rs:197", "src/router.rs:259-316", "octane_macros/src/lib.rs:115-148"]}
{"id": "C86", "title": "Ambiguous lengths are refused", "statement": "A request with several different Content-Length headers, or one that is not a number, is answered 400 and no handler is run (RFC 7230, 3.3.3).", "quantifier": "every request, segmentation and router", "why_tests_cant": "the set of header combinations is infinite, and a wrong length only shows together with what follows the head", "anchors": ["src/request.rs", "src/server.rs:167-212"]}
{"id": "C87", "title": "Absolute-form targets are served as their path", "statement": "A request line with a target in absolute form, `http://host/path`, is answered as `/path` is (RFC 7230, 5.3.2).", "quantifier": "every target, router and request", "why_tests_cant": "no bound on paths and routers; the claim compares the answers to two requests", "anchors": ["src/path.rs", "src/request.rs", "src/router.rs"]}
{"id": "C88", "title": "Repeated Host headers are refused", "statement": "An HTTP/1.1 request with more than one Host header is answered 400 and no handler is run (RFC 7230, 5.4).", "quantifier": "every request, segmentation and router", "why_tests_cant": "any number and any values of headers in any position", "anchors": ["src/http/http11.rs:4-15", "src/http/mod.rs:24-45"]}
{"id": "C89", "title": "Other versions of HTTP are refused", "statement": "A request that names a version of HTTP other than 1.0 and 1.1 is answered 505 and no handler is run (RFC 7231, 6.6.6).", "quantifier": "every version token, request and router", "why_tests_cant": "infinitely many version tokens", "anchors": ["src/http/mod.rs:24-45", "src/request.rs"]}
{"id": "C90", "title": "headers_sent tells whether something was sent", "statement": "`headers_sent` is false until `send` or a successful `send_file` and true from then on, as documented.", "quantifier": "every sequence of response operations", "why_tests_cant": "sequences of operations of any length", "anchors": ["src/responder.rs:298-317"]}
{"id": "C91", "title": "Every answer has a Date", "statement": "Every answer a client can read carries a Date header with the time of the answer (RFC 7231, 7.1.1.2). An answer that a handler made has one, if it is not set by hand, exactly if the default headers were set or something was sent that is not a file.", "quantifier": "every request, handler and clock reading", "why_tests_cant": "all sequences of operations of handlers and all clock readings", "anchors": ["src/responder.rs:138-164", "src/responder.rs:221-231", "src/error.rs:41-61"]}
{"id": "C92", "title": "Memory in proportion to what was sent", "statement": "Serving a connection never needs more memory than in proportion to what the client has sent: if the allocator can give what was sent and one more read buffer, the process is not aborted for want of memory.", "quantifier": "every server, every allocator, every byte stream and segmentation", "why_tests_cant": "all byte streams and all declared lengths", "anchors": ["src/request.rs:296-323", "octane_http/src/http1x/mod.rs:17-51"]}
{"id": "C93", "title": "Reading the head takes time in proportion to its length", "statement": "The number of byte comparisons made to find the end of the request head is at most in proportion to the bytes sent, however they arrive.", "quantifier": "every byte stream and segmentation", "why_tests_cant": "asymptotic: about all lengths", "anchors": ["octane_http/src/http1x/mod.rs:26-44", "octane_http/src/http1x/mod.rs:54-72"]}
{"id": "C94", "title": "Parsing the headers takes time in proportion to their length", "statement": "Splitting the header block and collecting the values by name takes comparisons and written bytes at most in proportion to the block.", "quantifier": "every header block, faithful or not", "why_tests_cant": "asymptotic: about all blocks", "anchors": ["src/request.rs:206-230", "src/util.rs:18-60"]}
{"id": "C95", "title": "Finding the handlers of a request", "statement": "However many routes there are, the lookup visits at most one node for each segment of the path and each pattern of the method (or of any method), besides the roots of the two trees; without URL variables at most two for each segment, besides the roots. It visits exactly the different beginnings of patterns that permit the path. Choosing the next handler looks at three lists at most.", "quantifier": "every program of registrations and mounts, request, with and without URL variables", "why_tests_cant": "all route tables and paths", "anchors": ["src/path.rs:234-255", "src/router.rs:259-316"]}
{"id": "C96", "title": "with_type accepts short names", "statement": "with_type(\"json\") sets the Content-Type to the media type of that short name, with_type(\"application/json\") to the type itself. It holds exactly for full types.", "quantifier": "every response, every short name of the media type table and every full type", "why_tests_cant": "the names are those of a table of extensions; which ones fail is only visible for all", "anchors": ["src/responder.rs:184-190", "src/constants.rs"]}
{"id": "C97", "title": "Expect: 100-continue is answered", "statement": "A client that announces a body with Expect: 100-continue and waits before sending it gets an answer.", "quantifier": "every request with a body, every part of the body sent before waiting, every server", "why_tests_cant": "about all clients that wait; the absence of an answer is not a test result", "anchors": ["octane_http/src/http1x/mod.rs:26-44", "src/request.rs:304-321"]}
{"id": "C98", "title": "No body after 1xx, 204, 304", "statement": "Answers with status 1xx, 204 or 304 have no body, and 1xx and 204 no Content-Length.", "quantifier": "every request and every response handlers can leave", "why_tests_cant": "all handlers", "anchors": ["src/responder.rs:52-110", "src/server.rs:198-203"]}
{"id": "C99", "title": "The end of the connection is announced", "statement": "Every connection is closed after one answer, so every answer carries Connection: close.", "quantifier": "every request, response and error page", "why_tests_cant": "all handlers and all pages", "anchors": ["src/server.rs:173-223", "src/responder.rs:296-330"]}
{"id": "C100", "title": "White space before the colon is refused", "statement": "A request with white space between a header's name and the colon is answered by 400 and reaches no handler.", "quantifier": "every head with such a line, faithful or not, every server", "why_tests_cant": "all heads", "anchors": ["src/request.rs:144-163", "src/server.rs:175-177"]}
{"id": "C101", "title": "White space behind a value is not part of it", "statement": "Optional white space before and after a header value is not part of the value.", "quantifier": "every header block, faithful or not", "why_tests_cant": "all blocks", "anchors": ["src/request.rs:144-163"]}
{"id": "C102", "title": "HEAD is answered like GET", "statement": "With handlers that do not look at the request, a HEAD request gets the status code the GET gets.", "quantifier": "every program of registrations, every well-formed request", "why_tests_cant": "all route tables", "anchors": ["src/router.rs:56-205", "src/router.rs:259-316"]}
{"id": "C103", "title": "Nothing is left unread at closing", "statement": "When an answer is sent, nothing the client sent is left unread (closing would reset the connection and may lose the answer).", "quantifier": "every execution of the server, every connection", "why_tests_cant": "all interleavings and all segmentations", "anchors": ["octane_http/src/http1x/mod.rs:26-44", "src/request.rs:304-321", "src/server.rs:173-223"]}
{"id": "C104", "title": "The whole process: handlers of all connections at the same time", "statement": "Whatever connections are opened, however their bytes arrive, however tasks and handlers interleave on the worker threads: every connection whose request has been read is exactly one run of the handlers that apply to the request in its own bytes, the others run none; what a client is sent is the outcome of its own run (or the 400 page if it sent no head); and the shared state is what those runs, taking turns, make of it. With at most one access per request, or with several of which all but one can change places with those of other requests, all is as if the requests were handled one after the other.", "quantifier": "every execution of the process: any connections, segmentations, interleavings, number of threads, handlers (arbitrary programs), failures of clients and listeners", "why_tests_cant": "quantifies over all interleavings of all connections and over all handlers", "anchors": ["src/server.rs:150-223", "src/constants.rs:55-71", "src/request.rs:304-323", "octane_http/src/http1x/mod.rs:26-44", "src/router.rs:259-316"]}
{"id": "C105", "title": "A handler that does not return holds up only its own connection", "statement": "From every state of the process every connection whose client has sent its request (or closed) and whose handlers return can come to its end, whatever the handlers of other connections do.", "quantifier": "every reachable state of the process, every number of threads, all handlers, all connections in any phase", "why_tests_cant": "all reachable states; liveness cannot be tested", "anchors": ["src/server.rs:150-223", "src/constants.rs:55-71", "src/router.rs:259-316"]}
{"id": "C106", "title": "Nothing is served over TLS before the handshake", "statement": "Of a TLS connection nothing is read as a request, no handler runs for it and nothing is answered on it until its own handshake has succeeded; if the handshake fails the connection is dropped with its bytes unread and stays so; without the TLS feature or listener there are no TLS connections.", "quantifier": "every execution of the process: any connections, order of events, failures, handlers, number of threads", "why_tests_cant": "quantifies over all orders of events of all connections", "anchors": ["src/server_builder.rs:49-103", "src/server.rs:127-163"]}
{"id": "C107", "title": "Every connection comes to its end, with handlers on threads", "statement": "Under a fair scheduler, as long as fewer connections than there are worker threads have handlers that do not return, a worker thread is free again and again, and every other connection whose client does not keep the server waiting comes to its end and stays there; if no write and no handshake of it fails, the end is a complete answer or a panic.", "quantifier": "every server with plain registrations, every infinite fair execution: any connections, clients, order of events, handlers with any accesses to shared state", "why_tests_cant": "quantifies over infinite executions and all fair schedulers", "anchors": ["src/server.rs:150-223", "src/constants.rs:55-71", "src/router.rs:259-316", "src/server_builder.rs:33-103"]}
{"id": "C108", "title": "Registrations that do not apply do not matter", "statement": "What a server does with a connection depends, of all its registrations, only on those that apply to the method and path of the request in its bytes, and on their order: registering anything else, anywhere in between or in mounted routers, changes neither the answer nor the effects, and two registrations that never apply to the same request may change places.", "quantifier": "every pair of registration programs with the same applicable registrations, every byte stream, segmentation, state and handlers", "why_tests_cant": "quantifies over pairs of registration programs and all requests", "anchors": ["src/router.rs:56-316", "src/path.rs:206-300", "src/server.rs:167-212"]}
{"id": "C109", "title": "The date computation never overflows", "statement": "Whatever the clock reads from 1970 to the last second that fits, no intermediate result of the date computation leaves the range of `i64`, so debug and release builds compute the same date and neither panics.", "quantifier": "every clock reading from 0 to i64::MAX, every overflow behaviour", "why_tests_cant": "2^63 readings; the extreme ones cannot be set on a test machine", "anchors": ["src/time.rs:29-41", "src/time.rs:99-153", "src/constants.rs:17-21"]}
{"id": "C110", "title": "Spellings of a target are one request", "statement": "Two requests that differ only in the spelling of the target are the same request to the server if the targets name the same path (doubled slashes, `.`, a name followed by `..`, a slash at the end): whatever is registered and whatever the handlers do, answer and effects are the same. Targets that name different paths give the handlers different requests.", "quantifier": "every pair of spellings, every server, handler, state and segmentation", "why_tests_cant": "infinitely many spellings of every path; handlers are arbitrary", "anchors": ["src/path.rs:44-66", "src/request.rs:87-110", "src/server.rs:167-212"]}
{"id": "C111", "title": "An empty line before the request is ignored", "statement": "An empty line before the request line is ignored (RFC 7230, 3.5).", "quantifier": "every request, server and segmentation", "why_tests_cant": "tests do not send empty lines before requests", "anchors": ["octane_http/src/http1x/mod.rs:16-50", "octane_http/src/http1x/mod.rs:74-81", "src/request.rs:87-110", "src/server.rs:172-186"]}
{"id": "C112", "title": "A path registered for another method", "statement": "A request to whose path something is registered, but not for its method, is answered 405 with the list of methods in Allow (RFC 7231, 6.5.5).", "quantifier": "every program of registrations, every request and state", "why_tests_cant": "all combinations of methods and patterns", "anchors": ["src/router.rs:259-330", "src/server.rs:193-204"]}
{"id": "C113", "title": "A query takes no more room than its text", "statement": "Decoding never makes a string longer. The keys and values a query is parsed into, with one byte for every entry, take at most one byte more than the text of the query, also for extended queries, where every entry of every array and object counts. What get_query and get_extended_query return takes at most two bytes more than the target of the request.", "quantifier": "every string, every target, both settings of the feature", "why_tests_cant": "no input of a test can show that none grows; `%80` to `%FF` become two bytes", "anchors": ["src/query.rs:3-37", "src/query.rs:119-140", "src/query.rs:196-258", "src/path.rs:17-25", "src/path.rs:44-59", "src/request.rs:338-347"]}
{"id": "C114", "title": "What a client is sent depends on the other clients only through what its handlers read", "statement": "Take a client that sends certain bytes, and suppose that nothing its handlers read in the shared state matters to their result (they may change it). Then there is one outcome such that in every execution, with any other clients, any order of events and any number of worker threads, a connection of that client is answered with that outcome or not yet answered; and while the clock stands still, what it has been sent is always a beginning of one answer, byte for byte, and all of it when the connection is finished.", "quantifier": "every server set up through the public API, every client, every two executions with whatever other clients, accesses of the shared state and order of events", "why_tests_cant": "a test runs a few interleavings; the claim compares every execution with every other", "anchors": ["src/server.rs:124-223", "src/constants.rs:55-71", "src/request.rs:304-323", "octane_http/src/http1x/mod.rs:26-44", "src/router.rs:259-316"]}
{"id": "C115", "title": "The error page tells the error", "statement": "The page that comes with an error status names the code of that status and its phrase, in markup whose tags match.", "quantifier": "every status of the table, every clock reading since 1970, every enumeration order", "why_tests_cant": "sixty-one statuses; a test of the 404 page passes", "anchors": ["src/constants.rs:22", "src/error.rs:34-62", "octane_http/src/lib.rs:53-115"]}
{"id": "C116", "title": "Header lines may be reordered, recased and combined", "statement": "Two requests that differ only in their header lines are answered the same, with the same effects, if for every name the values of the lines with that name, joined by a comma and a blank in their order, are the same; provided the handlers look headers up by name and do not look at the raw lines. So lines with different names may change places, names may be written in other letters, and a value may be spread over several lines.", "quantifier": "every pair of such requests, every server set up through the API with such handlers, every state and segmentation", "why_tests_cant": "orders and spellings multiply; a test fixes one", "anchors": ["src/request.rs:206-230", "src/request.rs:304-323", "src/http/http11.rs:4-15", "src/http/http10.rs:5-19", "src/server.rs:167-212"]}
{"id": "C117", "title": "Spelling of patterns and names of variables do not matter", "statement": "If in the registrations of a server, mounted routers included, patterns are spelled in another way that names the same segments, and variables are given other names that keep different ones different, with the handlers reading them by those names, then every connection is answered the same, with the same effects.", "quantifier": "every registration program, every spelling, every injective renaming, every server, handler, state and byte stream", "why_tests_cant": "a test compares a few pairs of patterns", "anchors": ["src/path.rs:44-59", "src/path.rs:68-96", "src/path.rs:208-283", "src/router.rs:234-330", "src/router.rs:416-475", "src/server.rs:167-212"]}
{"id": "C118", "title": "Parsing a query takes time in proportion to its length", "statement": "Decoding a string calls the character iterator at most three times per character and once more. Exactly: once per character and once for the end, and twice more for every percent sign, or once more for one that comes last. Parsing a query of n bytes takes at most 6(n+1) steps, an extended query 7(n+1): characters looked at while splitting and searching, calls of the iterator while decoding, bytes copied, and operations on maps with the bytes of their keys. Without the feature faithful it takes no fewer than two steps per character.", "quantifier": "every string, both settings of the feature", "why_tests_cant": "timing tests show averages of a few inputs; the bound is for all of them", "anchors": ["src/query.rs:3-37", "src/query.rs:49-100", "src/query.rs:119-140", "src/query.rs:196-258"]}
{"id": "C119", "title": "How deep a request makes the lookup call itself", "statement": "Looking up a route is a recursion driven by the request. Whatever path a client asks for, the recursion is at most one call deeper than the longest registered pattern, so no path can exhaust the stack: exactly one call deeper than the longest beginning of a registered pattern that permits the path.", "quantifier": "every program of registrations and mounts, every path and method, with and without URL variables", "why_tests_cant": "a test shows that some long path does no harm, not that none does", "anchors": ["src/path.rs:234-255", "src/router.rs:259-316", "src/path.rs:208-232"]}
{"id": "C120", "title": "What switching off a feature changes", "statement": "The optional features change nothing for those who do not use them. Without `faithful` the server does what it does with it whenever it does not panic with it (the feature only refuses), `get_query` loses nothing but the entry of the empty name, and `get_extended_query` changes at most at the empty name. Without `cookies` it does the same whenever it does not panic with it, if no handler looks at cookies or sets any. Without `url_variables` it always does the same, if no registered pattern has a segment beginning with `:`.", "quantifier": "every server and state, every registration program, every connection, every query", "why_tests_cant": "tests are built with one set of features; comparing two builds over all requests is not something a test does", "anchors": ["src/request.rs:104", "src/request.rs:150-160", "src/query.rs:119-140", "src/query.rs:197-258", "src/request.rs:280-291", "src/responder.rs:496-513", "src/path.rs:234-255", "Cargo.toml:31"]}
{"id": "C121", "title": "The work for one request", "statement": "Apart from what its handlers do and from writing the answer, a request costs the server at most steps in proportion to the square of its head, two steps for every byte that follows the head (whatever length the head declares), and for every registered handler one step for every byte of the head; so no bytes a client sends can cost more than the square of their number plus that. The square is reached: no bound in proportion to the bytes holds. From below, a request that is read costs at least one step for every byte of its head, one for every character of its first line, four for every byte of its headers and one for every byte of its body, apart from the up to 511 bytes that come with the end of the head.", "quantifier": "every server built by any registration program, every state, every connection and every split of its bytes into reads", "why_tests_cant": "a test measures some requests; a bound over all of them, with the number of handlers as a parameter, cannot be measured", "anchors": ["src/server.rs:167-212", "octane_http/src/http1x/mod.rs:17-51", "src/request.rs:87-124", "src/request.rs:206-230", "src/request.rs:275-323", "src/request.rs:363-386", "src/cookie.rs:70-79", "src/path.rs:44-59", "src/http/mod.rs:24-36", "src/router.rs:259-340"]}
{"id": "C122", "title": "Handlers without branches are one handler", "statement": "When every handler applies a fixed sequence of operations to the response (which may depend on the request, its variables and the time) and then always returns the same Flow, the server does with every connection what it would do with a single handler that applies the operations of the registered handlers that apply, one after the other, up to the first that stops. So a handler may be split in two that follow each other.", "quantifier": "every program of registrations and mounts of such handlers, every byte stream, segmentation, end of the stream and state", "why_tests_cant": "a test runs some requests against some handlers; that the split of the work into handlers cannot be observed is a statement about all of them", "anchors": ["src/router.rs:259-318", "src/router.rs:350-355", "src/router.rs:376-383", "src/router.rs:404-411", "src/server.rs:167-212"]}
{"id": "C123", "title": "Applications that send texts", "statement": "An application all of whose handlers send a text shows a client the text of the last handler that runs for its request (the handlers that apply, in order of registration, up to the first that stops), as a 200 answer with exactly the headers Content-Length, Date and Content-Type: text/html, and the 404 page if none applies. In particular the program in the documentation of the crate shows \"Hello, World\" exactly to a GET of a target that names `/`.", "quantifier": "every such application, every byte stream with an understandable request, every segmentation and state", "why_tests_cant": "tests can only sample requests; \"to nothing else\" is a statement about all byte streams", "anchors": ["src/lib.rs:24-41", "src/router.rs:259-318", "src/responder.rs:138-166", "src/server.rs:167-212"]}
{"id": "C124", "title": "The tests of the repository, for all requests", "statement": "What the test programs under `tests/` try with single requests holds for every request: the text of `tests/server.rs` and `tests/router.rs` is shown for exactly the registered paths and methods, in mounted routers too; the handler of `tests/url_variables.rs` sees as its variable exactly the segment of the path, so it answers exactly `/foo/bar`; the handler of `tests/headers.rs` sees exactly the User-Agent that was sent. A failing assertion in a handler leaves the client without any answer.", "quantifier": "every text and value, every byte stream with an understandable request, every segmentation, order of hash maps and state", "why_tests_cant": "the tests of the repository try one request each", "anchors": ["tests/server.rs:18-62", "tests/router.rs:5-39", "tests/url_variables.rs:5-15", "tests/headers.rs:6-15", "src/router.rs:206-318"]}
{"id": "C125", "title": "The examples of the documentation", "statement": "The applications in the documentation of Response, Cookie and Octane::with_router answer a GET of `/` as their text and comments say: the header that was set is there, the assertions hold, the status, the redirect, the cookie, the charset and the file arrive, and a mounted router answers GET and POST with its two texts; every other request gets the 404 page.", "quantifier": "every server configuration, state, byte stream with an understandable request and segmentation", "why_tests_cant": "the documentation tests only compile these programs (no request is made to them); what a client gets is a statement about all requests", "anchors": ["src/responder.rs:78-98", "src/responder.rs:101-118", "src/responder.rs:168-190", "src/responder.rs:202-231", "src/responder.rs:269-290", "src/responder.rs:299-317", "src/responder.rs:321-366", "src/responder.rs:369-412", "src/responder.rs:415-432", "src/cookie.rs:13-28", "src/server.rs:84-106"]}
{"id": "C126", "title": "The size of the route tables", "statement": "The tables of a router are as big as its registrations require and no bigger: a tree for exactly the methods named, one node for every different beginning of the patterns, one list for every different pattern (names of variables aside), one entry for every accepted registration; nothing is lost, replaced or doubled, by mounting neither, and a refused registration adds at most an empty tree.", "quantifier": "all programs of registrations, middleware and nested mounts, all hash map orders", "why_tests_cant": "a test can only look up paths; how many nodes and entries a program of any length leaves behind is a statement about all programs", "anchors": ["src/path.rs:145-169", "src/path.rs:208-244", "src/router.rs:234-255", "src/router.rs:416-433"]}
{"id": "C127", "title": "The cost of setting up a router", "statement": "Setting up a router calls PathNode::insert at most a constant number of times for every call of the program.", "quantifier": "all programs of registrations, middleware and nested mounts, all hash map orders", "why_tests_cant": "needs all nestings of mounts; no test counts insertions", "anchors": ["src/path.rs:400-416", "src/router.rs:234-255", "src/router.rs:416-433", "src/server.rs:84-106"]}
{"id": "C128", "title": "The number of open connections is limited", "statement": "There is a limit to the connections the server holds open at the same time, and to what they keep in memory.", "quantifier": "all programs, all numbers of clients, all orders of events, all further events", "why_tests_cant": "needs an unbounded number of clients and unbounded waiting; a test waits for a finite time", "anchors": ["src/server.rs:155-163", "src/server_builder.rs:29-49", "src/server_builder.rs:51-110", "src/constants.rs:55-59", "octane_http/src/http1x/mod.rs:17-51", "src/request.rs:296-323"]}
{"id": "C129", "title": "A form arrives as it was filled in", "statement": "When a browser sends the fields of a form with GET, the handlers find in get_query, for every name, the last value that was filled in.", "quantifier": "every list of fields with any names and values, every path, every segmentation", "why_tests_cant": "a test fills in a few fields; the claim is about every text in every position", "anchors": ["src/query.rs:3-37", "src/query.rs:119-141", "src/request.rs:325-345", "src/path.rs"]}
{"id": "C130", "title": "Headers nobody knows are ignored", "statement": "A header whose name is none of content-length, cookie and host, and at which no handler looks, changes nothing: the answer, the effects and the end of the connection are the same with it and without it, wherever it stands in the head and whatever its value is.", "quantifier": "every server, every program, every request with a good head, every header name and value, every position, every segmentation", "why_tests_cant": "a test adds one header to one request; the claim is about every name, every value and every place", "anchors": ["src/http/http11.rs:4-15", "src/http/http10.rs:5-19", "src/request.rs:275-323", "src/server.rs:167-212"]}
{"id": "C131", "title": "A URL variable names one entry of a directory", "statement": "Every URL variable that a handler sees is the name of one entry of a directory: it is not empty, not `.` or `..`, and contains no slash, no space and no CRLF. So a handler that puts it behind the name of a directory and a slash names an entry of that directory and nothing else.", "quantifier": "every stream of bytes from a client, every list of registrations, every handler that runs, every variable, every directory", "why_tests_cant": "a test tries a few traversals; the claim is about all bytes a client can send", "anchors": ["src/path.rs:44-59", "src/path.rs:234-283", "src/router.rs:259-345", "src/request.rs:275-323"]}
{"id": "C132", "title": "An application that sends the files of a directory shows no other files", "statement": "An application with a handler that sends the file of a directory named by a URL variable, among whatever else it does, tells a client nothing about any file that is not an entry of that directory: if two disks have the same entries in it and differ anywhere else, every connection is answered the same, with the same effects, whatever the client sends.", "quantifier": "every server, every other registration, every pattern, directory, pair of disks, state and byte stream", "why_tests_cant": "a test tries some traversals against one tree; the claim compares the behaviour on all pairs of disks for all byte streams", "anchors": ["src/responder.rs:221-231", "src/file_handler.rs:33-54", "src/path.rs:44-59", "src/router.rs:259-345", "src/request.rs:423-430"]}
{"id": "C133", "title": "What follows a complete request does not matter", "statement": "Once the segments received contain a complete request, the outcome (answer, effects, or panic) is decided: it is the same whatever segments are delivered afterwards and whether the client closes, breaks the connection or stays silent, and the server does not wait. Before the head is complete the end of the stream decides: the 400 page if the client closes, a panic if the connection breaks, waiting if it is silent; before the body is complete, waiting if it is silent and a panic otherwise.", "quantifier": "every server, state, stream cut into any segments, every continuation and every end of the stream", "why_tests_cant": "a test sends one request and closes or not; the claim is about all streams, all continuations and all ends", "anchors": ["octane_http/src/http1x/mod.rs:17-51", "src/request.rs:296-324", "src/server.rs:167-212"]}
{"id": "C134", "title": "Targets of no known form are refused", "statement": "A request whose target is in none of the forms of RFC 7230, 5.3 (it does not begin with a slash, a scheme or a host with a port, and is not the asterisk) is answered by 400.", "quantifier": "every server, every well-formed request with such a target, every segmentation", "why_tests_cant": "no bound on targets, routers and requests; the tests send targets that begin with a slash", "anchors": ["src/path.rs:45-60", "src/request.rs:87-94"]}
{"id": "C135", "title": "Folded header lines are refused or unfolded", "statement": "A header line that begins with a blank continues the line before it (RFC 7230, 3.2.4): the request is refused with 400, or answered as the one in which it is all one line.", "quantifier": "every server, every head with such a line, with the feature faithful and without it", "why_tests_cant": "no bound on heads; the tests contain no folded line", "anchors": ["src/request.rs:144-162", "src/request.rs:206-227"]}
{"id": "C136", "title": "Bytes outside ASCII in header values are opaque", "statement": "The bytes from 0x80 on in the value of a header nobody looks at do not matter (RFC 7230, 3.2.4): the request is answered as without that header. If the request is not refused without the header, it holds exactly if the value is UTF-8.", "quantifier": "every server, every well-formed request, every value of such bytes", "why_tests_cant": "no bound on values and requests; the tests send ASCII", "anchors": ["octane_http/src/http1x/mod.rs:17-51"]}
{"id": "C137", "title": "A request of HTTP/1.0 needs no header", "statement": "HTTP/1.0 asks for no header: a request without any is answered as the same request with one header that nobody looks at.", "quantifier": "every server, every well-formed request of HTTP/1.0", "why_tests_cant": "no bound on requests and routers; the clients in the tests always send headers", "anchors": ["octane_http/src/http1x/mod.rs:17-51", "octane_http/src/http1x/mod.rs:75-81"]}
{"id": "C138", "title": "Every answer says HTTP/1.1", "statement": "Every answer, including those to requests that are not understood, begins with HTTP/1.1, whatever version the client speaks, unless a handler chooses another version. Of the operations on a response, only those that name a version change it. More generally, what holds of the empty response and is destroyed by no handler holds of every answer that is not an error page.", "quantifier": "every server, byte stream, segmentation and state; every handler that leaves the version alone", "why_tests_cant": "no bound on streams, routers and handlers; the tests look at one answer", "anchors": ["src/responder.rs:445-457", "src/responder.rs:484-495", "src/error.rs:41-61", "src/server.rs:167-212"]}
{"id": "C139", "title": "Operations on a response do not panic", "statement": "No sequence of operations on a response panics, unless the clock is before 1970 or a file without a name is found. So an application whose handlers do nothing else answers every request that the server can read.", "quantifier": "every sequence of operations; every program of such handlers, every request, segmentation and state", "why_tests_cant": "no bound on sequences of operations, programs and requests", "anchors": ["src/responder.rs:95-435", "src/file_handler.rs:33-54", "src/time.rs:29-41"]}
{"id": "C140", "title": "The size of an answer", "statement": "An answer has exactly the bytes of its status line, for every header four more than its name and value, its cookie lines, a line end and its body; the order in which a hash map is enumerated does not change the size. What the server answers by itself has at most 313 bytes, whatever a client sends and whenever: a longer answer is what the handlers left.", "quantifier": "every response, enumeration order, clock reading, server, byte stream, segmentation and state", "why_tests_cant": "no bound on responses, streams and routers; sizes over all clock readings", "anchors": ["src/responder.rs:193-198", "src/responder.rs:478-513", "src/error.rs:41-61", "src/server.rs:187-223", "src/time.rs:42-66"]}
{"id": "C141", "title": "The keys of a derived object are the names of its fields", "statement": "The derived ToJSON writes an object with the names of the fields as keys, and the derived FromJSON reads every such object whose values it can read, in whatever order its members are.", "quantifier": "every struct of private fields, every value, every object", "why_tests_cant": "no bound on fields, values and objects; the names are arbitrary", "anchors": ["octane_macros/src/json.rs:99-121", "octane_macros/src/json.rs:256-277"]}
{"id": "C142", "title": "The cookies of several Cookie lines are the cookies of all of them", "statement": "A request may carry its cookies on several Cookie lines (as HTTP/2 front ends forward them); the handlers find the cookies of all lines, in order.", "quantifier": "every well-formed request, every number of Cookie lines with any cookies that can be written, every segmentation", "why_tests_cant": "no bound on the lines and cookies; lines of any spelling of the name between any other headers", "anchors": ["src/request.rs:215-218", "src/request.rs:280-287", "src/cookie.rs:70-79"]}
{"id": "C143", "title": "No answer has two headers of one name", "statement": "No answer has two headers whose names agree up to case, Set-Cookie excepted (RFC 7230 section 3.2.2), whatever the handlers set.", "quantifier": "every server, request and sequence of response operations", "why_tests_cant": "no bound on operations and names; holds for all clock readings and enumeration orders", "anchors": ["src/responder.rs:63", "src/responder.rs:95-97", "src/responder.rs:148-164"]}
{"id": "C144", "title": "The whole life of an application", "statement": "From the call of listen on, whatever the operating system grants, the clients do and the tasks interleave: the connections are those of clients that came while their listener was open; every one of them is served as C104 says; a client of the plain port is accepted only after the callback has returned and the port is open, a TLS client only if TLS is compiled in and the files last configured are good; a listener is open only while it holds its port, so with one port for both never both are; keep-alive and worker-thread settings change nothing.", "quantifier": "every execution: every interleaving of start-up steps, connections and handlers; every configuration history, every file content", "why_tests_cant": "unbounded executions of three kinds of concurrent tasks; the tests start no server", "anchors": ["src/server.rs:125-168", "src/server_builder.rs:20-47", "src/tls/rustls.rs:13-26", "src/config.rs:229-241"]}
{"id": "C145", "title": "Nobody is served before the callback", "statement": "No client is accepted before the callback given to listen has been called.", "quantifier": "every execution of start-up and process, every configuration", "why_tests_cant": "an interleaving of the spawned TLS task with the caller's task", "anchors": ["src/server.rs:131-156"]}
{"id": "C146", "title": "Nobody is served after listen has failed", "statement": "When listen has come to its end (the port could not be opened, accepting failed, or the callback panicked) no client is accepted any more.", "quantifier": "every execution of start-up and process, every configuration", "why_tests_cant": "an interleaving in which the port is taken and clients come afterwards", "anchors": ["src/server.rs:149-168", "src/server_builder.rs:33-47"]}
{"id": "C147", "title": "Targets with characters no URI has are refused", "statement": "A request whose target has a character that no URI has (a control character, a line feed, a space, anything outside ASCII) is answered by 400 (RFC 7230 section 3.1.1).", "quantifier": "every server, every well-formed request with such a target, every segmentation", "why_tests_cant": "every target over all of Unicode; tests try a few", "anchors": ["src/request.rs:87-124", "src/path.rs:44-59"]}
{"id": "C148", "title": "An application comes to serve its clients", "statement": "Under a fair scheduler, if the callback returns, no call to the operating system fails and the two ports differ, the plain port comes to be open and stays open, whatever clients and handlers do meanwhile and whatever becomes of the TLS listener; the TLS port too, if its own calls succeed and the configured files are good. From then on every client that does not keep the server waiting is accepted when it comes and its connection comes to its end, with a complete answer or a panic, as long as fewer connections than there are worker threads have handlers that do not return.", "quantifier": "every configuration, every server with plain registrations, every infinite fair execution from the call of listen on, with start-up, clients and handlers in any order", "why_tests_cant": "liveness over infinite executions; a test sees one finite schedule", "anchors": ["src/server.rs:125-165", "src/server_builder.rs:20-45", "src/constants.rs:55-59"]}
{"id": "C149", "title": "Requests that are too large are refused", "statement": "There is a size beyond which a request is refused (400, 413, 414 or 431) before any handler is run.", "quantifier": "every limit, every server, every well-formed request, every segmentation", "why_tests_cant": "that there is no limit is a statement about requests of every size", "anchors": ["octane_http/src/http1x/mod.rs:17-52", "src/request.rs:296-323", "src/server.rs:167-212"]}
{"id": "C150", "title": "The name and value of a cookie add no attribute", "statement": "In a Set-Cookie header the attributes a client finds (RFC 6265, 5.2) are those the handler has set, whatever the name and the value of the cookie are; so text of the request used as a value cannot set Domain, Path or other attributes.", "quantifier": "every cookie with any name, value and attributes; every request", "why_tests_cant": "all texts of Unicode as names and values", "anchors": ["src/cookie.rs:48-84", "src/responder.rs:409-412", "src/responder.rs:496-513"]}
{"id": "C151", "title": "get_query and get_extended_query agree", "statement": "For a query in which no name has the form k[...], get_query and get_extended_query give the same keys with the same values.", "quantifier": "every list of query tokens, every key, with and without faithful", "why_tests_cant": "all query strings; the two parsers are separate code", "anchors": ["src/query.rs:119-140", "src/query.rs:197-258", "src/request.rs:338-347"]}
{"id": "C152", "title": "What a request occupies while its handlers run", "statement": "When the handlers of a request run, the strings and byte vectors kept because of it have together at most nine times the length of its head, twice that of what follows the head, and four bytes; so at most nine times the bytes the client has sent. Of what follows the head no more is kept than was sent or than twice the declared length less one, since a body that came in full with the head is not copied. Beside nine times the head no more is kept than the declared length and 515 bytes, since a body that is copied is copied once. And no less is kept than the head with its blank line, the body the handlers get, the headers four times and the path three times. Exactly: the head with its blank line, what came after it with the last read of the head (at most 511 bytes), the body as long as declared if it had not come in full by then, the headers four times and the path three times. The body is not copied for the handlers, nor is anything copied for each handler but one pair of references for each of its variables. Nine is the smallest such factor.", "quantifier": "every server, every connection and every split of its bytes into reads; for the variables every registration program", "why_tests_cant": "all requests; a test measures the memory of some of them", "anchors": ["src/server.rs:167-196", "src/request.rs:275-323", "src/router.rs:259-316", "src/path.rs:257-273"]}
{"id": "C153", "title": "The examples of the router and the request", "statement": "The programs in the documentation of Octane, Route, Flow, the macros, RequestLine, Headers, MatchedRequest, get_query and QueryValue do what they show: 'Hello, World' comes for the method of the example and `/`, the assertion holds, the variable comes back with the type that was set, and what the handlers read (`headers.get(\"HeaderName\")`, `get_query().get(\"value\")`) is what the client sent.", "quantifier": "every server, every connection with an understandable request, every program that goes on with what the example has read", "why_tests_cant": "all requests; the doc tests only compile the programs and register the handlers", "anchors": ["src/router.rs:24-38", "src/router.rs:86-201", "src/router.rs:318-411", "src/request.rs:62-73", "src/request.rs:181-192", "src/request.rs:328-340", "src/request.rs:405-442", "src/query.rs:147-156", "src/server.rs:26-46"]}
{"id": "C154", "title": "All the work for a request, its answer included", "statement": "Everything the server does for a request, apart from its handlers and from sorting the matches, takes at most 5 (h+516)^2 + 39 (h+516) steps for a head of h bytes, two for every byte after it, for each registered handler two for every byte of the head, nine for every byte of the answer, and a constant. Forming and writing an answer takes at least one and at most six steps for each of its bytes, besides its phrase and a constant; six is reached. From below, all work together is at least that of C121 and two steps for every byte of the answer.", "quantifier": "every server, registration program, connection, split of its bytes into reads, and state; for the writing every response", "why_tests_cant": "all requests and responses; a test times some of them", "anchors": ["src/server.rs:167-223", "src/responder.rs:193-198", "src/responder.rs:478-513", "src/cookie.rs:82-84", "src/router.rs:259-316", "src/error.rs:41-61"]}
{"id": "C155", "title": "When a registered route can never be called", "statement": "Given that each registration before it either always stops or always hands on, a registration can never make a difference exactly if for each method it is for it cannot be asked for (a constant of its pattern has a blank or a CRLF in it, or a segment starts with `:` without url_variables) or an earlier registration for that method that stops has a pattern at least as general, segment by segment. Leaving it out, or exchanging its handler, changes the answer to no connection; otherwise there is a connection on which it is called.", "quantifier": "every server, registration program with mounted routers, position in it, handlers, connection and state", "why_tests_cant": "all programs and all connections; a test tries some of them", "anchors": ["src/router.rs:234-316", "src/path.rs:44-60", "src/path.rs:208-287", "src/request.rs:87-110", "src/server.rs:167-223"]}
{"id": "C156", "title": "Which bytes become the body", "statement": "A request that declares no length has no body. Otherwise its body is what follows the head up to the end of the read that completes the head, or the declared bytes if these are more. So it is exactly the declared bytes if and only if that read does not go beyond them; at most 511 bytes of a body can be undeclared ones, whatever the pieces, a body declared with 511 bytes or more is always exact, and for every length in between there are pieces of the same bytes that give it. Nothing else of the pieces can be seen in the answer.", "quantifier": "every server, stream that begins with a request, and every way to cut it into pieces", "why_tests_cant": "all streams and all ways to cut them; a test sends one body in one or two pieces", "anchors": ["octane_http/src/http1x/mod.rs:17-51", "src/request.rs:296-323", "src/server.rs:172-186"]}
{"id": "C157", "title": "Where accesses can change places the order does not matter", "statement": "If no access of a request reads what another request or anything else changes, and all changes commute, then once the requests have been handled the shared state and every reply are the same for every interleaving, every number of threads and every order: they are those of handling the requests one after the other in any order whatever. The same for the connections of the whole process.", "quantifier": "every program of registrations, all handlers with such accesses, every execution", "why_tests_cant": "all interleavings and all handlers; a test sees one order", "anchors": ["src/server.rs:187-204", "src/router.rs:14", "src/router.rs:259-316"]}
{"id": "C158", "title": "Every method can be routed by itself", "statement": "For every request method that is understood there is a program with which requests with that method are answered by a handler and requests with other methods for the same path are not found. What holds: this for GET, POST, PUT, DELETE, HEAD and PATCH with every path; a request for OPTIONS, TRACE or CONNECT is answered as if everything registered for one method were left out, and these three cannot be told apart by routing.", "quantifier": "every program of registrations, all handlers, every path, every request", "why_tests_cant": "all programs and all handlers; a test can only try some registrations", "anchors": ["src/router.rs:78-206", "src/router.rs:436-470", "src/request.rs:24-45", "src/request.rs:107-118", "src/server.rs:187-231"]}
{"id": "C159", "title": "When the order of two registrations matters", "statement": "Two registrations can be reached by one request exactly if both can be asked for, they are for a common method, and their patterns have at every place a variable in one of them or the same constant. Registrations can be put in any order that keeps the order of those that can be reached together without changing the answer to any connection; and behind registrations that hand on, two neighbours that can be reached together cannot be exchanged whatever their handlers. Behind registrations that each always stop or always hand on, two neighbours can be exchanged whatever their handlers exactly if they cannot be reached together or a registration for what both are for would be dead there (C155).", "quantifier": "every program of registrations, every rearrangement, all handlers, every connection", "why_tests_cant": "all rearrangements of all programs, all handlers and all requests", "anchors": ["src/router.rs:259-316", "src/router.rs:418-470", "src/path.rs:208-275", "src/server.rs:187-231"]}
{"id": "C160", "title": "When two sets of routes are the same", "statement": "Two lists of registrations, with names in place of the handlers, can stand for each other (whatever handlers the names stand for, whatever these share and however the registrations are made, mounted routers included, the two servers do the same with every connection) exactly if for every request they call the same names in the same order with the same URL variables.", "quantifier": "every two lists of registrations, all handlers that ask for variables by name, every program that makes the registrations, every connection", "why_tests_cant": "all handlers and all requests; equality of behaviour can only be refuted by a test", "anchors": ["src/router.rs:259-316", "src/router.rs:416-433", "src/path.rs:208-275", "src/server.rs:187-204"]}
{"id": "C161", "title": "A complete test suite for routes", "statement": "For all lists of registrations with patterns of at most N segments and constants among K there is one finite suite of connections, one request per method and per path of at most N+1 segments each a constant or a new one, at most 9(N+2)(|K|+1)^(N+1) of them, such that two lists of registrations can stand for each other exactly if servers whose handlers only note that they are called do the same with the connections of the suite.", "quantifier": "every K and N, every two lists of registrations over them, every program that makes them, every feature set", "why_tests_cant": "that the tests of a suite suffice is itself a statement about all other requests and all handlers", "anchors": ["src/router.rs:259-316", "src/router.rs:416-433", "src/path.rs:208-275", "src/server.rs:187-204"]}
{"id": "C162", "title": "Comparing two sets of routes by computation", "statement": "Whether two lists of registrations can stand for each other in the sense of C160 (all handlers, all programs that make them, all connections) is decided by a procedure that compares, for nine methods and finitely many paths made of the constants of the patterns and new segments, the names called and the values of the variables that occur in the patterns.", "quantifier": "every two lists of registrations that can be made, every feature set", "why_tests_cant": "the answer of the procedure is about all connections and all handlers", "anchors": ["src/router.rs:259-316", "src/router.rs:416-433", "src/path.rs:208-275", "src/server.rs:187-204"]}
{"id": "C163", "title": "How many tests routes need", "statement": "Even if all handlers may be tried, a list of connections that tells apart any two lists of registrations that behave differently, with patterns of at most N segments and constants among K, has at least six connections for each path of at most N segments among K: 6(1 + |K| + ... + |K|^N). The suite of C161 is such a list.", "quantifier": "every K of different constants that can be sent, every N, every list of connections in any segmentation, every feature set", "why_tests_cant": "a bound on all test suites", "anchors": ["src/router.rs:259-316", "src/router.rs:416-433", "src/path.rs:208-275", "src/server.rs:187-204"]}
{"id": "C164", "title": "When two sets of routes with stopping handlers are the same", "statement": "If some handlers are known never to hand on (they return Stop whenever they return), two lists of registrations can stand for each other, whatever the handlers do otherwise, exactly if for every request they call the same names in the same order with the same URL variables up to and including the first of those handlers. The suite of C161 finds this out, and so does a procedure like that of C162.", "quantifier": "every set of names known to stop, every two lists of registrations, all handlers that ask for variables by name, every program that makes the registrations, every connection", "why_tests_cant": "all handlers and all requests", "anchors": ["src/router.rs:259-316", "src/router.rs:416-433", "src/path.rs:208-275", "src/server.rs:187-204"]}
{"id": "C165", "title": "Routes that are the same for one connection are the same for the whole process", "statement": "Two servers that differ only in their registrations behave alike in every execution of the process, step by step, with or without the start-up of main before it, with any number of connections, threads and interleaved handlers that share state, whenever: the same registrations apply to every request that can be received; or one has left out a registration that is dead (C155); or one has changed the order only between registrations no request meets both (C159); or their tables can stand for each other on single connections, given which handlers never hand on (C160, C164).", "quantifier": "every execution of the process (any events in any order), every shared state, all handlers with any accesses to it, every program that makes the registrations", "why_tests_cant": "all interleavings of all handlers and all clients", "anchors": ["src/router.rs:259-316", "src/router.rs:416-433", "src/path.rs:208-275", "src/server.rs:187-204"]}
{"id": "C166", "title": "Comparing single connections is enough to compare processes", "statement": "Two lists of registrations can stand for each other in the whole process (all executions go through the same states, whatever the handlers do and however they interleave) exactly if they can on single connections, given which handlers never hand on; so the procedure of C164 decides this too.", "quantifier": "every set of names known to stop, every two lists of registrations, all handlers that ask for variables by name with any accesses to any shared state, every execution of the process", "why_tests_cant": "all interleavings of all handlers and all clients; the converse needs a request of any length for each difference", "anchors": ["src/router.rs:259-316", "src/router.rs:416-433", "src/path.rs:208-275", "src/server.rs:187-204"]}
{"id": "C167", "title": "When two handlers without branches do the same", "statement": "Two sequences of operations on a response (methods and writes to the public fields) do the same to every response exactly if they do the same to four test responses made from the header names they mention, so it can be computed; no three responses would do. If the operations of a handler are replaced by others that do the same, the server gives every connection the same outcome, the same state, and the same bytes up to the order of the header lines.", "quantifier": "every two sequences of operations, every response, every three candidate test responses, every application of such handlers and every connection", "why_tests_cant": "responses have arbitrary headers, lengths, character sets and cookies; that four tests suffice and three never do is a statement about all sequences", "anchors": ["src/responder.rs:95-98", "src/responder.rs:138-164", "src/responder.rs:184-190", "src/responder.rs:221-231", "src/responder.rs:287-296", "src/responder.rs:335-387", "src/responder.rs:409-432", "src/server.rs:187-204"]}
{"id": "C168", "title": "Writing the counter of a router", "statement": "The counter of a router is a public field. Whatever a program writes to it, at any time and at any depth of mounting, set-up panics exactly if a number does not fit into 64 bits, and handlers with different numbers below the largest run in the order of their numbers, handlers without a path being kept in the order in which they were added. Only writes that raise the counter leave the order of registration, and then the router does what it does without the writes. A handler with the largest number makes requests panic. As long as the numbers are different and below the largest, and those of handlers without a path in order, what is written makes no difference to any connection, whatever the handlers, exactly if registrations that some request reaches both (C159) are numbered in the order in which they were made.", "quantifier": "every program of registrations, mounts and writes to the counter, every enumeration order of the hash maps, every request and state", "why_tests_cant": "the counter can be written at any time with any of 2^64 values in any nesting of routers, and the order of the hash maps differs from run to run", "anchors": ["src/router.rs:212-219", "src/router.rs:234-255", "src/router.rs:259-316", "src/router.rs:416-433", "src/router.rs:460-467", "src/middlewares/mod.rs:3-6", "src/server.rs:104-106"]}
{"id": "C169", "title": "Writing the other fields of a router", "statement": "All fields of a router are public. A program may also replace, reorder and renumber the handlers without a path, drop the tree of a method, exchange the trees of two methods, insert any handler with any number into a tree, and take a tree apart and make it again with other handlers, numbers and paths. Whatever it does, with any numbers below the largest, equal ones included, a request runs the merge of three sequences: the matching handlers of its method sorted by number, the matching handlers for all methods sorted by number, and the handlers without a path as they are in the vector; at every point the sequence whose next handler has the smallest number goes on, the earlier one if equal. Handlers of one kind keep their order, and nothing else runs. Set-up panics exactly if an addition overflows.", "quantifier": "every program of registrations, mounts and writes to the public fields, every enumeration order of the hash maps, every request and state", "why_tests_cant": "the fields can be written in any order and any number of times, and with equal numbers the order depends on hash maps", "anchors": ["src/router.rs:212-219", "src/router.rs:234-255", "src/router.rs:259-316", "src/router.rs:416-433", "src/router.rs:460-467", "src/middlewares/mod.rs:3-6", "src/server.rs:104-106"]}
{"id": "C170", "title": "The counter of a router in a release build", "statement": "In a release build the additions to the numbers of handlers wrap around instead of panicking. Setting up a router then never panics, whatever a program writes to the public counters, and makes the same router as a build with overflow checks wherever that does not panic; in particular both builds agree on programs that write no counter and make fewer than 2^64 registrations. Handlers run in the order of their numbers modulo 2^64, so a handler registered later can run first although the counter was only ever raised. Exactly when this makes no difference is as in C168, with the numbers modulo 2^64.", "quantifier": "every program of registrations, mounts and writes to the counter, every enumeration order of the hash maps, every request and state", "why_tests_cant": "wrap-around needs counters near 2^64 and all orders of the hash maps", "anchors": ["src/router.rs:212-219", "src/router.rs:234-255", "src/router.rs:416-433", "src/router.rs:460-467"]}
{"id": "C171", "title": "How deep the route tables are", "statement": "Dropping (or cloning) the tree of a method calls itself to a depth of two more than the longest pattern registered under that method has segments, or once if there is none. The stacks of both iterators over it are never higher than one more than that number of segments, and get as high, in whatever order the hash maps are gone through. So what a router needs to be mounted, walked through or dropped is bounded by its longest pattern, not by the number of its routes.", "quantifier": "every program of registrations, middleware and nested mounts, every method, every hash-map enumeration order, every moment of an iteration", "why_tests_cant": "hash-map order is randomised per process and the height of the stack cannot be seen from outside", "anchors": ["src/path.rs:165-169", "src/path.rs:276-398", "src/router.rs:234-255"]}
{"id": "C172", "title": "Looking ahead loses nothing", "statement": "The iterator with two items of lookahead that percent-decoding runs on never panics and, whatever mixture of `next`, `peek` and setting `unpeek` it is used with, every call returns the item at the position the rules name: `next` the first item not yet taken, the first look after `unpeek` the same item, further looks the following ones. Right after a call of `next`, as the decoder uses it, the two looks after `unpeek` show the next two items. In general they do not: once two items are held, starting over shows the first and then nothing.", "quantifier": "every list of characters, every program of uses of the iterator", "why_tests_cant": "the decoder only ever uses it in one pattern, so tests of decoding cannot see the other states; the orders of calls are unbounded", "anchors": ["src/query.rs:39-99"]}
{"id": "C173", "title": "What the server says of itself", "statement": "Whatever bytes a connection delivers and however it ends, an answer is one of four: what the handlers left, if they left a body; the 404 page, if they left none; the 400 page, because there is no head or an HTTP/1.1 request has no Host; the 501 page, because the method is not known. In the last two cases no handler has run. So an answer with any other code (405, 408, 411, 413, 414, 417, 431, 500, 505 among them) was made by a handler.", "quantifier": "every server, state, byte stream, segmentation and end of the stream", "why_tests_cant": "which answers exist at all is a statement about every input; no number of requests shows that a code never comes", "anchors": ["src/server.rs:167-212", "src/error.rs:34-39"]}
{"id": "C174", "title": "Writing any field of a router in a release build", "statement": "In a release build the additions to the numbers of handlers wrap around. Whatever a program writes to the public fields of its routers (C169), setting up then never panics, makes the same router as a build with overflow checks wherever that does not panic, and a request runs the merge of the same three sequences, with numbers counted modulo 2^64. So a mounted handler with a large number can run before one that was added first, where the other build panics.", "quantifier": "every program of registrations, mounts and writes to the public fields, every enumeration order of the hash maps, every request and state", "why_tests_cant": "wrap-around needs numbers near 2^64, and with equal numbers the order depends on hash maps", "anchors": ["src/router.rs:212-219", "src/router.rs:234-255", "src/router.rs:259-316", "src/router.rs:416-433", "src/router.rs:460-467", "src/middlewares/mod.rs:3-6"]}
