{
 "claims": [
  {
   "property": "C01",
   "status": "proved",
   "theorems": [
    "Octane.C01_parsed_path_normal"
   ],
   "note": "Every accepted path string; the segments are normal."
  },
  {
   "property": "C02",
   "status": "proved",
   "theorems": [
    "Octane.C02_every_string_is_a_join",
    "Octane.C02_dotdot_rule",
    "Octane.C02_is_a_walk_from_the_root"
   ],
   "note": "Exact characterisation: accepted iff no prefix climbs above the root, and the result is an independently written right-to-left resolver."
  },
  {
   "property": "C03",
   "status": "proved",
   "theorems": [
    "Octane.C03_display_parse",
    "Octane.C03_redundant_separators"
   ],
   "note": ""
  },
  {
   "property": "C04",
   "status": "proved",
   "theorems": [
    "Octane.C04_no_traversal"
   ],
   "note": "Both conversions to a file-system path; symbolic links are outside the model."
  },
  {
   "property": "C05",
   "status": "proved",
   "theorems": [
    "Octane.C05_matches_iff",
    "Octane.C05_bindings",
    "Octane.C05_plain"
   ],
   "note": "With and without url_variables."
  },
  {
   "property": "C06",
   "status": "proved",
   "theorems": [
    "Octane.C06_concat_subtract"
   ],
   "note": ""
  },
  {
   "property": "C07",
   "status": "partial",
   "theorems": [
    "Octane.C07_counterexample",
    "Octane.C07_starts_with_only_prefixes_partial",
    "Octane.C07_starts_with_exact"
   ],
   "note": "False of the code: C07_counterexample. Proved for arguments not longer than the path, plus the exact behaviour."
  },
  {
   "property": "C08",
   "status": "proved",
   "theorems": [
    "Octane.C08_lookup_exact"
   ],
   "note": ""
  },
  {
   "property": "C09",
   "status": "proved",
   "theorems": [
    "Octane.C09_no_panic"
   ],
   "note": ""
  },
  {
   "property": "C10",
   "status": "proved",
   "theorems": [
    "Octane.C10_iterators"
   ],
   "note": "Every enumeration order of the hash maps."
  },
  {
   "property": "C11",
   "status": "proved",
   "theorems": [
    "Octane.C11_own_variables"
   ],
   "note": ""
  },
  {
   "property": "C12",
   "status": "proved",
   "theorems": [
    "Octane.C12_run_is_replay",
    "Octane.C12_parsed_method",
    "Octane.C12_registration_order"
   ],
   "note": "Fewer than 2^64 registrations (the counter is a u64); the request method is one the parser can produce (C12_parsed_method)."
  },
  {
   "property": "C13",
   "status": "proved",
   "theorems": [
    "Octane.C13_flow",
    "Octane.C13_stop_is_last"
   ],
   "note": ""
  },
  {
   "property": "C14",
   "status": "proved",
   "theorems": [
    "Octane.C14_method_isolation",
    "Octane.C14_any_method_runs"
   ],
   "note": ""
  },
  {
   "property": "C15",
   "status": "proved",
   "theorems": [
    "Octane.C15_mount_is_inline"
   ],
   "note": "Every enumeration order of the hash maps, nested mounts included."
  },
  {
   "property": "C16",
   "status": "proved",
   "theorems": [
    "Octane.C16_rejected_no_effect",
    "Octane.C16_error_iff"
   ],
   "note": ""
  },
  {
   "property": "C17",
   "status": "proved",
   "theorems": [
    "Octane.C17_no_panic",
    "Octane.C17_bounded"
   ],
   "note": ""
  },
  {
   "property": "C18",
   "status": "proved",
   "theorems": [
    "Octane.C18_decode_exact",
    "Octane.C18_no_percent",
    "Octane.C18_decode_encode",
    "Octane.C18_encoding_exists"
   ],
   "note": "decode is a four-line independent specification; the round trip holds for every encoding choice."
  },
  {
   "property": "C19",
   "status": "partial",
   "theorems": [
    "Octane.C19_counterexample",
    "Octane.C19_latin1",
    "Octane.C19_utf8_partial"
   ],
   "note": "False of the code (bytes are decoded as Latin-1): C19_counterexample. Proved exactly for ASCII strings and nothing else."
  },
  {
   "property": "C20",
   "status": "proved",
   "theorems": [
    "Octane.C20_every_query_has_tokens",
    "Octane.C20_last_value",
    "Octane.C20_round_trip"
   ],
   "note": "With and without faithful. The round trip needs a non-empty list of pairs (the empty query yields an empty key without faithful)."
  },
  {
   "property": "C21",
   "status": "partial",
   "theorems": [
    "Octane.C21_counterexample",
    "Octane.C21_query_kept_in_path",
    "Octane.C21_inner_pairs_partial",
    "Octane.C21_exact"
   ],
   "note": "False of the code: C21_counterexample and C21_query_kept_in_path. Proved: the inner pairs are correct, and exactly which query is returned for any path and tokens, from the bytes on (C21_exact)."
  },
  {
   "property": "C22",
   "status": "proved",
   "theorems": [
    "Octane.C22_extended_query",
    "Octane.C22_accessors"
   ],
   "note": "Names written k[..] are not percent-decoded by the code; the specification says so."
  },
  {
   "property": "C23",
   "status": "proved",
   "theorems": [
    "Octane.C23_first_occurrence"
   ],
   "note": ""
  },
  {
   "property": "C24",
   "status": "proved",
   "theorems": [
    "Octane.C24_split_lossless",
    "Octane.C24_empty_separator_diverges"
   ],
   "note": "With an empty separator the iterator never ends (C24_empty_separator_diverges)."
  },
  {
   "property": "C25",
   "status": "proved",
   "theorems": [
    "Octane.C25_head_from_bytes",
    "Octane.C25_segmentation"
   ],
   "note": "Every byte stream, segmentation and end of stream; also says exactly which heads are accepted."
  },
  {
   "property": "C26",
   "status": "partial",
   "theorems": [
    "Octane.C26_body_partial",
    "Octane.C26_body_no_trailing_partial",
    "Octane.C26_body_read",
    "Octane.C26_counterexample",
    "Octane.C26_body_overrun",
    "Octane.C26_false"
   ],
   "note": "False of the code: C26_counterexample (the same bytes give different bodies under different segmentations). Proved when no more than Content-Length bytes arrive together with the head, in particular when nothing follows the body; C26_body_overrun says what happens otherwise. C156 says exactly which bytes the body is for every segmentation, and that the full claim holds for requests that declare 0 or at least 511 bytes."
  },
  {
   "property": "C27",
   "status": "proved",
   "theorems": [
    "Octane.C27_every_text_is_lines",
    "Octane.C27_header_map",
    "Octane.C27_accepts",
    "Octane.C27_refuses"
   ],
   "note": "With and without faithful. Keys are looked up in lower case."
  },
  {
   "property": "C28",
   "status": "partial",
   "theorems": [
    "Octane.C28_wellformed_partial",
    "Octane.C28_no_crlf_nul",
    "Octane.C28_counterexample",
    "Octane.C28_iff"
   ],
   "note": "False of the code at U+001F: C28_counterexample. Proved for every other control character. C28_iff: an accepted value has a control character exactly if it has U+001F."
  },
  {
   "property": "C29",
   "status": "proved",
   "theorems": [
    "Octane.C29_roundtrip",
    "Octane.C29_every_line_is_tokens",
    "Octane.C29_refuses",
    "Octane.C29_panics"
   ],
   "note": "C29_panics says exactly which lines make the parser panic instead of answering (see C30)."
  },
  {
   "property": "C30",
   "status": "partial",
   "theorems": [
    "Octane.C30_exact_partial",
    "Octane.C30_counterexample",
    "Octane.C30_abort"
   ],
   "note": "False of the code: C30_counterexample lists six kinds of requests that panic, C30_abort one that aborts the process. C30_exact_partial characterises exactly the byte streams that are answered."
  },
  {
   "property": "C31",
   "status": "proved",
   "theorems": [
    "Octane.C31_keep_alive"
   ],
   "note": ""
  },
  {
   "property": "C32",
   "status": "proved",
   "theorems": [
    "Octane.C32_refused",
    "Octane.C32_refused_bytes",
    "Octane.C32_passes"
   ],
   "note": "Clock at or after 1970."
  },
  {
   "property": "C33",
   "status": "proved",
   "theorems": [
    "Octane.C33_unknown_method",
    "Octane.C33_unknown_method_bytes"
   ],
   "note": "Clock at or after 1970. \"Valid\" is: read by the server and passing the Host check."
  },
  {
   "property": "C34",
   "status": "partial",
   "theorems": [
    "Octane.C34_dispatch",
    "Octane.C34_client_partial",
    "Octane.C34_counterexample",
    "Octane.C34_iff"
   ],
   "note": "Exact bytes proved (C34_dispatch). What the client sees is false with cookies (C34_counterexample) and files (C39). C34_iff: exactly when what the handlers left reaches the client."
  },
  {
   "property": "C35",
   "status": "partial",
   "theorems": [
    "Octane.C35_one_response",
    "Octane.C35_counterexample",
    "Octane.C35_exact",
    "Octane.C35_first_request_partial",
    "Octane.C35_iff"
   ],
   "note": "At most one response: proved. Computed from the first request only: false when bytes of the next request arrive in the same read as the end of the head and a body is declared (C35_counterexample); proved otherwise. C35_exact and C35_iff say exactly which bytes after the head the answer depends on."
  },
  {
   "property": "C36",
   "status": "partial",
   "theorems": [
    "Octane.C36_roundtrip_partial",
    "Octane.C36_cookies_break",
    "Octane.C36_cookies_unreadable",
    "Octane.C36_example_writable",
    "Octane.C36_counterexample",
    "Octane.C36_cookies_exact",
    "Octane.C36_cookies_readable",
    "Octane.C36_set_cookie",
    "Octane.C36_iff"
   ],
   "note": "False of the code as soon as a cookie is set (the head is then not ended by a blank line): C36_counterexample, C36_cookies_break, C36_cookies_unreadable; exactly what a client makes of an answer with cookies: C36_cookies_exact, C36_cookies_readable (it goes on reading headers in the body). Proved without cookies and for bodies in memory (files: C39), for every map order. C36_iff: exactly which responses reach the client as they were made."
  },
  {
   "property": "C37",
   "status": "proved",
   "theorems": [
    "Octane.C37_read_back",
    "Octane.C37_frame",
    "Octane.C37_removed",
    "Octane.C37_one_entry",
    "Octane.C37_case_sensitive"
   ],
   "note": "Operations include direct writes to the public fields. Names are compared exactly."
  },
  {
   "property": "C38",
   "status": "partial",
   "theorems": [
    "Octane.C38_exact",
    "Octane.C38_iff",
    "Octane.C38_wrong",
    "Octane.C38_length_partial",
    "Octane.C38_no_body_partial",
    "Octane.C38_file",
    "Octane.C38_counterexample"
   ],
   "note": "False of the code after send_file: C38_counterexample. Proved whenever no send_file follows the last send. C38_exact says which length goes out and which bytes follow after any operations that do not store the length by hand, and C38_iff and C38_wrong say exactly when the two disagree."
  },
  {
   "property": "C39",
   "status": "partial",
   "theorems": [
    "Octane.C39_nothing_delivered",
    "Octane.C39_empty_file_partial",
    "Octane.C39_counterexample",
    "Octane.C39_success",
    "Octane.C39_failure",
    "Octane.C39_file"
   ],
   "note": "False of the code: the file reader never reports what it read, so nothing is delivered (C39_nothing_delivered, C39_counterexample). Holds exactly for empty files. C39_file: what the file handler returns for any path."
  },
  {
   "property": "C40",
   "status": "proved",
   "theorems": [
    "Octane.C40_send",
    "Octane.C40_with_type",
    "Octane.C40_charset_text",
    "Octane.C40_first_type_stays"
   ],
   "note": "Clock at or after 1970."
  },
  {
   "property": "C41",
   "status": "partial",
   "theorems": [
    "Octane.C41_redirect_state",
    "Octane.C41_redirect_wire_partial",
    "Octane.C41_redirect_only_is_404",
    "Octane.C41_reads",
    "Octane.C41_counterexample",
    "Octane.C41_iff"
   ],
   "note": "State: proved. On the wire: proved when a body is sent as well; a redirect without a body is answered 404 (C41_redirect_only_is_404, C41_counterexample). C41_iff: exactly when the client sees the redirect."
  },
  {
   "property": "C42",
   "status": "proved",
   "theorems": [
    "Octane.C42_table",
    "Octane.C42_three_digits",
    "Octane.C42_distinct",
    "Octane.C42_status_line",
    "Octane.C42_custom",
    "Octane.C42_custom_ascii",
    "Octane.C42_set",
    "Octane.C42_library_codes"
   ],
   "note": ""
  },
  {
   "property": "C43",
   "status": "proved",
   "theorems": [
    "Octane.C43_by_extension",
    "Octane.C43_depends_only",
    "Octane.C43_no_extension",
    "Octane.C43_every_path"
   ],
   "note": "The table is an independent copy grouped by media type; the extension bin is the one row the code gets wrong (C44)."
  },
  {
   "property": "C44",
   "status": "partial",
   "theorems": [
    "Octane.C44_iff",
    "Octane.C44_wellformed_partial",
    "Octane.C44_counterexample"
   ],
   "note": "False of the code for bin (applcation/octet-stream): C44_counterexample. Proved for every other extension. C44_iff: it holds exactly for the extensions other than bin."
  },
  {
   "property": "C45",
   "status": "proved",
   "theorems": [
    "Octane.C45_date_denotes_instant",
    "Octane.C45_range",
    "Octane.C45_date_unambiguous",
    "Octane.C45_fields_all_stamps",
    "Octane.C45_calendar_sanity"
   ],
   "note": "Every clock reading from 1970 on (an earlier one makes the code panic); the calendar is an independent specification."
  },
  {
   "property": "C46",
   "status": "partial",
   "theorems": [
    "Octane.C46_imf_fixdate_partial",
    "Octane.C46_september",
    "Octane.C46_counterexample",
    "Octane.C46_iff"
   ],
   "note": "False of the code in September (written Sept): C46_counterexample. Proved for every instant of the other eleven months up to year 9999; C46_september says what is written in September. C46_iff: it holds exactly outside September."
  },
  {
   "property": "C47",
   "status": "proved",
   "theorems": [
    "Octane.C47_date_injective"
   ],
   "note": ""
  },
  {
   "property": "C48",
   "status": "partial",
   "theorems": [
    "Octane.C48_iff",
    "Octane.C48_sequential",
    "Octane.C48_frame",
    "Octane.C48_progress",
    "Octane.C48_alone_partial",
    "Octane.C48_alive",
    "Octane.C48_counterexample"
   ],
   "note": "Every interleaving is equivalent to serving connections one after the other (C48_sequential), and each connection whose outcome does not depend on shared state is answered as alone as long as the process lives (C48_alone_partial, C48_iff); the process lives if allocations succeed (C48_alive). False without that: one connection can abort the process (C48_counterexample)."
  },
  {
   "property": "C49",
   "status": "partial",
   "theorems": [
    "Octane.C49_exact",
    "Octane.C49_no_error_partial",
    "Octane.C49_counterexample",
    "Octane.C49_exit"
   ],
   "note": "Exactly the connections before the first accept error of their listener get a task (C49_exact); without accept errors all are served. False after an accept error (C49_counterexample), and running connections may be cut off (C49_exit)."
  },
  {
   "property": "C50",
   "status": "proved",
   "theorems": [
    "Octane.C50_step",
    "Octane.C50_history",
    "Octane.C50_config_history",
    "Octane.C50_with_config",
    "Octane.C50_worker_threads_dropped"
   ],
   "note": "Every sequence of configuration calls. C50_worker_threads_dropped: with_config does not copy worker_threads, as the claim allows only for the fields it lists."
  },
  {
   "property": "C51",
   "status": "proved",
   "theorems": [
    "Octane.C51_cookies",
    "Octane.C51_handlers_see",
    "Octane.C51_any"
   ],
   "note": ""
  },
  {
   "property": "C52",
   "status": "partial",
   "theorems": [
    "Octane.C52_crash",
    "Octane.C52_handled_partial",
    "Octane.C52_counterexample"
   ],
   "note": "False of the code (C52_counterexample); C52_crash and C52_handled_partial characterise exactly the Cookie headers that crash the request."
  },
  {
   "property": "C53",
   "status": "partial",
   "theorems": [
    "Octane.C53_roundtrip_partial",
    "Octane.C53_accepted",
    "Octane.C53_counterexample",
    "Octane.C53_iff"
   ],
   "note": "False of the code for 2.0, printed 0.2: C53_counterexample. Proved for the other versions. C53_iff: it holds exactly for the accepted tokens other than 2.0."
  },
  {
   "property": "C54",
   "status": "proved",
   "theorems": [
    "Octane.C54_served"
   ],
   "note": "Declared length up to i64::MAX and memory for it available; clock at or after 1970; at least one header (without any the code answers 400)."
  },
  {
   "property": "C55",
   "status": "proved",
   "theorems": [
    "Octane.C55_error_pages",
    "Octane.C55_clock_before_epoch"
   ],
   "note": "Clock at or after 1970; before, the code panics (C55_clock_before_epoch). The body is the 404 page for every status."
  },
  {
   "property": "C56",
   "status": "partial",
   "theorems": [
    "Octane.C56_body_follows",
    "Octane.C56_empty_body_partial",
    "Octane.C56_reads",
    "Octane.C56_counterexample",
    "Octane.C56_iff"
   ],
   "note": "False of the code (C56_counterexample): HEAD is treated like any other method (C56_body_follows). C56_iff: exactly when the answer to a HEAD request ends with its head."
  },
  {
   "property": "C57",
   "status": "partial",
   "theorems": [
    "Octane.C57_main_partial",
    "Octane.C57_test_partial",
    "Octane.C57_refused",
    "Octane.C57_error_iff",
    "Octane.C57_counterexample",
    "Octane.C57_main_iff",
    "Octane.C57_test_iff"
   ],
   "note": "Holds of exactly the functions whose signature contains no brace group (C57_main_iff, C57_test_iff); false with one, e.g. `-> A<{1}>` (C57_counterexample). C57_refused and C57_error_iff say exactly when the macro refuses."
  },
  {
   "property": "C58",
   "status": "proved",
   "theorems": [
    "Octane.C58_generated",
    "Octane.C58_pascal",
    "Octane.C58_every_phrase",
    "Octane.C58_shape",
    "Octane.C58_distinct"
   ],
   "note": ""
  },
  {
   "property": "C59",
   "status": "partial",
   "theorems": [
    "Octane.C59_named_iff",
    "Octane.C59_tuple_iff",
    "Octane.C59_named_partial",
    "Octane.C59_tuple_partial",
    "Octane.C59_pub_field",
    "Octane.C59_generic_comma",
    "Octane.C59_tuple_loses",
    "Octane.C59_counterexample"
   ],
   "note": "Exactly which structs it holds of: brace structs of private fields whose types have no comma followed by an identifier outside brackets (C59_named_iff), tuple structs with as many pieces holding an identifier as fields (C59_tuple_iff). False for `pub` fields, commas inside generic types and tuple-typed tuple fields (C59_counterexample, C59_pub_field, C59_generic_comma, C59_tuple_loses)."
  },
  {
   "property": "C60",
   "status": "partial",
   "theorems": [
    "Octane.C60_iff",
    "Octane.C60_header_partial",
    "Octane.C60_counterexample",
    "Octane.C60_arrow",
    "Octane.C60_where_generics"
   ],
   "note": "For arbitrarily nested bounds without arrows and where clauses without angle brackets, holds exactly if every parameter is a type (C60_iff); false for lifetimes (C60_counterexample). Outside that grammar: arrows in bounds (C60_arrow) and commas inside generics in the where clause (C60_where_generics) go wrong as well."
  },
  {
   "property": "C61",
   "status": "partial",
   "theorems": [
    "Octane.C61_registered_partial",
    "Octane.C61_named_partial",
    "Octane.C61_differences",
    "Octane.C61_counterexample"
   ],
   "note": "Proved in both directions except for four codes: 101 and 300 have a wrong phrase, 418 is not registered, 305 has no name (C61_differences, C61_counterexample)."
  },
  {
   "property": "C62",
   "status": "partial",
   "theorems": [
    "Octane.C62_iff",
    "Octane.C62_read_back_partial",
    "Octane.C62_no_control",
    "Octane.C62_injective",
    "Octane.C62_type",
    "Octane.C62_counterexample"
   ],
   "note": "Holds of exactly the names without control characters and without the non-ASCII characters that {:?} escapes (C62_iff); for every name the value has no control character and determines the name. False for a tab (C62_counterexample)."
  },
  {
   "property": "C63",
   "status": "partial",
   "theorems": [
    "Octane.C63_iff",
    "Octane.C63_expands_partial",
    "Octane.C63_exists",
    "Octane.C63_counterexample"
   ],
   "note": "Holds of exactly the literals without escapes (C63_iff); for every input an accepted path exists (C63_exists). False with escapes (C63_counterexample)."
  },
  {
   "property": "C64",
   "status": "partial",
   "theorems": [
    "Octane.C64_once_partial",
    "Octane.C64_too_early",
    "Octane.C64_counterexample"
   ],
   "note": "At most once in every execution, and called whenever the server accepts or listen failed (C64_once_partial). False that the port is open by then: it never is (C64_too_early, C64_counterexample)."
  },
  {
   "property": "C65",
   "status": "partial",
   "theorems": [
    "Octane.C65_independent_partial",
    "Octane.C65_opens_partial",
    "Octane.C65_error_iff_partial",
    "Octane.C65_never_both",
    "Octane.C65_ports",
    "Octane.C65_after_tls",
    "Octane.C65_counterexample",
    "Octane.C65_race"
   ],
   "note": "Proved for different ports or without TLS feature: independence, opening, and the exact error condition. False when both ports are the same: the outcome is a race (C65_counterexample, C65_race); both never hold the port (C65_never_both); a task that ended holds none (C65_ports, C65_after_tls)."
  },
  {
   "property": "C66",
   "status": "partial",
   "theorems": [
    "Octane.C66_acceptor",
    "Octane.C66_panic_iff",
    "Octane.C66_error_partial",
    "Octane.C66_openssl",
    "Octane.C66_never_accepts",
    "Octane.C66_task",
    "Octane.C66_counterexample"
   ],
   "note": "The acceptor is exactly the configured one (C66_acceptor, C66_openssl) and bad configurations never accept (C66_never_accepts). Errors are reported except for a readable key file with no RSA key, which panics in the TLS task (C66_panic_iff, C66_counterexample). C66_task gives the exact end of the TLS task when the ports differ."
  },
  {
   "property": "C67",
   "status": "proved",
   "theorems": [
    "Octane.C67_order"
   ],
   "note": "Relates two runs of serve with different MapOrder values; the bytes may differ only by a permutation of header lines."
  },
  {
   "property": "C68",
   "status": "partial",
   "theorems": [
    "Octane.C68_iff",
    "Octane.C68_waits_only_partial",
    "Octane.C68_waits_head",
    "Octane.C68_waits_body",
    "Octane.C68_counterexample",
    "Octane.C68_unbounded_head"
   ],
   "note": "C68_counterexample; C68_waits_only_partial: a connection waits only if the client is silent and the request incomplete; C68_iff: and then it does. Missing: any bound on the wait, which the code does not have."
  },
  {
   "property": "C69",
   "status": "proved",
   "theorems": [
    "Octane.C69_unmatched"
   ],
   "note": ""
  },
  {
   "property": "C70",
   "status": "partial",
   "theorems": [
    "Octane.C70_same_partial",
    "Octane.C70_literal_404",
    "Octane.C70_counterexample",
    "Octane.C70_exact"
   ],
   "note": "C70_counterexample: /a is found, /a?x=1 gives 404. C70_same_partial needs the last segment to be matched by a wildcard or variable. C70_exact: what the answer is in all cases."
  },
  {
   "property": "C71",
   "status": "partial",
   "theorems": [
    "Octane.C71_same_partial",
    "Octane.C71_variable_raw",
    "Octane.C71_counterexample",
    "Octane.C71_exact"
   ],
   "note": "C71_counterexample: /%61 does not reach /a; C71_variable_raw: a variable holds the raw text. C71_exact: what the answer is in all cases."
  },
  {
   "property": "C72",
   "status": "partial",
   "theorems": [
    "Octane.C72_lower_partial",
    "Octane.C72_upper_never",
    "Octane.C72_counterexample",
    "Octane.C72_iff"
   ],
   "note": "C72_counterexample: get(Host) finds nothing; C72_upper_never; C72_lower_partial. C72_iff: exactly which lookups ignore case."
  },
  {
   "property": "C73",
   "status": "partial",
   "theorems": [
    "Octane.C73_ignored",
    "Octane.C73_empty_partial",
    "Octane.C73_length_wins",
    "Octane.C73_counterexample"
   ],
   "note": "C73_counterexample; C73_ignored: without Content-Length the body is empty whatever follows."
  },
  {
   "property": "C74",
   "status": "partial",
   "theorems": [
    "Octane.C74_exact",
    "Octane.C74_state",
    "Octane.C74_sound_partial",
    "Octane.C74_counterexample"
   ],
   "note": "C74_exact gives the exact condition, C74_state the exact state with its time; C74_sound_partial is one direction; C74_counterexample for the other."
  },
  {
   "property": "C75",
   "status": "partial",
   "theorems": [
    "Octane.C75_headers_partial",
    "Octane.C75_pairs_partial",
    "Octane.C75_counterexample",
    "Octane.C75_clean_partial",
    "Octane.C75_splits",
    "Octane.C75_iff"
   ],
   "note": "C75_headers_partial, C75_pairs_partial; C75_clean_partial is the whole claim for a path sent without CR, LF and the four escapes for them; C75_iff: a parameter is on one line exactly if what was sent for it has none of these; C75_counterexample; C75_splits shows the injected header at the client."
  },
  {
   "property": "C76",
   "status": "proved",
   "theorems": [
    "Octane.C76_ends",
    "Octane.C76_answered",
    "Octane.C76_alone"
   ],
   "note": "weak fairness is a hypothesis about the scheduler (FairTo); that the process stays alive is one too (C48_alive gives when it does)"
  },
  {
   "property": "C77",
   "status": "proved",
   "theorems": [
    "Octane.C77_settings",
    "Octane.C77_determined",
    "Octane.C77_cookies",
    "Octane.C77_body",
    "Octane.C77_cookie_lines"
   ],
   "note": "C77_settings with C77_determined (the last choice is unique), C77_cookies, C77_body, C77_cookie_lines. The blank line that is missing after the cookie lines is the subject of C36."
  },
  {
   "property": "C78",
   "status": "partial",
   "theorems": [
    "Octane.C78_iff",
    "Octane.C78_comes_back_partial",
    "Octane.C78_client",
    "Octane.C78_handlers_see",
    "Octane.C78_set_and_back_partial",
    "Octane.C78_counterexample"
   ],
   "note": "The full claim is false (C78_counterexample: value `a;b`). C78_iff: one cookie comes back iff name is not empty, has no `=` or `;`, the value has no `;`, and neither has white space at its ends. C78_comes_back_partial and C78_handlers_see: any list of such cookies, any jar; C78_client: such a client exists."
  },
  {
   "property": "C79",
   "status": "partial",
   "theorems": [
    "Octane.C79_iff",
    "Octane.C79_other_partial",
    "Octane.C79_reaches",
    "Octane.C79_counterexample"
   ],
   "note": "The full claim is false (C79_counterexample). C79_other_partial: holds for every query that does not climb. C79_reaches: every route is reached through the query of any path of its directory. C79_iff: exactly the targets of which it holds."
  },
  {
   "property": "C80",
   "status": "partial",
   "theorems": [
    "Octane.C80_exact",
    "Octane.C80_inner_partial",
    "Octane.C80_counterexample"
   ],
   "note": "The full claim is false (C80_counterexample; the query is never cut from the path). C80_exact says what is returned, C80_inner_partial which keys are right."
  },
  {
   "property": "C81",
   "status": "partial",
   "theorems": [
    "Octane.C81_generates_partial",
    "Octane.C81_exact",
    "Octane.C81_library",
    "Octane.C81_counterexample"
   ],
   "note": "Proved for string literals without backslash; the exact behaviour for all token streams is C81_exact. False for literals with escapes: their source text is quoted again (C81_counterexample)."
  },
  {
   "property": "C82",
   "status": "proved",
   "theorems": [
    "Octane.C82_main",
    "Octane.C82_test",
    "Octane.C82_cut"
   ],
   "note": "The whole output is pinned, token by token, for every input."
  },
  {
   "property": "C83",
   "status": "proved",
   "theorems": [
    "Octane.C83_one_request",
    "Octane.C83_written",
    "Octane.C83_connection"
   ],
   "note": "Assumes memory is available, the clock is not before 1970 and the stream is below 2^63 bytes; for peers that stay silent see C68, for allocation failure C30_abort. The body may be longer than declared (C26); which bytes it is, is part of the statement (BodyIs, C156)."
  },
  {
   "property": "C84",
   "status": "partial",
   "theorems": [
    "Octane.C84_movers_partial",
    "Octane.C84_between",
    "Octane.C84_interleaving",
    "Octane.C84_uninterrupted",
    "Octane.C84_one_access_partial",
    "Octane.C84_counterexample"
   ],
   "note": "The full claim is false: nothing keeps the handlers of two requests apart, so a counter that is read and then written loses an update (C84_counterexample). Proved: the structure of every interleaving (C84_interleaving), that the atomic model is the uninterrupted case (C84_uninterrupted), and the sequential order when each request makes at most one access to the shared state (C84_one_access_partial). C84_movers_partial extends this to requests with any number of accesses of which all but one can change places with those of other requests, at moments when no request is between two accesses (needed: C84_between)."
  },
  {
   "property": "C85",
   "status": "partial",
   "theorems": [
    "Octane.C85_iff",
    "Octane.C85_others_partial",
    "Octane.C85_stalled",
    "Octane.C85_stops",
    "Octane.C85_counterexample"
   ],
   "note": "False of the code: handlers run on the worker threads of the runtime without giving them back, so as many requests to a handler that does not return as there are threads stop the server (C85_stops, C85_stalled). Proved: with fewer, every waiting request can be answered (C85_others_partial). Exactly: a waiting request can still be answered if and only if its own handlers can come to an end and fewer requests than threads are held by handlers that cannot end any more whatever happens (C85_iff)."
  },
  {
   "property": "C86",
   "status": "partial",
   "theorems": [
    "Octane.C86_iff",
    "Octane.C86_length",
    "Octane.C86_ignored",
    "Octane.C86_served",
    "Octane.C86_no_body_partial",
    "Octane.C86_counterexample"
   ],
   "note": "False of the code: an unusable length counts as 0 and the request is served (C86_counterexample, C86_ignored, C86_served); C86_length is the exact rule, by which `+5` counts as 5 and two equal lengths count as 0. What holds is C86_no_body_partial. C86_iff: with a known method, 400 whatever is registered exactly for HTTP/1.1 without Host, whatever the lengths."
  },
  {
   "property": "C87",
   "status": "partial",
   "theorems": [
    "Octane.C87_never",
    "Octane.C87_path",
    "Octane.C87_routed",
    "Octane.C87_not_found",
    "Octane.C87_same_partial",
    "Octane.C87_counterexample"
   ],
   "note": "False of the code: scheme and host are taken for path segments (C87_counterexample, C87_path, C87_routed, C87_not_found). It holds if all handlers are registered without a path (C87_same_partial). C87_never: the request handlers get is never the one for the path."
  },
  {
   "property": "C88",
   "status": "partial",
   "theorems": [
    "Octane.C88_iff",
    "Octane.C88_served",
    "Octane.C88_none_partial",
    "Octane.C88_counterexample"
   ],
   "note": "False of the code: only the absence of Host is checked (C88_counterexample, C88_served); C88_none_partial is what holds; C88_iff: a request of HTTP/1.1 is refused whatever is registered exactly if it has no Host."
  },
  {
   "property": "C89",
   "status": "partial",
   "theorems": [
    "Octane.C89_same",
    "Octane.C89_served",
    "Octane.C89_counterexample"
   ],
   "note": "False of the code: unknown versions are accepted and not even asked for a Host (C89_counterexample, C89_served); C89_same says that all tokens but 1.1 are treated alike. C173_codes: 505 never comes but from a handler."
  },
  {
   "property": "C90",
   "status": "partial",
   "theorems": [
    "Octane.C90_exact",
    "Octane.C90_sent_partial",
    "Octane.C90_counterexample"
   ],
   "note": "False of the code: it tells whether the header map is empty (C90_counterexample, C90_exact). What holds is C90_sent_partial."
  },
  {
   "property": "C91",
   "status": "partial",
   "theorems": [
    "Octane.C91_date",
    "Octane.C91_none",
    "Octane.C91_send_partial",
    "Octane.C91_counterexample",
    "Octane.C91_iff"
   ],
   "note": "False of the code for send_file without default_headers (C91_counterexample, C91_none). Proved for send and default_headers (C91_date, C91_send_partial) and for error pages (C55_error_pages). C91_iff: exactly when an answer made by a handler has a Date."
  },
  {
   "property": "C92",
   "status": "partial",
   "theorems": [
    "Octane.C92_abort_only",
    "Octane.C92_partial",
    "Octane.C92_held_for_nothing",
    "Octane.C92_limit",
    "Octane.C92_amplifies",
    "Octane.C92_counterexample",
    "Octane.C92_head",
    "Octane.C92_head_unlimited"
   ],
   "note": "False as stated: the declared length is allocated at once (C92_counterexample; for every length C92_amplifies, for every head C92_held_for_nothing). Proved: aborts come only from declared lengths; none if no more is declared than sent; the head buffer never exceeds what was sent, and has no other limit."
  },
  {
   "property": "C93",
   "status": "partial",
   "theorems": [
    "Octane.C93_same",
    "Octane.C93_quadratic",
    "Octane.C93_quadratic_head",
    "Octane.C93_counterexample",
    "Octane.C93_partial",
    "Octane.C93_reads",
    "Octane.C93_buffers"
   ],
   "note": "False as stated: after each read of at most 512 bytes the search starts again at the beginning, so the comparisons grow with the square (C93_quadratic, C93_quadratic_head, C93_counterexample). Proved: at most 4 × reads × bytes, and at most one read more than bytes."
  },
  {
   "property": "C94",
   "status": "partial",
   "theorems": [
    "Octane.C94_same",
    "Octane.C94_split",
    "Octane.C94_split_least",
    "Octane.C94_written",
    "Octane.C94_bound",
    "Octane.C94_partial",
    "Octane.C94_repeated",
    "Octane.C94_counterexample"
   ],
   "note": "False as stated: a repeated header rewrites the whole value each time, so n copies write about n² bytes (C94_repeated exact, C94_counterexample). Proved: splitting is linear, everything is linear when the names differ, and what is written is known exactly."
  },
  {
   "property": "C95",
   "status": "proved",
   "theorems": [
    "Octane.C95_same",
    "Octane.C95_visits",
    "Octane.C95_bound",
    "Octane.C95_bound_literal",
    "Octane.C95_scans"
   ],
   "note": "Counts nodes visited and lists scanned; sorting the matches and the handlers themselves are not counted."
  },
  {
   "property": "C96",
   "status": "partial",
   "theorems": [
    "Octane.C96_verbatim",
    "Octane.C96_seen",
    "Octane.C96_full_partial",
    "Octane.C96_short_never",
    "Octane.C96_counterexample",
    "Octane.C96_iff"
   ],
   "note": "False for every short name (C96_short_never); full types work. C96_iff: exactly the full types work."
  },
  {
   "property": "C97",
   "status": "partial",
   "theorems": [
    "Octane.C97_iff",
    "Octane.C97_waits",
    "Octane.C97_impatient_partial",
    "Octane.C97_counterexample"
   ],
   "note": "The header is never looked at; a client that waits is not answered (C97_waits); C97_iff: it is left waiting exactly if any of its body is missing."
  },
  {
   "property": "C98",
   "status": "partial",
   "theorems": [
    "Octane.C98_iff",
    "Octane.C98_sent",
    "Octane.C98_empty_partial",
    "Octane.C98_counterexample"
   ],
   "note": "The status has no influence on body and length."
  },
  {
   "property": "C99",
   "status": "partial",
   "theorems": [
    "Octane.C99_iff",
    "Octane.C99_pages",
    "Octane.C99_not_added",
    "Octane.C99_set_partial",
    "Octane.C99_counterexample"
   ],
   "note": "Never announced unless a handler does it by hand."
  },
  {
   "property": "C100",
   "status": "partial",
   "theorems": [
    "Octane.C100_refused_partial",
    "Octane.C100_lenient",
    "Octane.C100_hidden",
    "Octane.C100_length",
    "Octane.C100_unread",
    "Octane.C100_counterexample"
   ],
   "note": "Faithful: the task panics, no 400. Otherwise: accepted under another name."
  },
  {
   "property": "C101",
   "status": "partial",
   "theorems": [
    "Octane.C101_exact",
    "Octane.C101_partial",
    "Octane.C101_length",
    "Octane.C101_counterexample"
   ],
   "note": "Only leading blanks are removed."
  },
  {
   "property": "C102",
   "status": "partial",
   "theorems": [
    "Octane.C102_exact",
    "Octane.C102_not_found",
    "Octane.C102_same_partial",
    "Octane.C102_counterexample"
   ],
   "note": "Registrations for GET do not apply to HEAD: C102_exact says what a HEAD finds instead."
  },
  {
   "property": "C103",
   "status": "partial",
   "theorems": [
    "Octane.C103_exact",
    "Octane.C103_single_partial",
    "Octane.C103_left",
    "Octane.C103_counterexample"
   ],
   "note": "False for clients that send more than one request; the kernel's reset is not modelled."
  },
  {
   "property": "C104",
   "status": "proved",
   "theorems": [
    "Octane.C104_atomic",
    "Octane.C104_movers",
    "Octane.C104_process",
    "Octane.C104_one_request",
    "Octane.C104_one_access"
   ],
   "note": "Refines both Model/Listen.lean (connections) and Model/Parallel.lean (handlers). Executions are considered until the process ends or an allocation aborts it. Accepting a connection does not wait for a thread. C104_movers: the sequential order also when all accesses of a request but one can change places with those of the others."
  },
  {
   "property": "C105",
   "status": "partial",
   "theorems": [
    "Octane.C105_iff",
    "Octane.C105_others_partial",
    "Octane.C105_stalled",
    "Octane.C105_stops",
    "Octane.C105_counterexample"
   ],
   "note": "False (C105_counterexample): handlers run on the runtime's own threads, so answers being written to other clients are held up as well. Exactly: a connection that waits for a thread, and whose client does not keep the server waiting, can still come to its end if and only if its own handlers can and fewer connections than threads are held by handlers that cannot end any more whatever happens (C105_iff)."
  },
  {
   "property": "C106",
   "status": "proved",
   "theorems": [
    "Octane.C106_handshake_first",
    "Octane.C106_never_served",
    "Octane.C106_no_tls"
   ],
   "note": "Whether a handshake succeeds is decided by the TLS library, which is not modelled: it is an event. What the bytes are is what the library has deciphered."
  },
  {
   "property": "C107",
   "status": "proved",
   "theorems": [
    "Octane.C107_alive",
    "Octane.C107_threads",
    "Octane.C107_ends"
   ],
   "note": "Fairness of the runtime is assumed: handlers that hold a thread go on, and a task that can go on forever while a thread is free again and again does so. What a complete answer consists of is C104."
  },
  {
   "property": "C108",
   "status": "proved",
   "theorems": [
    "Octane.C108_same",
    "Octane.C108_added",
    "Octane.C108_swapped"
   ],
   "note": ""
  },
  {
   "property": "C109",
   "status": "proved",
   "theorems": [
    "Octane.C109_no_overflow",
    "Octane.C109_overflow_iff"
   ],
   "note": ""
  },
  {
   "property": "C110",
   "status": "proved",
   "theorems": [
    "Octane.C110_same",
    "Octane.C110_iff",
    "Octane.C110_spellings"
   ],
   "note": ""
  },
  {
   "property": "C111",
   "status": "partial",
   "theorems": [
    "Octane.C111_panics",
    "Octane.C111_two_lines",
    "Octane.C111_counterexample",
    "Octane.C111_iff"
   ],
   "note": "False: the empty line is taken for the request line and the task panics; theorems say exactly what happens with one and with two empty lines. C111_iff: the empty line makes no difference exactly if the task panics anyway."
  },
  {
   "property": "C112",
   "status": "partial",
   "theorems": [
    "Octane.C112_unregistered",
    "Octane.C112_refused_partial",
    "Octane.C112_counterexample"
   ],
   "note": "Missing: the code 405 and the header Allow, which the code does not have. C173_codes: 405 never comes but from a handler."
  },
  {
   "property": "C113",
   "status": "proved",
   "theorems": [
    "Octane.C113_decode",
    "Octane.C113_query",
    "Octane.C113_query_tight",
    "Octane.C113_extended",
    "Octane.C113_request"
   ],
   "note": ""
  },
  {
   "property": "C114",
   "status": "proved",
   "theorems": [
    "Octane.C114_outcome",
    "Octane.C114_bytes",
    "Octane.C114_needed"
   ],
   "note": ""
  },
  {
   "property": "C115",
   "status": "partial",
   "theorems": [
    "Octane.C115_page",
    "Octane.C115_markup",
    "Octane.C115_iff",
    "Octane.C115_partial",
    "Octane.C115_false",
    "Octane.C115_counterexample"
   ],
   "note": "the code has one page for all errors, that of 404, and closes h5 by h2"
  },
  {
   "property": "C116",
   "status": "proved",
   "theorems": [
    "Octane.C116_same",
    "Octane.C116_swap",
    "Octane.C116_case",
    "Octane.C116_combine",
    "Octane.C116_needed"
   ],
   "note": ""
  },
  {
   "property": "C117",
   "status": "proved",
   "theorems": [
    "Octane.C117_same",
    "Octane.C117_spelling",
    "Octane.C117_needed"
   ],
   "note": ""
  },
  {
   "property": "C118",
   "status": "proved",
   "theorems": [
    "Octane.C118_same",
    "Octane.C118_decode",
    "Octane.C118_decode_exact",
    "Octane.C118_query",
    "Octane.C118_extended",
    "Octane.C118_query_least",
    "Octane.C118_extended_least"
   ],
   "note": "hash collisions are not modelled"
  },
  {
   "property": "C119",
   "status": "proved",
   "theorems": [
    "Octane.C119_same",
    "Octane.C119_exact",
    "Octane.C119_bound"
   ],
   "note": ""
  },
  {
   "property": "C120",
   "status": "proved",
   "theorems": [
    "Octane.C120_faithful",
    "Octane.C120_query",
    "Octane.C120_extended",
    "Octane.C120_cookies",
    "Octane.C120_variables",
    "Octane.C120_needed"
   ],
   "note": ""
  },
  {
   "property": "C121",
   "status": "proved",
   "theorems": [
    "Octane.C121_least",
    "Octane.C121_same",
    "Octane.C121_head",
    "Octane.C121_bound",
    "Octane.C121_quadratic"
   ],
   "note": "Steps are counted as said at each definition in Model/CostServe.lean: hash map operations count one step and the bytes of the key, visiting a node of the route tree counts one step; sorting the matches, copying the variables and the request for the handlers, the zeroing of the allocated body buffer and the writing of the answer are not counted. C121_least bounds the count from below."
  },
  {
   "property": "C122",
   "status": "proved",
   "theorems": [
    "Octane.C122_one_handler",
    "Octane.C122_split"
   ],
   "note": "Handlers that read or change the application's state or that may panic by themselves are not of this kind; C12, C13 and C84 are about those."
  },
  {
   "property": "C123",
   "status": "proved",
   "theorems": [
    "Octane.C123_texts",
    "Octane.C123_documented"
   ],
   "note": "The client closes its sending side after its bytes, memory is available, and the clock is between 1970 and 2^63. What the other byte streams get is said by C83_connection."
  },
  {
   "property": "C124",
   "status": "proved",
   "theorems": [
    "Octane.C124_server",
    "Octane.C124_router",
    "Octane.C124_variable",
    "Octane.C124_header"
   ],
   "note": "The test functions carry no `#[test]` attribute, so `cargo test` does not run them; `tests/headers.rs` gets a 404 because its handler sends nothing (`C124_header`)."
  },
  {
   "property": "C125",
   "status": "partial",
   "theorems": [
    "Octane.C125_elsewhere",
    "Octane.C125_set",
    "Octane.C125_get",
    "Octane.C125_headers_sent",
    "Octane.C125_with_type",
    "Octane.C125_status",
    "Octane.C125_redirect",
    "Octane.C125_charset",
    "Octane.C125_attachment",
    "Octane.C125_cookie",
    "Octane.C125_file",
    "Octane.C125_with_router",
    "Octane.C125_never",
    "Octane.C125_kept_partial",
    "Octane.C125_asks",
    "Octane.C125_counterexample"
   ],
   "note": "False for four examples (`C125_never`, `C125_counterexample`): `attachment` sends nothing and gets the 404 page, `cookie` cannot be read by any client, `charset` sends `text/html ;charset=\"utf-8\"` instead of `text/html; charset=utf-8`, `send_file` delivers no bytes."
  },
  {
   "property": "C126",
   "status": "proved",
   "theorems": [
    "Octane.C126_trees",
    "Octane.C126_nodes",
    "Octane.C126_lists",
    "Octane.C126_entries",
    "Octane.C126_total",
    "Octane.C126_bound",
    "Octane.C126_total_bound",
    "Octane.C126_refused"
   ],
   "note": ""
  },
  {
   "property": "C127",
   "status": "partial",
   "theorems": [
    "Octane.C127_same",
    "Octane.C127_exact",
    "Octane.C127_bound",
    "Octane.C127_square",
    "Octane.C127_linear_partial",
    "Octane.C127_counterexample"
   ],
   "note": "False (`C127_counterexample`): `append` inserts every route of the mounted router again, so routers mounted in each other cost the square of the number of calls (`C127_exact`, `C127_square`). Linear for every fixed depth of mounts (`C127_linear_partial`)."
  },
  {
   "property": "C128",
   "status": "partial",
   "theorems": [
    "Octane.C128_accepts",
    "Octane.C128_idle",
    "Octane.C128_held",
    "Octane.C128_bound_partial",
    "Octane.C128_unread",
    "Octane.C128_counterexample"
   ],
   "note": "False (`C128_counterexample`): every client is accepted (`C128_accepts`), a silent one is never given up (`C128_idle`, `C128_held`). What holds (`C128_bound_partial`): no more connections than clients, and no more kept than was sent."
  },
  {
   "property": "C129",
   "status": "partial",
   "theorems": [
    "Octane.C129_exact",
    "Octane.C129_arrives_iff",
    "Octane.C129_inner_partial",
    "Octane.C129_counterexample"
   ],
   "note": "False (`C129_counterexample`). Exactly what arrives: `C129_exact`; which texts arrive unchanged: `C129_arrives_iff` (ASCII without spaces). What holds (`C129_inner_partial`): such fields that are neither the first nor the last."
  },
  {
   "property": "C130",
   "status": "proved",
   "theorems": [
    "Octane.C130_same",
    "Octane.C130_ignored",
    "Octane.C130_needed"
   ],
   "note": "`C130_same`, `C130_ignored`; each of the three exceptions is necessary: `C130_needed`."
  },
  {
   "property": "C131",
   "status": "proved",
   "theorems": [
    "Octane.C131_one_entry",
    "Octane.C131_inside"
   ],
   "note": "`C131_one_entry` for whatever was registered and whatever is sent; `C131_inside` for the file system (as in C03, without symbolic links)."
  },
  {
   "property": "C132",
   "status": "proved",
   "theorems": [
    "Octane.C132_same",
    "Octane.C132_files",
    "Octane.C132_directory"
   ],
   "note": "`C132_same` for any handlers, `C132_files`, `C132_directory`. Without symbolic links; the directory is not the empty text (then the slash makes it the root)."
  },
  {
   "property": "C133",
   "status": "proved",
   "theorems": [
    "Octane.C133_complete",
    "Octane.C133_not_waited_for",
    "Octane.C133_no_head",
    "Octane.C133_no_body"
   ],
   "note": "`C133_complete` (with `C133_not_waited_for`) for complete requests, `C133_no_head` and `C133_no_body` for the others. Bytes that arrive in the same segment as the end of the request are another matter: they can end up in the body (C26)."
  },
  {
   "property": "C134",
   "status": "partial",
   "theorems": [
    "Octane.C134_same",
    "Octane.C134_unregistered_partial",
    "Octane.C134_counterexample"
   ],
   "note": "False of the code: `GET a` is `GET /a`, and `OPTIONS *` asks about the resource `/*` (C134_same, C134_counterexample). If nothing is registered for the path the answer is 404 (C134_unregistered_partial). C86_iff: such a target is no reason for 400."
  },
  {
   "property": "C135",
   "status": "partial",
   "theorems": [
    "Octane.C135_refused_partial",
    "Octane.C135_no_colon",
    "Octane.C135_own_header",
    "Octane.C135_counterexample"
   ],
   "note": "False of the code: a folded line panics the task in faithful mode, and in every mode if it has no colon (C135_refused_partial, C135_no_colon, C135_counterexample). Otherwise it is a header of its own whose name begins with the blank (C135_own_header)."
  },
  {
   "property": "C136",
   "status": "partial",
   "theorems": [
    "Octane.C136_iff",
    "Octane.C136_refused",
    "Octane.C136_value",
    "Octane.C136_utf8_partial",
    "Octane.C136_counterexample"
   ],
   "note": "False of the code: if the value is not UTF-8 the answer is 400 (C136_value, C136_refused, C136_counterexample). If it is, it is ignored (C136_utf8_partial). C136_iff: if the request without the header is not refused, the two are answered the same exactly if the value is UTF-8."
  },
  {
   "property": "C137",
   "status": "partial",
   "theorems": [
    "Octane.C137_refused",
    "Octane.C137_any_partial",
    "Octane.C137_counterexample"
   ],
   "note": "False of the code: `GET / HTTP/1.0` and nothing else is answered 400 (C137_refused, C137_counterexample). One header is enough, and it does not matter which (C137_any_partial)."
  },
  {
   "property": "C138",
   "status": "proved",
   "theorems": [
    "Octane.C138_invariant",
    "Octane.C138_version",
    "Octane.C138_kept"
   ],
   "note": "C138_version; C138_kept for operations; C138_invariant is the general form."
  },
  {
   "property": "C139",
   "status": "proved",
   "theorems": [
    "Octane.C139_ops",
    "Octane.C139_answered"
   ],
   "note": "C139_ops is exact (if and only if). Requests the server cannot read are C30 and C83."
  },
  {
   "property": "C140",
   "status": "proved",
   "theorems": [
    "Octane.C140_exact",
    "Octane.C140_order",
    "Octane.C140_page",
    "Octane.C140_pages",
    "Octane.C140_made",
    "Octane.C140_bound"
   ],
   "note": "C140_exact, C140_order, C140_page (pages, exactly), C140_made, C140_bound. The bound is reached (501 in September of the last year)."
  },
  {
   "property": "C141",
   "status": "partial",
   "theorems": [
    "Octane.C141_written",
    "Octane.C141_read",
    "Octane.C141_order",
    "Octane.C141_iff",
    "Octane.C141_refused",
    "Octane.C141_plain_partial",
    "Octane.C141_counterexample"
   ],
   "note": "False of structs with raw identifiers: the key is `r#type` and {\"type\": …} is refused (C141_iff, C141_refused, C141_counterexample). C141_written and C141_read say exactly what is written and read; the order of members does not matter (C141_order). For fields that are not private see C59."
  },
  {
   "property": "C142",
   "status": "partial",
   "theorems": [
    "Octane.C142_exact",
    "Octane.C142_count",
    "Octane.C142_iff",
    "Octane.C142_one_partial",
    "Octane.C142_counterexample"
   ],
   "note": "False of the code: the last cookie of a line swallows the first of the next (C142_exact, C142_count, C142_counterexample); it holds exactly for one line (C142_iff, C142_one_partial)."
  },
  {
   "property": "C143",
   "status": "partial",
   "theorems": [
    "Octane.C143_exact",
    "Octane.C143_iff",
    "Octane.C143_one_partial",
    "Octane.C143_pages",
    "Octane.C143_counterexample"
   ],
   "note": "False of the code: set(\"content-type\", …) and send make two types (C143_counterexample). C143_exact and C143_iff say exactly when; C143_one_partial: names written in one spelling each; C143_pages: error pages."
  },
  {
   "property": "C144",
   "status": "proved",
   "theorems": [
    "Octane.C144_process",
    "Octane.C144_clients",
    "Octane.C144_plain",
    "Octane.C144_tls",
    "Octane.C144_startup",
    "Octane.C144_settings",
    "Octane.C144_ports",
    "Octane.C144_one_port"
   ],
   "note": "C144_process, C144_clients: refinement to C104 (so C105 to C107 carry over). C144_startup: the start-up goes as in C64–C66 when the ports differ. The settings are those after any history (C50). The number of worker threads is a parameter: the attribute macro fixes it, not the settings."
  },
  {
   "property": "C145",
   "status": "partial",
   "theorems": [
    "Octane.C145_plain_partial",
    "Octane.C145_iff",
    "Octane.C145_counterexample"
   ],
   "note": "False of the code: the TLS task is spawned before the callback is called and may accept and answer a client first (C145_counterexample). True for the plain port (C145_plain_partial); C145_iff: true of all clients exactly when the TLS listener cannot open."
  },
  {
   "property": "C146",
   "status": "partial",
   "theorems": [
    "Octane.C146_plain_partial",
    "Octane.C146_ends",
    "Octane.C146_exit",
    "Octane.C146_iff",
    "Octane.C146_counterexample"
   ],
   "note": "False of the code: the TLS task goes on until the program ends (C146_counterexample). True for the plain port (C146_plain_partial, C146_ends); C146_iff: true exactly when the TLS listener cannot open; C146_exit: nothing happens after the end of the program."
  },
  {
   "property": "C147",
   "status": "partial",
   "theorems": [
    "Octane.C147_read",
    "Octane.C147_iff",
    "Octane.C147_space_partial",
    "Octane.C147_counterexample"
   ],
   "note": "False of the code: the characters of the target are no reason to refuse (C147_iff: only HTTP/1.1 without Host is), the handlers see them (C147_read, C147_counterexample). With faithful a space in the target panics the task, so no handler sees it (C147_space_partial)."
  },
  {
   "property": "C148",
   "status": "proved",
   "theorems": [
    "Octane.C148_plain",
    "Octane.C148_tls",
    "Octane.C148_accepted",
    "Octane.C148_ends",
    "Octane.C148_served"
   ],
   "note": "C148_plain and C148_tls (opening), C148_accepted, C148_ends (C107 for the whole application), C148_served. Fairness of the runtime is assumed as in C107."
  },
  {
   "property": "C149",
   "status": "partial",
   "theorems": [
    "Octane.C149_header",
    "Octane.C149_target",
    "Octane.C149_body",
    "Octane.C149_limit_partial",
    "Octane.C149_counterexample"
   ],
   "note": "False of the code: C149_counterexample, for every limit. A header of any length changes nothing (C149_header), a segment and a body of any length are read and given to the handlers (C149_target, C149_body; see also C92 and C147_iff). Proved: a declared length above 2^63-1 is never answered (C149_limit_partial). Missing: any other limit, and the answer."
  },
  {
   "property": "C150",
   "status": "partial",
   "theorems": [
    "Octane.C150_exact",
    "Octane.C150_iff",
    "Octane.C150_partial",
    "Octane.C150_cookies",
    "Octane.C150_segment",
    "Octane.C150_counterexample"
   ],
   "note": "False of the code: a `;` in the value ends it (C150_counterexample; for every attribute, from a segment of the target, C150_segment). Exactly what a client finds: C150_exact, C150_iff. Proved: names and values without `;` add nothing (C150_partial), and those of the cookies of a request are such (C150_cookies). That the lines on the wire have this text is C77_cookie_lines."
  },
  {
   "property": "C151",
   "status": "partial",
   "theorems": [
    "Octane.C151_exact",
    "Octane.C151_partial",
    "Octane.C151_faithful",
    "Octane.C151_request",
    "Octane.C151_iff",
    "Octane.C151_counterexample"
   ],
   "note": "False of the code without faithful: a token that begins with '=' is an entry of the empty key in one and is skipped in the other (C151_counterexample). With faithful it holds in full (C151_faithful); without it for queries with no such token (C151_partial), and exactly when in C151_iff. For every query, the strings of the extended query are the plain query of the other tokens (C151_exact)."
  },
  {
   "property": "C152",
   "status": "proved",
   "theorems": [
    "Octane.C152_when",
    "Octane.C152_bound",
    "Octane.C152_body",
    "Octane.C152_once",
    "Octane.C152_at_least",
    "Octane.C152_exact",
    "Octane.C152_total",
    "Octane.C152_pairs",
    "Octane.C152_nine"
   ],
   "note": "Lengths, not capacities, and only at the moment the handlers are called: while the body is awaited the memory goes by the declared length (C92). C152_when says when the number is there."
  },
  {
   "property": "C153",
   "status": "partial",
   "theorems": [
    "Octane.C153_hello",
    "Octane.C153_header_none",
    "Octane.C153_query_none",
    "Octane.C153_request_line",
    "Octane.C153_never",
    "Octane.C153_header_partial",
    "Octane.C153_variables",
    "Octane.C153_counterexample"
   ],
   "note": "False of the code for what is read (C153_counterexample, C153_never): a name with an upper-case letter is never found, and a handler for `/` is never called for a target with a query. In full: C153_hello, C153_request_line, C153_variables. C153_header_partial: names in lower case are found."
  },
  {
   "property": "C154",
   "status": "proved",
   "theorems": [
    "Octane.C154_least",
    "Octane.C154_same",
    "Octane.C154_write",
    "Octane.C154_six",
    "Octane.C154_head",
    "Octane.C154_bound"
   ],
   "note": "C154_same, C154_write, C154_six, C154_head, C154_bound. Not counted: handlers, sort_by_key (external), growing of buffers, collisions of hashes, the date. C154_head and C154_bound suppose that putting a phrase into capitals leaves at least half of its bytes, as it does in Unicode (HalfKept). C154_least bounds the count from below."
  },
  {
   "property": "C155",
   "status": "proved",
   "theorems": [
    "Octane.C155_left_out",
    "Octane.C155_called",
    "Octane.C155_iff"
   ],
   "note": "C155_left_out, C155_called, C155_iff. C155_left_out needs nothing of the other handlers; the other two suppose that those before it either always stop or always hand on."
  },
  {
   "property": "C156",
   "status": "proved",
   "theorems": [
    "Octane.C156_read",
    "Octane.C156_body",
    "Octane.C156_iff",
    "Octane.C156_at_most",
    "Octane.C156_large",
    "Octane.C156_any",
    "Octane.C156_same"
   ],
   "note": "C156_read, C156_body, C156_iff, C156_at_most, C156_large, C156_any, C156_same. Sharpens C26 and C35, whose full claims are false."
  },
  {
   "property": "C157",
   "status": "proved",
   "theorems": [
    "Octane.C157_any_order",
    "Octane.C157_same",
    "Octane.C157_process",
    "Octane.C157_needed"
   ],
   "note": "C157_any_order, C157_same (two executions), C157_process (whole process); C157_needed: with one access that cannot change places the replies depend on the order."
  },
  {
   "property": "C158",
   "status": "partial",
   "theorems": [
    "Octane.C158_never",
    "Octane.C158_alike",
    "Octane.C158_alone_partial",
    "Octane.C158_left_out",
    "Octane.C158_not_found",
    "Octane.C158_counterexample"
   ],
   "note": "C158_counterexample: no program routes OPTIONS by itself. C158_alone_partial: the six methods with a function. C158_never, C158_alike, C158_left_out, C158_not_found: exactly what happens to OPTIONS, TRACE and CONNECT."
  },
  {
   "property": "C159",
   "status": "proved",
   "theorems": [
    "Octane.C159_asked",
    "Octane.C159_rearranged",
    "Octane.C159_iff",
    "Octane.C159_behind"
   ],
   "note": "C159_asked: the criterion is exact. C159_rearranged: any rearrangement. C159_iff: exactly when neighbours can be exchanged behind handlers that hand on; C159_behind: behind handlers that each always stop or always hand on."
  },
  {
   "property": "C160",
   "status": "proved",
   "theorems": [
    "Octane.C160_iff"
   ],
   "note": "Handlers that depend on the enumeration order of the map of variables are excluded (ByName): `/:a/:b/:a` and `/:b/:b/:a` give the same map in different orders."
  },
  {
   "property": "C161",
   "status": "proved",
   "theorems": [
    "Octane.C161_complete",
    "Octane.C161_number"
   ],
   "note": "C161_complete: the suite decides interchangeability. C161_number: its size."
  },
  {
   "property": "C162",
   "status": "proved",
   "theorems": [
    "Octane.C162_decides"
   ],
   "note": "C162_decides."
  },
  {
   "property": "C163",
   "status": "proved",
   "theorems": [
    "Octane.C163_suite",
    "Octane.C163_needed"
   ],
   "note": "C163_suite: the suite of C161 is complete. C163_needed: the lower bound."
  },
  {
   "property": "C164",
   "status": "proved",
   "theorems": [
    "Octane.C164_iff",
    "Octane.C164_complete",
    "Octane.C164_decides"
   ],
   "note": "C164_iff, C164_complete (suite), C164_decides (procedure). With no name known to stop these are C160 to C162."
  },
  {
   "property": "C165",
   "status": "proved",
   "theorems": [
    "Octane.C165_life",
    "Octane.C165_life_tables",
    "Octane.C165_same",
    "Octane.C165_left_out",
    "Octane.C165_rearranged",
    "Octane.C165_tables"
   ],
   "note": "C165_same, C165_left_out, C165_rearranged, C165_tables for the process; C165_life, C165_life_tables with the start-up (Model/Life). These are sufficient conditions; for tables C166 shows that the condition is also necessary."
  },
  {
   "property": "C166",
   "status": "proved",
   "theorems": [
    "Octane.C166_iff",
    "Octane.C166_decides"
   ],
   "note": "C166_iff, C166_decides (procedure)."
  },
  {
   "property": "C167",
   "status": "proved",
   "theorems": [
    "Octane.C167_four",
    "Octane.C167_not_three",
    "Octane.C167_context",
    "Octane.C167_server",
    "Octane.C167_decides"
   ],
   "note": "C167_four, C167_decides (by computation), C167_not_three (four are needed), C167_context (kept in context), C167_server."
  },
  {
   "property": "C168",
   "status": "partial",
   "theorems": [
    "Octane.C168_iff",
    "Octane.C168_panics",
    "Octane.C168_inv",
    "Octane.C168_by_number",
    "Octane.C168_raised_partial",
    "Octane.C168_same_partial",
    "Octane.C168_last",
    "Octane.C168_lowered",
    "Octane.C168_counterexample",
    "Octane.C168_pathless"
   ],
   "note": "Full statement `C168_statement` (registration order whatever is written) is false (C168_counterexample, C168_lowered): lowering the counter reverses handlers. Proved: C168_panics, C168_by_number (order of the numbers), C168_raised_partial and C168_same_partial (writes that only raise), C168_last (the largest number), C168_pathless (path-less handlers are not sorted), C168_iff (exactly when the writes make no difference). Build with overflow checks; for a release build see C170."
  },
  {
   "property": "C169",
   "status": "proved",
   "theorems": [
    "Octane.C169_panics",
    "Octane.C169_merge",
    "Octane.C169_one",
    "Octane.C169_kinds",
    "Octane.C169_options",
    "Octane.C169_rewritten"
   ],
   "note": "C169_merge (any numbers), C169_one (the merge is unique if the numbers in a tree differ), C169_kinds (order within a kind, nothing else), C169_panics. Trees may also be inserted into and made again from their items (C169_rewritten). Numbers below 2^64-1; C168_last is about the largest."
  },
  {
   "property": "C170",
   "status": "partial",
   "theorems": [
    "Octane.C170_total",
    "Octane.C170_checked",
    "Octane.C170_unwritten",
    "Octane.C170_by_number",
    "Octane.C170_raised_partial",
    "Octane.C170_last",
    "Octane.C170_first",
    "Octane.C170_counterexample",
    "Octane.C170_iff"
   ],
   "note": "Full statement `C170_statement` (registration order while the counter is only raised) is false (C170_counterexample, C170_first). Proved: C170_total, C170_checked, C170_unwritten, C170_by_number (order modulo 2^64), C170_last, registration order while all numbers fit (C170_raised_partial), and exactly when the writes make no difference (C170_iff)."
  },
  {
   "property": "C171",
   "status": "proved",
   "theorems": [
    "Octane.C171_drop",
    "Octane.C171_owned",
    "Octane.C171_borrowed"
   ],
   "note": "C171_drop, C171_owned, C171_borrowed: exact numbers."
  },
  {
   "property": "C172",
   "status": "proved",
   "theorems": [
    "Octane.C172_exact",
    "Octane.C172_next",
    "Octane.C172_first",
    "Octane.C172_two",
    "Octane.C172_two_not"
   ],
   "note": "The state machine against positions in the list (C172_exact), and what the decoder relies on. C172_two_not: with two items held, `unpeek` followed by two looks does not show the second item."
  },
  {
   "property": "C173",
   "status": "proved",
   "theorems": [
    "Octane.C173_answers",
    "Octane.C173_codes",
    "Octane.C173_process"
   ],
   "note": "C173_answers: the four answers with their causes and the state they leave; C173_codes: every other code comes from a handler; C173_process: the same of every client of a process, in every execution."
  },
  {
   "property": "C174",
   "status": "proved",
   "theorems": [
    "Octane.C174_runs",
    "Octane.C174_checked",
    "Octane.C174_merge",
    "Octane.C174_one",
    "Octane.C174_around"
   ],
   "note": "C174_runs: set-up never panics; C174_checked: the same router as with overflow checks; C174_merge and C174_one: what runs; C174_around: a case where the other build panics."
  }
 ]
}