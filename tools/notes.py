STATUS = {}
NOTE = {
'C01': 'Exact for every history of literal routes.',
'C02': 'C02_sound: every history; whenever the served route has no empty or colon-only segment it matches and the parameters are its bindings, whatever the other routes are. C02_any_history: what remains true for all other served routes. C02_condition_needed: the plain statement is false for those (a route with an empty segment is grafted onto a parameter node).',
'C03': 'Full statement false: C03_violated (another method), C03_violated_prefix (a longer route registered first). Proved when every competing route also matches and covers the method (C03_reachable_partial), when there is no other competitor (C03_unique_partial), and when all competitors are literal (C03_literal_partial). C03_first_partial: in every table, odd routes included, the route registered first always is reachable. C03_covering_partial: in every table a route without empty or colon-only segments is reachable for a path if all routes that read the path cover the method and are not longer. C03_exact and C04 give the exact rule.',
'C04': 'Exact winner and exact reason of a miss, stated on positions in the registration history.',
'C05': 'Every history; condition on the served route only (necessary: C02_condition_needed).',
'C06': 'Every history; condition on the re-registered route only. C06_literal_reregistration: also for a literal route that was not registered itself, in tables without empty or colon-only segments.',
'C07': 'Full statement false: C07_violated. Two proved cases; C07_exact is the exact effect of one more registration. C07_culprit: in every table, odd routes included, only a further route that reads the path and is longer than it or does not cover the method can hide it; C07_unread_partial and C07_requests_partial: lookups and whole answers stay the same as long as no further route reads the path.',
'C08': 'Every history; condition on the new route only, necessary by C08_condition_needed.',
'C28': 'Full statement false: C28_violated (unknown user, empty password is accepted; C28_violated_witness is a concrete header). C28_in_table_partial for non-empty passwords, C28_exact is the exact characterisation.',
'C30': "Full statement false: C30_violated (':' or upper-case letters), with a witness. C30_login_partial for all other entries; C30_exact says exactly which entries can be used, and by which names.",
'C33': 'C33_template proves it for calls on the same set; C33_violated shows that with user-made clones slice aliasing breaks it. C33_exact: after any program, a call changes the handlers of a registered route iff it is Before or After on a set of the program whose list has room in the same array, over a cell the route uses, with another handler; no other call does.',
'C35': 'Full statement false: C35_violated (LastAfter on two routers sharing spare capacity). Proved for all programs without such a LastAfter. C35_exact: after any program, LastAfter on one router changes another one iff its after-list has room and its next cell is in use by the other router for another handler.',
'C37': 'Full statement false: C37_violated (empty segment). Proved for non-empty segments; C37_exact says exactly what is returned for empty ones, and that PeekMultiParam is never overridden.',
'C38': "C38_squeeze proves the exact map, for all forms. C38_violated_order: values are not in form order. C38_exact: they are iff there are fewer than two or the first two are equal.",
'C45': 'C45_once/_first/_wraps: any number of Shutdown callers, all interleavings. C45_violated: signal and time-out path of Run bypass the counter. C45_run_partial: whole life of a Run without those. C45_exact: the exact number of calls in every execution.',
'C46': 'C46_exclusion/_root_atomic/_progress prove it for root routes and between registrations; C46_violated: lookups of other routes read Children without a lock. C46_exact: exactly when registrations and lookups race.',
'C50': 'C50_record is the exact record written. C50_violated: configured level instead of the message level. C50_record_partial: where the property does hold. C50_exact: for which messages and keys the record has the message\'s own level and its text.',
'C52': 'Full statement false: C52_violated (double percent-decoding leaves the directory). C52_inside_partial for paths without percent escapes; C52_exact: for every routed path and directory, the exact name opened, and exactly when it is inside the directory.',
'C53': 'All parts proved except the last one, which is false (C53_violated). C53_exact and C53_exact_slash say exactly which requests reach which file.',
'C55': 'C55_exact/_total: exact meaning of every header. C55_rfc: agrees with RFC 7233 for every well-formed header. C55_violated: malformed headers that are accepted.',
'C56': 'C56_wraps shows the bound on the total is needed.',
'C61': 'Full statement false (C61_violated); C61_exact is the exact condition.',
'C65': 'False for one start-up race (C65_violated); C65_returns_partial for all other executions, C65_terminates for the number of steps. C65_exact: in every execution, the only other end is serving with nobody watching; C65_lost: what can still end that.',
'C66': 'False: C66_blocks proves that Run does not return in any execution without cancellation, signal or failure. C66_violated is a concrete stuck state. C66_exact: which executions end with the return of Run.',
'C68': 'False if the request has a Content-Type header (C68_violated); C68_type_partial for all other requests. C68_exact and C68_parts: the type of every answer, with one part or several.',
'C77': 'C77_exact: for every routed path, whatever escapes it contains, the exact name opened.',
'C70': 'C70_fixed: same file for every request, all names. C70_opens_partial: clean names. C70_violated: index pages and percent escapes. C70_exact: for every configured name, the exact name opened.',
'C74': 'C74_progress_partial: no deadlock if no handler calls a builder of its own set. C74_self_deadlock: for every continuation otherwise. C74_violated: concrete stuck state. C74_exact: blocked states are reachable exactly if there is a request and a handler (in the set, or given to it by a builder call, the last handler included) that makes a builder call on its own set. C74_ends_partial: otherwise all is over after a bounded number of rounds, in any fair schedule.',
'C71': 'False (C71_violated); C71_location is the exact location; C71_never: for no request is it the right one.',
'C76': 'C76_serves/C76_serves_set/C76_no_other for prefixes of plain text (ASCII characters without a meaning in expressions, and other characters in UTF-8); C76_exact: for text with dots the route answers below other directories too, exactly if there is a dot; C76_violated for other signs. C76_fix_methods: the fixed file route answers GET and POST only.',
'C78': 'C78_requests_partial: all interleavings, all request shapes, if handlers keep to their own context and logger. C78_violated: four races with calls made while requests are served. C78_exact: exactly which calls on a server race with which requests.',
'C79': 'C79_use_partial, C79_configure_partial, C79_tune_partial: three disciplines that are race free. C79_violated: seven races, between them involving every other logger method. C79_exact: the exact table for the methods of one logger.',
'C80': 'C80_clones_partial; C80_violated for the context itself. C80_exact: the exact table for one context.',
'C81': 'C81_registration_partial; C81_violated for regular expressions, Clone, GetBefore, GetAfter. C81_exact: exactly which registration calls and lookups race.',
'C82': 'C82_no_deadlock_partial: arbitrary calls by goroutines, handlers without builder calls on sets. C82_violated: two requests with handlers that change each other\'s set, for every continuation. C82_exact: for all requests and goroutines, nobody is ever blocked for good iff there is no circle of handler sets, each run by a request whose handlers lock a set of the circle; C82_circle: with a circle, a request of each of its sets can hang for ever.',
'C83': 'C83_exact: the exact result for every well-formed request; C83_any: for every request whatsoever. C83_violated: name lost, values with an equals sign, empty values. C83_roundtrip_partial: values set with SetCookie.',
'C84': 'C84_limit_partial: limit set while no goroutine runs, after any history; C84_again: a second limit panics exactly while one is not done. C84_unlimited: no or negative limit. C84_violated: limit set after a goroutine was started. C84_exact: exactly what a limit does, whenever it is set.',
'C85': 'C85_times_partial: one path, times in the same 10^16 ns. C85_paths_partial: one time, paths that differ within eight bytes. C85_violated: collisions. C85_exact: for all times and paths, exactly which requests collide (C85_exact_length: texts of one length; C85_burst: differences within 64 consecutive bits never do).',
'C86': 'For every encoder that writes the members of an object in some order (JsonEncoder); jsonEncoder_exists shows there is one. Floating point numbers, structs and custom marshalers are not values of the model.',
'C87': 'C87_response: every change made by a handler, each starting from what the one before left. C87_body, C87_silent: consequences. Request goroutines do not write to the response in the model.',
'C88': 'Full statement false: C88_violated (line breaks in the path). C88_message: the exact text for every request. C88_lines_partial: the number of lines. C88_exact: one line iff the request failed and neither address nor reason has a line break.',
'C89': 'C89_server, C89_handlers_begin, C89_isolated, C89_message, C89_debugf, C89_ctx_debugf prove all but the last sentence, which is false: C89_violated. C89_initialiser_exact: the handlers see the initialiser\'s logger only if it left it as a fresh one.',
'C63': 'False on abort, panic and failing session initialiser (C63_violated; C63_violated_leak: the goroutine then reads the parameters of another request); C63_release_partial for all other endings; C63_provisos shows that each of its four provisos is needed. C63_where: for every request, which part of it left the goroutines running.',
'C92': 'C92_getters, C92_served (what Run hands to fasthttp), C92_serves (when it does). The log and authentication settings are C89, C27.',
'C93': 'Full statement false: C93_violated, and for all executions C93_unstoppable (counter), C93_closed and C93_address (listener), C93_early (Shutdown before Run). C93_restart_partial: with a shutdown timeout and an open listener a Run can be stopped however often the server was stopped before; C93_stays: without a cancelled context, signal or failure no Run returns or shuts the server down. C93_exact: for any earlier history and timeout, exactly which executions end with the return of Run. C93_socket: the same told of a whole server and the sockets it uses.',
'C94': 'Full statement false: C94_violated (certificate cannot be loaded). C94_released_partial: all executions in which fasthttp came to serve and no shutdown was attempted before that. C94_exact: exactly when the listener is closed, in every execution. C94_socket_partial, C94_own: in whole Runs of whole servers the socket beneath the listener, TLS or not, is closed, and no other.',
'C95': 'Histories as in C01: clean routes, or routes without parameters. The order of the entries of one line is that of the map; the theorem quantifies over all orders.',
'C99': 'C99_line_partial: what an RFC 6265 client (Spec/SetCookie) reads, for all writable arguments. C99_exact: the client is told what was asked exactly for the writable ones. C99_comes_back_partial: any number of calls, any store, any later request. C99_violated: no call removes a cookie (negative lifetimes are not written), and an escaped semicolon in the path injects attributes.',
'C100': 'C100_arrives_partial: intact segments (Spec/Wire). C100_exact: what the router sees equals what was sent iff the segments are intact. C100_same: all segments. C100_violated: all other segments, whatever way they are written; C100_violated_example: an escaped slash reaches another route.',
'C103': 'The message and the charset are put between quotes without escaping: a client reads what was configured iff they contain no quote, backslash or line break (C103_exact; C103_violated, with a forged parameter as example). The dialogue is proved for such messages and for the entries that can be used (C30).',
'C104': 'False in general: with limit n, n goroutines that call EGGo can hang for ever, for every n (C104_violated), and so does a goroutine that calls EGWait. Proved if there is no limit or the limit is greater than the number of goroutines that may call EGGo (the bound is sharp) and only the handlers call EGWait: every schedule is finite and none gets stuck (C104_ends_partial). C104_stuck describes every hanging state. Without EGTryGo, C104_exact says which requests can hang: those of which n goroutines can stand before an EGGo at the same time, a number given by recursion over the functions; C104_zero settles limit 0 for all requests. Missing: an exact condition with EGTryGo.',
'C111': 'RCtx is documented as the "local" context from the request but returns the server\'s context: of a request that is over, RCtx need not be cancelled and lacks the request\'s values (C111_violated). C111_rctx_exact says exactly when RCtx is cancelled as the request is, and which values it has. All the rest is proved for every history: C111_request, C111_last, C111_global, C111_values, C111_isolated.',
'C112': 'Full statement false: a file that shrank is announced with its old size and sent truncated with status 200, and several ranges of a file without Seek are answered 206 with the header of the first part and no bytes (C112_violated). Proved for every request: same status, headers and error as for the intact file, body a beginning of its body, or 416 for a file without Seek (C112_prefix_partial); exactly which bytes are sent whole (C112_whole_partial) or for one range (C112_range); 500 when the type must be sniffed without Seek (C112_sniffed). C112_exact: for which files all requests are answered as for the intact file: exactly those that can seek and did not shrink.',
'C115': 'The full statement is false of the code (C115_violated): the stamp is the local time of the server with a literal Z, is taken when the logger is made and not when the message is logged, and leaves out zeros at the end, so that stamps of one second do not sort by time. Proved: exactly what the stamp says (C115_exact, with one reading per text), that it is right in UTC (C115_utc_partial, C115_debugf_partial), and which moment it is (C115_when_made).',
'C118': 'False for the type: serveContent looks for a Content-Type in the request instead of the response (fs.go:242), so the type set by a handler is replaced by that of the name or the content (C118_violated; the static_video example sets video/mp4 this way). Proved: C118_type_exact says exactly when it is kept for the whole content or one range (multipart answers carry their own type, see C68_parts); everything else in the statement holds as it stands (C118_headers, C118_tag, C118_encoding, C118_status, C118_static).',
'C119': 'False at the end: io.EOF comes along with the last entries when fewer than n are left, where *os.File reports it with the next, empty result (C119_violated); C119_exact says exactly what each call returns. The rest holds: C119_call, C119_all, C119_ends.',
'C122': 'The full statement is false of the code (C122_violated): expressions are kept in a map keyed by pointer and visited in random order, so a path that expressions with different handler sets match is answered now by one and now by another; a static route registered again for its prefix does not replace the earlier one, and nested prefixes answer for each other. Proved: which answers are possible (C122_possible, for static routes C122_static), that the answer is determined exactly if the tree answers or all matching expressions have one handler set (C122_exact), and that processing then does not depend on the order (C122_served_partial).',
'C124': 'Watching (bytes, Cache-Control), seeking and the missing file are proved for all contents, clocks and requests; asking again and resuming are characterised exactly (C124_again_exact, C124_resume_exact: only within the second of the first answer, because the handler passes the time of the request as modification time), and so is the type (C124_type_exact: "video/mp4" survives only if the request itself has a Content-Type). C124_violated is the example: two seconds later the video is sent whole again, to both, and it is called text/plain. C124_missing: a file that cannot be opened is answered with the status and body that were there before.',
'C135': 'C135_prefixes_partial: everything for StaticFile and StaticFileFS. Missing: FixStaticFileFS, which registers its route for GET and POST: every HEAD request for it is answered 404 "not found" by the router, without the handler being called (C135_fixed; C135_violated is a concrete request).',
'C139': 'Full statement false: C139_violated. C139_exact: exactly which calls write nothing; C139_stays, C139_silent: the silence lasts until a call replaces the field; C139_clone: clones are as silent; C139_written_partial: the full statement for all histories that give loggers only fields that have JSON; C139_own: the same of each logger for itself. C139_requests, C139_debugf: requests do not silence each other, Debugf is never lost.',
'C140': 'Full statement false: C140_violated (two tables). C140_same: exact for a route with a parameter that is registered several times, C140_requests: for whole requests; C140_literal_partial: tables of literal routes; C140_later_partial: every table, other routes that come later and do not read the path.',
}
