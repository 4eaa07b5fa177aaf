{
 "claims": [
  {
   "property": "C01",
   "status": "proved",
   "theorems": [
    "Verif.C01_literal_map"
   ],
   "note": "Exact for every history of literal routes."
  },
  {
   "property": "C02",
   "status": "proved",
   "theorems": [
    "Verif.C02_any_history",
    "Verif.C02_condition_needed",
    "Verif.C02_sound"
   ],
   "note": "C02_sound: every history; whenever the served route has no empty or colon-only segment it matches and the parameters are its bindings, whatever the other routes are. C02_any_history: what remains true for all other served routes. C02_condition_needed: the plain statement is false for those (a route with an empty segment is grafted onto a parameter node)."
  },
  {
   "property": "C03",
   "status": "partial",
   "theorems": [
    "Verif.C03_covering_partial",
    "Verif.C03_exact",
    "Verif.C03_first_partial",
    "Verif.C03_literal_partial",
    "Verif.C03_reachable_partial",
    "Verif.C03_unique_partial",
    "Verif.C03_violated",
    "Verif.C03_violated_prefix"
   ],
   "note": "Full statement false: C03_violated (another method), C03_violated_prefix (a longer route registered first). Proved when every competing route also matches and covers the method (C03_reachable_partial), when there is no other competitor (C03_unique_partial), and when all competitors are literal (C03_literal_partial). C03_first_partial: in every table, odd routes included, the route registered first always is reachable. C03_covering_partial: in every table a route without empty or colon-only segments is reachable for a path if all routes that read the path cover the method and are not longer. C03_exact and C04 give the exact rule."
  },
  {
   "property": "C04",
   "status": "proved",
   "theorems": [
    "Verif.C04_arbitration",
    "Verif.C04_not_found"
   ],
   "note": "Exact winner and exact reason of a miss, stated on positions in the registration history."
  },
  {
   "property": "C05",
   "status": "proved",
   "theorems": [
    "Verif.C05_params"
   ],
   "note": "Every history; condition on the served route only (necessary: C02_condition_needed)."
  },
  {
   "property": "C06",
   "status": "proved",
   "theorems": [
    "Verif.C06_literal_again",
    "Verif.C06_literal_reregistration",
    "Verif.C06_param_reregistration_ignored"
   ],
   "note": "Every history; condition on the re-registered route only. C06_literal_reregistration: also for a literal route that was not registered itself, in tables without empty or colon-only segments."
  },
  {
   "property": "C07",
   "status": "partial",
   "theorems": [
    "Verif.C07_culprit",
    "Verif.C07_exact",
    "Verif.C07_fresh_partial",
    "Verif.C07_literal_partial",
    "Verif.C07_requests_partial",
    "Verif.C07_unread_partial",
    "Verif.C07_violated"
   ],
   "note": "Full statement false: C07_violated. Two proved cases; C07_exact is the exact effect of one more registration. C07_culprit: in every table, odd routes included, only a further route that reads the path and is longer than it or does not cover the method can hide it; C07_unread_partial and C07_requests_partial: lookups and whole answers stay the same as long as no further route reads the path."
  },
  {
   "property": "C08",
   "status": "proved",
   "theorems": [
    "Verif.C08_condition_needed",
    "Verif.C08_every",
    "Verif.C08_frame",
    "Verif.C08_requests"
   ],
   "note": "Every history; condition on the new route only, necessary by C08_condition_needed."
  },
  {
   "property": "C09",
   "status": "proved",
   "theorems": [
    "Verif.C09_method_sound",
    "Verif.C09_other_methods",
    "Verif.C09_pseudo_methods_not_found",
    "Verif.C09_single_route"
   ],
   "note": ""
  },
  {
   "property": "C10",
   "status": "proved",
   "theorems": [
    "Verif.C10_no_slash",
    "Verif.C10_root",
    "Verif.C10_segments"
   ],
   "note": ""
  },
  {
   "property": "C11",
   "status": "proved",
   "theorems": [
    "Verif.C11_find_returns"
   ],
   "note": ""
  },
  {
   "property": "C12",
   "status": "proved",
   "theorems": [
    "Verif.C12_buffer_overwritten",
    "Verif.C12_server_buffer"
   ],
   "note": ""
  },
  {
   "property": "C13",
   "status": "proved",
   "theorems": [
    "Verif.C13_determined",
    "Verif.C13_found_iff",
    "Verif.C13_possible"
   ],
   "note": ""
  },
  {
   "property": "C14",
   "status": "proved",
   "theorems": [
    "Verif.C14_tree_first"
   ],
   "note": ""
  },
  {
   "property": "C15",
   "status": "proved",
   "theorems": [
    "Verif.C15_any_table",
    "Verif.C15_unsupported_method"
   ],
   "note": ""
  },
  {
   "property": "C16",
   "status": "proved",
   "theorems": [
    "Verif.C16_convenience",
    "Verif.C16_nil_set",
    "Verif.C16_registers_copy"
   ],
   "note": ""
  },
  {
   "property": "C17",
   "status": "proved",
   "theorems": [
    "Verif.C17_order"
   ],
   "note": ""
  },
  {
   "property": "C18",
   "status": "proved",
   "theorems": [
    "Verif.C18_error"
   ],
   "note": ""
  },
  {
   "property": "C19",
   "status": "proved",
   "theorems": [
    "Verif.C19_init",
    "Verif.C19_init_witness",
    "Verif.C19_stop"
   ],
   "note": ""
  },
  {
   "property": "C20",
   "status": "proved",
   "theorems": [
    "Verif.C20_skipMain"
   ],
   "note": ""
  },
  {
   "property": "C21",
   "status": "proved",
   "theorems": [
    "Verif.C21_last"
   ],
   "note": ""
  },
  {
   "property": "C22",
   "status": "proved",
   "theorems": [
    "Verif.C22_errors"
   ],
   "note": ""
  },
  {
   "property": "C23",
   "status": "proved",
   "theorems": [
    "Verif.C23_cancel"
   ],
   "note": ""
  },
  {
   "property": "C24",
   "status": "proved",
   "theorems": [
    "Verif.C24_debug"
   ],
   "note": ""
  },
  {
   "property": "C25",
   "status": "proved",
   "theorems": [
    "Verif.C25_no_route",
    "Verif.C25_only_unrouted",
    "Verif.C25_unrouted"
   ],
   "note": ""
  },
  {
   "property": "C26",
   "status": "proved",
   "theorems": [
    "Verif.C26_gate",
    "Verif.C26_settings"
   ],
   "note": ""
  },
  {
   "property": "C27",
   "status": "proved",
   "theorems": [
    "Verif.C27_request",
    "Verif.C27_valid"
   ],
   "note": ""
  },
  {
   "property": "C28",
   "status": "partial",
   "theorems": [
    "Verif.C28_exact",
    "Verif.C28_in_table_partial",
    "Verif.C28_violated",
    "Verif.C28_violated_witness"
   ],
   "note": "Full statement false: C28_violated (unknown user, empty password is accepted; C28_violated_witness is a concrete header). C28_in_table_partial for non-empty passwords, C28_exact is the exact characterisation."
  },
  {
   "property": "C29",
   "status": "proved",
   "theorems": [
    "Verif.C29_malformed",
    "Verif.C29_request"
   ],
   "note": ""
  },
  {
   "property": "C30",
   "status": "partial",
   "theorems": [
    "Verif.C30_exact",
    "Verif.C30_login_partial",
    "Verif.C30_violated",
    "Verif.C30_violated_witness"
   ],
   "note": "Full statement false: C30_violated (':' or upper-case letters), with a witness. C30_login_partial for all other entries; C30_exact says exactly which entries can be used, and by which names."
  },
  {
   "property": "C31",
   "status": "proved",
   "theorems": [
    "Verif.C31_logged_once"
   ],
   "note": ""
  },
  {
   "property": "C32",
   "status": "proved",
   "theorems": [
    "Verif.C32_snapshot",
    "Verif.C32_snapshot_reg"
   ],
   "note": ""
  },
  {
   "property": "C33",
   "status": "partial",
   "theorems": [
    "Verif.C33_exact",
    "Verif.C33_template",
    "Verif.C33_template_reg",
    "Verif.C33_unguarded",
    "Verif.C33_violated"
   ],
   "note": "C33_template proves it for calls on the same set; C33_violated shows that with user-made clones slice aliasing breaks it. C33_exact: after any program, a call changes the handlers of a registered route iff it is Before or After on a set of the program whose list has room in the same array, over a cell the route uses, with another handler; no other call does."
  },
  {
   "property": "C34",
   "status": "proved",
   "theorems": [
    "Verif.C34_programs",
    "Verif.C34_router_calls",
    "Verif.C34_set_calls"
   ],
   "note": ""
  },
  {
   "property": "C35",
   "status": "partial",
   "theorems": [
    "Verif.C35_calls_partial",
    "Verif.C35_exact",
    "Verif.C35_programs_partial",
    "Verif.C35_violated"
   ],
   "note": "Full statement false: C35_violated (LastAfter on two routers sharing spare capacity). Proved for all programs without such a LastAfter. C35_exact: after any program, LastAfter on one router changes another one iff its after-list has room and its next cell is in use by the other router for another handler."
  },
  {
   "property": "C36",
   "status": "proved",
   "theorems": [
    "Verif.C36_peek",
    "Verif.C36_peekMulti"
   ],
   "note": ""
  },
  {
   "property": "C37",
   "status": "partial",
   "theorems": [
    "Verif.C37_exact",
    "Verif.C37_url_wins_partial",
    "Verif.C37_violated"
   ],
   "note": "Full statement false: C37_violated (empty segment). Proved for non-empty segments; C37_exact says exactly what is returned for empty ones, and that PeekMultiParam is never overridden."
  },
  {
   "property": "C38",
   "status": "partial",
   "theorems": [
    "Verif.C38_exact",
    "Verif.C38_squeeze",
    "Verif.C38_violated_order"
   ],
   "note": "C38_squeeze proves the exact map, for all forms. C38_violated_order: values are not in form order. C38_exact: they are iff there are fewer than two or the first two are equal."
  },
  {
   "property": "C39",
   "status": "proved",
   "theorems": [
    "Verif.C39_bool"
   ],
   "note": ""
  },
  {
   "property": "C40",
   "status": "proved",
   "theorems": [
    "Verif.C40_calls",
    "Verif.C40_data",
    "Verif.C40_site"
   ],
   "note": ""
  },
  {
   "property": "C41",
   "status": "proved",
   "theorems": [
    "Verif.C41_host",
    "Verif.C41_usual"
   ],
   "note": ""
  },
  {
   "property": "C42",
   "status": "proved",
   "theorems": [
    "Verif.C42_cookie"
   ],
   "note": ""
  },
  {
   "property": "C43",
   "status": "proved",
   "theorems": [
    "Verif.C43_cookies",
    "Verif.C43_params"
   ],
   "note": ""
  },
  {
   "property": "C44",
   "status": "proved",
   "theorems": [
    "Verif.C44_address"
   ],
   "note": ""
  },
  {
   "property": "C45",
   "status": "partial",
   "theorems": [
    "Verif.C45_exact",
    "Verif.C45_first",
    "Verif.C45_once",
    "Verif.C45_run_partial",
    "Verif.C45_violated",
    "Verif.C45_wraps"
   ],
   "note": "C45_once/_first/_wraps: any number of Shutdown callers, all interleavings. C45_violated: signal and time-out path of Run bypass the counter. C45_run_partial: whole life of a Run without those. C45_exact: the exact number of calls in every execution."
  },
  {
   "property": "C46",
   "status": "partial",
   "theorems": [
    "Verif.C46_exact",
    "Verif.C46_exclusion",
    "Verif.C46_progress",
    "Verif.C46_registrations",
    "Verif.C46_root_atomic",
    "Verif.C46_violated"
   ],
   "note": "C46_exclusion/_root_atomic/_progress prove it for root routes and between registrations; C46_violated: lookups of other routes read Children without a lock. C46_exact: exactly when registrations and lookups race."
  },
  {
   "property": "C47",
   "status": "proved",
   "theorems": [
    "Verif.C47_debugf",
    "Verif.C47_filter",
    "Verif.C47_methods",
    "Verif.C47_only"
   ],
   "note": ""
  },
  {
   "property": "C48",
   "status": "proved",
   "theorems": [
    "Verif.C48_names",
    "Verif.C48_parse"
   ],
   "note": ""
  },
  {
   "property": "C49",
   "status": "proved",
   "theorems": [
    "Verif.C49_isolated",
    "Verif.C49_values"
   ],
   "note": ""
  },
  {
   "property": "C50",
   "status": "partial",
   "theorems": [
    "Verif.C50_exact",
    "Verif.C50_record",
    "Verif.C50_record_partial",
    "Verif.C50_violated"
   ],
   "note": "C50_record is the exact record written. C50_violated: configured level instead of the message level. C50_record_partial: where the property does hold. C50_exact: for which messages and keys the record has the message's own level and its text."
  },
  {
   "property": "C51",
   "status": "proved",
   "theorems": [
    "Verif.C51_inside"
   ],
   "note": ""
  },
  {
   "property": "C52",
   "status": "partial",
   "theorems": [
    "Verif.C52_exact",
    "Verif.C52_inside_partial",
    "Verif.C52_violated"
   ],
   "note": "Full statement false: C52_violated (double percent-decoding leaves the directory). C52_inside_partial for paths without percent escapes; C52_exact: for every routed path and directory, the exact name opened, and exactly when it is inside the directory."
  },
  {
   "property": "C53",
   "status": "partial",
   "theorems": [
    "Verif.C53_directory",
    "Verif.C53_exact",
    "Verif.C53_exact_slash",
    "Verif.C53_no_listing",
    "Verif.C53_redirect",
    "Verif.C53_violated"
   ],
   "note": "All parts proved except the last one, which is false (C53_violated). C53_exact and C53_exact_slash say exactly which requests reach which file."
  },
  {
   "property": "C54",
   "status": "proved",
   "theorems": [
    "Verif.C54_bounds"
   ],
   "note": ""
  },
  {
   "property": "C55",
   "status": "partial",
   "theorems": [
    "Verif.C55_exact",
    "Verif.C55_rfc",
    "Verif.C55_violated"
   ],
   "note": "C55_exact/_total: exact meaning of every header. C55_rfc: agrees with RFC 7233 for every well-formed header. C55_violated: malformed headers that are accepted."
  },
  {
   "property": "C56",
   "status": "proved",
   "theorems": [
    "Verif.C56_head",
    "Verif.C56_multi",
    "Verif.C56_single",
    "Verif.C56_unsatisfiable",
    "Verif.C56_whole",
    "Verif.C56_wraps"
   ],
   "note": "C56_wraps shows the bound on the total is needed."
  },
  {
   "property": "C57",
   "status": "proved",
   "theorems": [
    "Verif.C57_answer",
    "Verif.C57_conditions",
    "Verif.C57_last_modified",
    "Verif.C57_not_modified"
   ],
   "note": ""
  },
  {
   "property": "C58",
   "status": "proved",
   "theorems": [
    "Verif.C58_ifMatch",
    "Verif.C58_ifNoneMatch",
    "Verif.C58_scan"
   ],
   "note": ""
  },
  {
   "property": "C59",
   "status": "proved",
   "theorems": [
    "Verif.C59_exact",
    "Verif.C59_local",
    "Verif.C59_text"
   ],
   "note": ""
  },
  {
   "property": "C60",
   "status": "proved",
   "theorems": [
    "Verif.C60_idempotent",
    "Verif.C60_trim"
   ],
   "note": ""
  },
  {
   "property": "C61",
   "status": "partial",
   "theorems": [
    "Verif.C61_exact",
    "Verif.C61_violated"
   ],
   "note": "Full statement false (C61_violated); C61_exact is the exact condition."
  },
  {
   "property": "C62",
   "status": "proved",
   "theorems": [
    "Verif.C62_answer",
    "Verif.C62_below"
   ],
   "note": ""
  },
  {
   "property": "C63",
   "status": "partial",
   "theorems": [
    "Verif.C63_provisos",
    "Verif.C63_release_partial",
    "Verif.C63_violated",
    "Verif.C63_violated_leak",
    "Verif.C63_where"
   ],
   "note": "False on abort, panic and failing session initialiser (C63_violated; C63_violated_leak: the goroutine then reads the parameters of another request); C63_release_partial for all other endings; C63_provisos shows that each of its four provisos is needed. C63_where: for every request, which part of it left the goroutines running."
  },
  {
   "property": "C64",
   "status": "proved",
   "theorems": [
    "Verif.C64_clone_control",
    "Verif.C64_flags",
    "Verif.C64_others"
   ],
   "note": ""
  },
  {
   "property": "C65",
   "status": "partial",
   "theorems": [
    "Verif.C65_exact",
    "Verif.C65_lost",
    "Verif.C65_returns_partial",
    "Verif.C65_serves",
    "Verif.C65_terminates",
    "Verif.C65_violated"
   ],
   "note": "False for one start-up race (C65_violated); C65_returns_partial for all other executions, C65_terminates for the number of steps. C65_exact: in every execution, the only other end is serving with nobody watching; C65_lost: what can still end that."
  },
  {
   "property": "C66",
   "status": "partial",
   "theorems": [
    "Verif.C66_blocks",
    "Verif.C66_exact",
    "Verif.C66_violated"
   ],
   "note": "False: C66_blocks proves that Run does not return in any execution without cancellation, signal or failure. C66_violated is a concrete stuck state. C66_exact: which executions end with the return of Run."
  },
  {
   "property": "C67",
   "status": "proved",
   "theorems": [
    "Verif.C67_result"
   ],
   "note": ""
  },
  {
   "property": "C68",
   "status": "partial",
   "theorems": [
    "Verif.C68_exact",
    "Verif.C68_parts",
    "Verif.C68_type_partial",
    "Verif.C68_violated"
   ],
   "note": "False if the request has a Content-Type header (C68_violated); C68_type_partial for all other requests. C68_exact and C68_parts: the type of every answer, with one part or several."
  },
  {
   "property": "C69",
   "status": "proved",
   "theorems": [
    "Verif.C69_dir",
    "Verif.C69_serveFile"
   ],
   "note": ""
  },
  {
   "property": "C70",
   "status": "partial",
   "theorems": [
    "Verif.C70_exact",
    "Verif.C70_fixed",
    "Verif.C70_opens_partial",
    "Verif.C70_serves_partial",
    "Verif.C70_violated"
   ],
   "note": "C70_fixed: same file for every request, all names. C70_opens_partial: clean names. C70_violated: index pages and percent escapes. C70_exact: for every configured name, the exact name opened."
  },
  {
   "property": "C71",
   "status": "partial",
   "theorems": [
    "Verif.C71_location",
    "Verif.C71_never",
    "Verif.C71_violated"
   ],
   "note": "False (C71_violated); C71_location is the exact location; C71_never: for no request is it the right one."
  },
  {
   "property": "C72",
   "status": "proved",
   "theorems": [
    "Verif.C72_serves"
   ],
   "note": ""
  },
  {
   "property": "C73",
   "status": "proved",
   "theorems": [
    "Verif.C73_calls",
    "Verif.C73_snapshot"
   ],
   "note": ""
  },
  {
   "property": "C74",
   "status": "partial",
   "theorems": [
    "Verif.C74_ends_partial",
    "Verif.C74_exact",
    "Verif.C74_progress_partial",
    "Verif.C74_self_deadlock",
    "Verif.C74_violated"
   ],
   "note": "C74_progress_partial: no deadlock if no handler calls a builder of its own set. C74_self_deadlock: for every continuation otherwise. C74_violated: concrete stuck state. C74_exact: blocked states are reachable exactly if there is a request and a handler (in the set, or given to it by a builder call, the last handler included) that makes a builder call on its own set. C74_ends_partial: otherwise all is over after a bounded number of rounds, in any fair schedule."
  },
  {
   "property": "C75",
   "status": "proved",
   "theorems": [
    "Verif.C75_router_literal",
    "Verif.C75_router_reg",
    "Verif.C75_router_route",
    "Verif.C75_set_reg",
    "Verif.C75_set_route"
   ],
   "note": ""
  },
  {
   "property": "C76",
   "status": "partial",
   "theorems": [
    "Verif.C76_exact",
    "Verif.C76_fix_methods",
    "Verif.C76_no_other",
    "Verif.C76_serves",
    "Verif.C76_serves_set",
    "Verif.C76_violated"
   ],
   "note": "C76_serves/C76_serves_set/C76_no_other for prefixes of plain text (ASCII characters without a meaning in expressions, and other characters in UTF-8); C76_exact: for text with dots the route answers below other directories too, exactly if there is a dot; C76_violated for other signs. C76_fix_methods: the fixed file route answers GET and POST only."
  },
  {
   "property": "C77",
   "status": "proved",
   "theorems": [
    "Verif.C77_exact",
    "Verif.C77_serves"
   ],
   "note": "C77_exact: for every routed path, whatever escapes it contains, the exact name opened."
  },
  {
   "property": "C78",
   "status": "partial",
   "theorems": [
    "Verif.C78_exact",
    "Verif.C78_requests_partial",
    "Verif.C78_violated"
   ],
   "note": "C78_requests_partial: all interleavings, all request shapes, if handlers keep to their own context and logger. C78_violated: four races with calls made while requests are served. C78_exact: exactly which calls on a server race with which requests."
  },
  {
   "property": "C79",
   "status": "partial",
   "theorems": [
    "Verif.C79_configure_partial",
    "Verif.C79_exact",
    "Verif.C79_tune_partial",
    "Verif.C79_use_partial",
    "Verif.C79_violated"
   ],
   "note": "C79_use_partial, C79_configure_partial, C79_tune_partial: three disciplines that are race free. C79_violated: seven races, between them involving every other logger method. C79_exact: the exact table for the methods of one logger."
  },
  {
   "property": "C80",
   "status": "partial",
   "theorems": [
    "Verif.C80_clones_partial",
    "Verif.C80_exact",
    "Verif.C80_violated"
   ],
   "note": "C80_clones_partial; C80_violated for the context itself. C80_exact: the exact table for one context."
  },
  {
   "property": "C81",
   "status": "partial",
   "theorems": [
    "Verif.C81_exact",
    "Verif.C81_registration_partial",
    "Verif.C81_router",
    "Verif.C81_violated"
   ],
   "note": "C81_registration_partial; C81_violated for regular expressions, Clone, GetBefore, GetAfter. C81_exact: exactly which registration calls and lookups race."
  },
  {
   "property": "C82",
   "status": "partial",
   "theorems": [
    "Verif.C82_circle",
    "Verif.C82_exact",
    "Verif.C82_no_deadlock_partial",
    "Verif.C82_violated"
   ],
   "note": "C82_no_deadlock_partial: arbitrary calls by goroutines, handlers without builder calls on sets. C82_violated: two requests with handlers that change each other's set, for every continuation. C82_exact: for all requests and goroutines, nobody is ever blocked for good iff there is no circle of handler sets, each run by a request whose handlers lock a set of the circle; C82_circle: with a circle, a request of each of its sets can hang for ever."
  },
  {
   "property": "C83",
   "status": "partial",
   "theorems": [
    "Verif.C83_any",
    "Verif.C83_exact",
    "Verif.C83_roundtrip_partial",
    "Verif.C83_violated"
   ],
   "note": "C83_exact: the exact result for every well-formed request; C83_any: for every request whatsoever. C83_violated: name lost, values with an equals sign, empty values. C83_roundtrip_partial: values set with SetCookie."
  },
  {
   "property": "C84",
   "status": "partial",
   "theorems": [
    "Verif.C84_again",
    "Verif.C84_exact",
    "Verif.C84_limit_partial",
    "Verif.C84_unlimited",
    "Verif.C84_violated"
   ],
   "note": "C84_limit_partial: limit set while no goroutine runs, after any history; C84_again: a second limit panics exactly while one is not done. C84_unlimited: no or negative limit. C84_violated: limit set after a goroutine was started. C84_exact: exactly what a limit does, whenever it is set."
  },
  {
   "property": "C85",
   "status": "partial",
   "theorems": [
    "Verif.C85_burst",
    "Verif.C85_exact",
    "Verif.C85_exact_length",
    "Verif.C85_paths_partial",
    "Verif.C85_times_partial",
    "Verif.C85_violated"
   ],
   "note": "C85_times_partial: one path, times in the same 10^16 ns. C85_paths_partial: one time, paths that differ within eight bytes. C85_violated: collisions. C85_exact: for all times and paths, exactly which requests collide (C85_exact_length: texts of one length; C85_burst: differences within 64 consecutive bits never do)."
  },
  {
   "property": "C86",
   "status": "proved",
   "theorems": [
    "Verif.C86_lines",
    "Verif.C86_record",
    "Verif.C86_string"
   ],
   "note": "For every encoder that writes the members of an object in some order (JsonEncoder); jsonEncoder_exists shows there is one. Floating point numbers, structs and custom marshalers are not values of the model."
  },
  {
   "property": "C87",
   "status": "proved",
   "theorems": [
    "Verif.C87_body",
    "Verif.C87_response",
    "Verif.C87_silent",
    "Verif.C87_unrouted"
   ],
   "note": "C87_response: every change made by a handler, each starting from what the one before left. C87_body, C87_silent: consequences. Request goroutines do not write to the response in the model."
  },
  {
   "property": "C88",
   "status": "partial",
   "theorems": [
    "Verif.C88_exact",
    "Verif.C88_lines_partial",
    "Verif.C88_message",
    "Verif.C88_violated"
   ],
   "note": "Full statement false: C88_violated (line breaks in the path). C88_message: the exact text for every request. C88_lines_partial: the number of lines. C88_exact: one line iff the request failed and neither address nor reason has a line break."
  },
  {
   "property": "C89",
   "status": "partial",
   "theorems": [
    "Verif.C89_ctx_debugf",
    "Verif.C89_debugf",
    "Verif.C89_handlers_begin",
    "Verif.C89_initialiser_exact",
    "Verif.C89_isolated",
    "Verif.C89_message",
    "Verif.C89_server",
    "Verif.C89_violated"
   ],
   "note": "C89_server, C89_handlers_begin, C89_isolated, C89_message, C89_debugf, C89_ctx_debugf prove all but the last sentence, which is false: C89_violated. C89_initialiser_exact: the handlers see the initialiser's logger only if it left it as a fresh one."
  },
  {
   "property": "C90",
   "status": "proved",
   "theorems": [
    "Verif.C90_answer",
    "Verif.C90_fixed_answer",
    "Verif.C90_fixed_file",
    "Verif.C90_missing",
    "Verif.C90_static_embedded",
    "Verif.C90_static_file"
   ],
   "note": ""
  },
  {
   "property": "C91",
   "status": "proved",
   "theorems": [
    "Verif.C91_bounded",
    "Verif.C91_exclusive",
    "Verif.C91_not_found",
    "Verif.C91_own_parameters",
    "Verif.C91_progress"
   ],
   "note": ""
  },
  {
   "property": "C92",
   "status": "proved",
   "theorems": [
    "Verif.C92_fails",
    "Verif.C92_getters",
    "Verif.C92_served",
    "Verif.C92_serves"
   ],
   "note": "C92_getters, C92_served (what Run hands to fasthttp), C92_serves (when it does). The log and authentication settings are C89, C27."
  },
  {
   "property": "C93",
   "status": "partial",
   "theorems": [
    "Verif.C93_address",
    "Verif.C93_closed",
    "Verif.C93_early",
    "Verif.C93_exact",
    "Verif.C93_restart_partial",
    "Verif.C93_socket",
    "Verif.C93_stays",
    "Verif.C93_unstoppable",
    "Verif.C93_violated"
   ],
   "note": "Full statement false: C93_violated, and for all executions C93_unstoppable (counter), C93_closed and C93_address (listener), C93_early (Shutdown before Run). C93_restart_partial: with a shutdown timeout and an open listener a Run can be stopped however often the server was stopped before; C93_stays: without a cancelled context, signal or failure no Run returns or shuts the server down. C93_exact: for any earlier history and timeout, exactly which executions end with the return of Run. C93_socket: the same told of a whole server and the sockets it uses."
  },
  {
   "property": "C94",
   "status": "partial",
   "theorems": [
    "Verif.C94_exact",
    "Verif.C94_own",
    "Verif.C94_released_partial",
    "Verif.C94_socket_partial",
    "Verif.C94_violated"
   ],
   "note": "Full statement false: C94_violated (certificate cannot be loaded). C94_released_partial: all executions in which fasthttp came to serve and no shutdown was attempted before that. C94_exact: exactly when the listener is closed, in every execution. C94_socket_partial, C94_own: in whole Runs of whole servers the socket beneath the listener, TLS or not, is closed, and no other."
  },
  {
   "property": "C95",
   "status": "proved",
   "theorems": [
    "Verif.C95_listing",
    "Verif.C95_nil"
   ],
   "note": "Histories as in C01: clean routes, or routes without parameters. The order of the entries of one line is that of the map; the theorem quantifies over all orders."
  },
  {
   "property": "C96",
   "status": "proved",
   "theorems": [
    "Verif.C96_empty",
    "Verif.C96_same_table",
    "Verif.C96_table"
   ],
   "note": ""
  },
  {
   "property": "C97",
   "status": "proved",
   "theorems": [
    "Verif.C97_exact",
    "Verif.C97_order",
    "Verif.C97_reading",
    "Verif.C97_server"
   ],
   "note": ""
  },
  {
   "property": "C98",
   "status": "proved",
   "theorems": [
    "Verif.C98_example_1",
    "Verif.C98_example_2",
    "Verif.C98_example_3",
    "Verif.C98_server",
    "Verif.C98_video"
   ],
   "note": ""
  },
  {
   "property": "C99",
   "status": "partial",
   "theorems": [
    "Verif.C99_comes_back_partial",
    "Verif.C99_exact",
    "Verif.C99_line_partial",
    "Verif.C99_violated"
   ],
   "note": "C99_line_partial: what an RFC 6265 client (Spec/SetCookie) reads, for all writable arguments. C99_exact: the client is told what was asked exactly for the writable ones. C99_comes_back_partial: any number of calls, any store, any later request. C99_violated: no call removes a cookie (negative lifetimes are not written), and an escaped semicolon in the path injects attributes."
  },
  {
   "property": "C100",
   "status": "partial",
   "theorems": [
    "Verif.C100_arrives_partial",
    "Verif.C100_exact",
    "Verif.C100_same",
    "Verif.C100_violated",
    "Verif.C100_violated_example"
   ],
   "note": "C100_arrives_partial: intact segments (Spec/Wire). C100_exact: what the router sees equals what was sent iff the segments are intact. C100_same: all segments. C100_violated: all other segments, whatever way they are written; C100_violated_example: an escaped slash reaches another route."
  },
  {
   "property": "C101",
   "status": "proved",
   "theorems": [
    "Verif.C101_params"
   ],
   "note": ""
  },
  {
   "property": "C102",
   "status": "proved",
   "theorems": [
    "Verif.C102_covered",
    "Verif.C102_slash"
   ],
   "note": ""
  },
  {
   "property": "C103",
   "status": "partial",
   "theorems": [
    "Verif.C103_dialogue_partial",
    "Verif.C103_exact",
    "Verif.C103_repeat",
    "Verif.C103_violated"
   ],
   "note": "The message and the charset are put between quotes without escaping: a client reads what was configured iff they contain no quote, backslash or line break (C103_exact; C103_violated, with a forged parameter as example). The dialogue is proved for such messages and for the entries that can be used (C30)."
  },
  {
   "property": "C104",
   "status": "partial",
   "theorems": [
    "Verif.C104_ends_partial",
    "Verif.C104_exact",
    "Verif.C104_limit",
    "Verif.C104_stuck",
    "Verif.C104_violated",
    "Verif.C104_zero"
   ],
   "note": "False in general: with limit n, n goroutines that call EGGo can hang for ever, for every n (C104_violated), and so does a goroutine that calls EGWait. Proved if there is no limit or the limit is greater than the number of goroutines that may call EGGo (the bound is sharp) and only the handlers call EGWait: every schedule is finite and none gets stuck (C104_ends_partial). C104_stuck describes every hanging state. Without EGTryGo, C104_exact says which requests can hang: those of which n goroutines can stand before an EGGo at the same time, a number given by recursion over the functions; C104_zero settles limit 0 for all requests. Missing: an exact condition with EGTryGo."
  },
  {
   "property": "C105",
   "status": "proved",
   "theorems": [
    "Verif.C105_content",
    "Verif.C105_none",
    "Verif.C105_one",
    "Verif.C105_ranges"
   ],
   "note": ""
  },
  {
   "property": "C106",
   "status": "proved",
   "theorems": [
    "Verif.C106_revalidate"
   ],
   "note": ""
  },
  {
   "property": "C107",
   "status": "proved",
   "theorems": [
    "Verif.C107_resume"
   ],
   "note": ""
  },
  {
   "property": "C108",
   "status": "proved",
   "theorems": [
    "Verif.C108_added",
    "Verif.C108_gate",
    "Verif.C108_nil",
    "Verif.C108_other",
    "Verif.C108_revoked"
   ],
   "note": ""
  },
  {
   "property": "C109",
   "status": "proved",
   "theorems": [
    "Verif.C109_routed",
    "Verif.C109_same",
    "Verif.C109_unrouted"
   ],
   "note": ""
  },
  {
   "property": "C110",
   "status": "proved",
   "theorems": [
    "Verif.C110_none",
    "Verif.C110_range",
    "Verif.C110_registers",
    "Verif.C110_resume",
    "Verif.C110_revalidate"
   ],
   "note": ""
  },
  {
   "property": "C111",
   "status": "partial",
   "theorems": [
    "Verif.C111_global",
    "Verif.C111_isolated",
    "Verif.C111_last",
    "Verif.C111_rctx_exact",
    "Verif.C111_request",
    "Verif.C111_values",
    "Verif.C111_violated"
   ],
   "note": "RCtx is documented as the \"local\" context from the request but returns the server's context: of a request that is over, RCtx need not be cancelled and lacks the request's values (C111_violated). C111_rctx_exact says exactly when RCtx is cancelled as the request is, and which values it has. All the rest is proved for every history: C111_request, C111_last, C111_global, C111_values, C111_isolated."
  },
  {
   "property": "C112",
   "status": "partial",
   "theorems": [
    "Verif.C112_exact",
    "Verif.C112_prefix_partial",
    "Verif.C112_range",
    "Verif.C112_serveContent",
    "Verif.C112_sniffed",
    "Verif.C112_violated",
    "Verif.C112_whole_partial"
   ],
   "note": "Full statement false: a file that shrank is announced with its old size and sent truncated with status 200, and several ranges of a file without Seek are answered 206 with the header of the first part and no bytes (C112_violated). Proved for every request: same status, headers and error as for the intact file, body a beginning of its body, or 416 for a file without Seek (C112_prefix_partial); exactly which bytes are sent whole (C112_whole_partial) or for one range (C112_range); 500 when the type must be sniffed without Seek (C112_sniffed). C112_exact: for which files all requests are answered as for the intact file: exactly those that can seek and did not shrink."
  },
  {
   "property": "C113",
   "status": "proved",
   "theorems": [
    "Verif.C113_needed",
    "Verif.C113_schedule"
   ],
   "note": ""
  },
  {
   "property": "C114",
   "status": "proved",
   "theorems": [
    "Verif.C114_calendar",
    "Verif.C114_exact",
    "Verif.C114_law",
    "Verif.C114_read",
    "Verif.C114_resume",
    "Verif.C114_since",
    "Verif.C114_texts",
    "Verif.C114_written"
   ],
   "note": ""
  },
  {
   "property": "C115",
   "status": "partial",
   "theorems": [
    "Verif.C115_debugf_partial",
    "Verif.C115_exact",
    "Verif.C115_one_reading",
    "Verif.C115_utc_partial",
    "Verif.C115_violated",
    "Verif.C115_when_made"
   ],
   "note": "The full statement is false of the code (C115_violated): the stamp is the local time of the server with a literal Z, is taken when the logger is made and not when the message is logged, and leaves out zeros at the end, so that stamps of one second do not sort by time. Proved: exactly what the stamp says (C115_exact, with one reading per text), that it is right in UTC (C115_utc_partial, C115_debugf_partial), and which moment it is (C115_when_made)."
  },
  {
   "property": "C116",
   "status": "proved",
   "theorems": [
    "Verif.C116_calls",
    "Verif.C116_exact",
    "Verif.C116_pair"
   ],
   "note": ""
  },
  {
   "property": "C117",
   "status": "proved",
   "theorems": [
    "Verif.C117_chain",
    "Verif.C117_cookie",
    "Verif.C117_example_1",
    "Verif.C117_server",
    "Verif.C117_video"
   ],
   "note": ""
  },
  {
   "property": "C118",
   "status": "partial",
   "theorems": [
    "Verif.C118_encoding",
    "Verif.C118_headers",
    "Verif.C118_static",
    "Verif.C118_status",
    "Verif.C118_tag",
    "Verif.C118_type_exact",
    "Verif.C118_type_partial",
    "Verif.C118_violated"
   ],
   "note": "False for the type: serveContent looks for a Content-Type in the request instead of the response (fs.go:242), so the type set by a handler is replaced by that of the name or the content (C118_violated; the static_video example sets video/mp4 this way). Proved: C118_type_exact says exactly when it is kept for the whole content or one range (multipart answers carry their own type, see C68_parts); everything else in the statement holds as it stands (C118_headers, C118_tag, C118_encoding, C118_status, C118_static)."
  },
  {
   "property": "C119",
   "status": "partial",
   "theorems": [
    "Verif.C119_all",
    "Verif.C119_call",
    "Verif.C119_ends",
    "Verif.C119_exact",
    "Verif.C119_partial",
    "Verif.C119_success",
    "Verif.C119_violated"
   ],
   "note": "False at the end: io.EOF comes along with the last entries when fewer than n are left, where *os.File reports it with the next, empty result (C119_violated); C119_exact says exactly what each call returns. The rest holds: C119_call, C119_all, C119_ends."
  },
  {
   "property": "C120",
   "status": "proved",
   "theorems": [
    "Verif.C120_answer",
    "Verif.C120_bytes",
    "Verif.C120_ends",
    "Verif.C120_untouched"
   ],
   "note": ""
  },
  {
   "property": "C121",
   "status": "proved",
   "theorems": [
    "Verif.C121_closed",
    "Verif.C121_one",
    "Verif.C121_opened",
    "Verif.C121_same"
   ],
   "note": ""
  },
  {
   "property": "C122",
   "status": "partial",
   "theorems": [
    "Verif.C122_exact",
    "Verif.C122_possible",
    "Verif.C122_served_partial",
    "Verif.C122_static",
    "Verif.C122_violated"
   ],
   "note": "The full statement is false of the code (C122_violated): expressions are kept in a map keyed by pointer and visited in random order, so a path that expressions with different handler sets match is answered now by one and now by another; a static route registered again for its prefix does not replace the earlier one, and nested prefixes answer for each other. Proved: which answers are possible (C122_possible, for static routes C122_static), that the answer is determined exactly if the tree answers or all matching expressions have one handler set (C122_exact), and that processing then does not depend on the order (C122_served_partial)."
  },
  {
   "property": "C123",
   "status": "proved",
   "theorems": [
    "Verif.C123_exact",
    "Verif.C123_unchanged"
   ],
   "note": ""
  },
  {
   "property": "C124",
   "status": "partial",
   "theorems": [
    "Verif.C124_again_exact",
    "Verif.C124_beyond",
    "Verif.C124_missing",
    "Verif.C124_resume_exact",
    "Verif.C124_seek",
    "Verif.C124_type_exact",
    "Verif.C124_violated",
    "Verif.C124_watch_partial"
   ],
   "note": "Watching (bytes, Cache-Control), seeking and the missing file are proved for all contents, clocks and requests; asking again and resuming are characterised exactly (C124_again_exact, C124_resume_exact: only within the second of the first answer, because the handler passes the time of the request as modification time), and so is the type (C124_type_exact: \"video/mp4\" survives only if the request itself has a Content-Type). C124_violated is the example: two seconds later the video is sent whole again, to both, and it is called text/plain. C124_missing: a file that cannot be opened is answered with the status and body that were there before."
  },
  {
   "property": "C125",
   "status": "proved",
   "theorems": [
    "Verif.C125_paths",
    "Verif.C125_session"
   ],
   "note": ""
  },
  {
   "property": "C126",
   "status": "proved",
   "theorems": [
    "Verif.C126_completes",
    "Verif.C126_one_version",
    "Verif.C126_rest",
    "Verif.C126_same_second"
   ],
   "note": ""
  },
  {
   "property": "C127",
   "status": "proved",
   "theorems": [
    "Verif.C127_again",
    "Verif.C127_always",
    "Verif.C127_backup",
    "Verif.C127_fresh"
   ],
   "note": ""
  },
  {
   "property": "C128",
   "status": "proved",
   "theorems": [
    "Verif.C128_one_bit",
    "Verif.C128_others",
    "Verif.C128_silent"
   ],
   "note": ""
  },
  {
   "property": "C129",
   "status": "proved",
   "theorems": [
    "Verif.C129_covered",
    "Verif.C129_one_version",
    "Verif.C129_piece"
   ],
   "note": ""
  },
  {
   "property": "C130",
   "status": "proved",
   "theorems": [
    "Verif.C130_before_replaces",
    "Verif.C130_noninterference",
    "Verif.C130_one_router",
    "Verif.C130_refused",
    "Verif.C130_table"
   ],
   "note": ""
  },
  {
   "property": "C131",
   "status": "proved",
   "theorems": [
    "Verif.C131_names",
    "Verif.C131_read",
    "Verif.C131_requests",
    "Verif.C131_routing"
   ],
   "note": ""
  },
  {
   "property": "C132",
   "status": "proved",
   "theorems": [
    "Verif.C132_any_order",
    "Verif.C132_check",
    "Verif.C132_every",
    "Verif.C132_exact",
    "Verif.C132_parts",
    "Verif.C132_parts_requests",
    "Verif.C132_requests"
   ],
   "note": ""
  },
  {
   "property": "C133",
   "status": "proved",
   "theorems": [
    "Verif.C133_below",
    "Verif.C133_condition_needed",
    "Verif.C133_every",
    "Verif.C133_moved",
    "Verif.C133_moved_every"
   ],
   "note": ""
  },
  {
   "property": "C134",
   "status": "proved",
   "theorems": [
    "Verif.C134_page",
    "Verif.C134_provisos",
    "Verif.C134_status"
   ],
   "note": ""
  },
  {
   "property": "C135",
   "status": "partial",
   "theorems": [
    "Verif.C135_fixed",
    "Verif.C135_prefixes_partial",
    "Verif.C135_violated"
   ],
   "note": "C135_prefixes_partial: everything for StaticFile and StaticFileFS. Missing: FixStaticFileFS, which registers its route for GET and POST: every HEAD request for it is answered 404 \"not found\" by the router, without the handler being called (C135_fixed; C135_violated is a concrete request)."
  },
  {
   "property": "C136",
   "status": "proved",
   "theorems": [
    "Verif.C136_every_table",
    "Verif.C136_parameters",
    "Verif.C136_reload",
    "Verif.C136_requests",
    "Verif.C136_twice"
   ],
   "note": ""
  },
  {
   "property": "C137",
   "status": "proved",
   "theorems": [
    "Verif.C137_served",
    "Verif.C137_shorter",
    "Verif.C137_table"
   ],
   "note": ""
  },
  {
   "property": "C138",
   "status": "proved",
   "theorems": [
    "Verif.C138_alike",
    "Verif.C138_bytes",
    "Verif.C138_served",
    "Verif.C138_unrouted"
   ],
   "note": ""
  },
  {
   "property": "C139",
   "status": "partial",
   "theorems": [
    "Verif.C139_clone",
    "Verif.C139_debugf",
    "Verif.C139_exact",
    "Verif.C139_own",
    "Verif.C139_requests",
    "Verif.C139_silent",
    "Verif.C139_stays",
    "Verif.C139_violated",
    "Verif.C139_written_partial"
   ],
   "note": "Full statement false: C139_violated. C139_exact: exactly which calls write nothing; C139_stays, C139_silent: the silence lasts until a call replaces the field; C139_clone: clones are as silent; C139_written_partial: the full statement for all histories that give loggers only fields that have JSON; C139_own: the same of each logger for itself. C139_requests, C139_debugf: requests do not silence each other, Debugf is never lost."
  },
  {
   "property": "C140",
   "status": "partial",
   "theorems": [
    "Verif.C140_later_partial",
    "Verif.C140_literal_partial",
    "Verif.C140_requests",
    "Verif.C140_same",
    "Verif.C140_violated"
   ],
   "note": "Full statement false: C140_violated (two tables). C140_same: exact for a route with a parameter that is registered several times, C140_requests: for whole requests; C140_literal_partial: tables of literal routes; C140_later_partial: every table, other routes that come later and do not read the path."
  }
 ]
}