{"id": "C01", "title": "Literal routes behave like a map", "statement": "After any sequence of route registrations none of whose segments starts with ':', looking up (method, path) returns the handler set of the latest registration whose normalised segments equal those of the path and whose method covers the request method, with no URL parameters; it reports not-found exactly when there is no such registration.", "quantifier": "all finite registration histories of ':'-free routes, all methods, all request paths (byte strings)", "why_tests_cant": "Needs every history of registrations and every path; the tree shape depends on the whole history, tests only try a handful of tables.", "anchors": ["tree.go:Tree.Add", "tree.go:Tree._add", "tree.go:nextNodes", "tree.go:Tree.Find", "tree.go:addMethod"]}
{"id": "C02", "title": "Only registered routes are served", "statement": "If a lookup finds handler set S and URL parameters A for (method, path), then S was registered, with a method covering the request method, under a route with as many segments as the path; if that route has no empty and no colon-only segment it matches the path segment by segment (equal text for literal segments, anything for ':' segments) and A is exactly the list of its (name, segment) bindings, whatever the other routes are; otherwise it matches up to its first such segment.", "quantifier": "all registration histories, all methods and paths (without the condition on the served route's segments the statement is false: witness)", "why_tests_cant": "A wrong handler could be reached through any interleaving of prefix sharing; only an invariant over all histories excludes it.", "anchors": ["tree.go:Tree.Find", "tree.go:Tree._add", "tree.go:nextNodes", "tree.go:getUrlID"]}
{"id": "C03", "title": "A registered route is reachable", "statement": "If some registered route for the request's method matches the path, the lookup finds a handler set.", "quantifier": "all registration histories, methods, paths (violated by the code when an earlier-created branch of the tree also matches the path but has no handler for the method; proved when no other route competes)", "why_tests_cant": "The failing tables depend on registration order and on prefixes of longer routes; example tables rarely contain a conflict.", "anchors": ["tree.go:Tree.Find (lines 135-153)", "tree.go:Tree._add"]}
{"id": "C04", "title": "Route arbitration is first-created-branch-first", "statement": "When several registered routes match a path, the one served is determined by registration order alone: at the first segment where they diverge the branch created by the earlier registration wins, identical literal branches being shared; the handler set is the latest one registered on the winning branch for the method.", "quantifier": "all registration histories (routes without empty or colon-only segments), methods, paths", "why_tests_cant": "An exact arbitration rule must be checked against every table and every path at once.", "anchors": ["tree.go:Tree.Find", "tree.go:Tree._add", "tree.go:nextNodes"]}
{"id": "C05", "title": "URL parameters are the matched segments, in route order", "statement": "When a lookup succeeds, the parameters handed to the handler are, in order, one (name, value) pair for each ':name' segment of the served route, the value being the path segment at the same position; repeated names give repeated pairs; segments never leak between competing branches.", "quantifier": "all registration histories, methods, paths, every served route without empty or colon-only segments", "why_tests_cant": "Branches explored and abandoned by the search each carry their own copies; absence of leakage needs all tables.", "anchors": ["tree.go:Tree.Find", "tree.go:cloneArgs", "tree.go:getUrlID"]}
{"id": "C06", "title": "Re-registration: literal routes are replaced, parameter routes are not", "statement": "Registering the same ':'-free route again for the same method makes every later lookup that it wins use the new handler set; registering the same route containing a ':' segment again never changes the handler set served for any path that was already found.", "quantifier": "all histories whatsoever, all re-registered routes without empty or colon-only segments, all methods and paths", "why_tests_cant": "Requires quantifying over what was registered before, between and after the two registrations.", "anchors": ["tree.go:Tree._add", "tree.go:nextNodes", "tree.go:addMethod"]}
{"id": "C07", "title": "Registering more routes never hides a found path", "statement": "If (method, path) is found, it is still found, with the same URL parameters, after any further registrations. (Violated: POST /a/b registered last hides GET /:p/b for /a/b when /a/x existed: witness. Proved when every further route starts with a parameter or with a new literal first segment - then handler set and parameters stay the same - and for tables of literal routes, where the path stays found.)", "quantifier": "all registration histories, all further registration sequences, all methods and paths", "why_tests_cant": "A monotonicity statement over arbitrary histories and arbitrary extensions.", "anchors": ["tree.go:Tree.Add", "tree.go:Tree._add", "tree.go:Tree.Find"]}
{"id": "C08", "title": "Registration has no effect on paths it does not match", "statement": "Registering a route without empty or colon-only segments leaves the result of every lookup unchanged for every path that neither the route nor any of its prefixes matches, whatever was registered before. A route with such segments leaves unchanged every lookup of a path that it, cut to the length of the path, does not accept segment by segment up to its first empty segment. Requests for such paths are answered as before.", "quantifier": "all histories whatsoever, all newly registered routes without empty or colon-only segments, all methods and paths (routes with empty segments do change lookups of paths they do not match: witness; which they cannot change is proved for every new route); all servers and requests", "why_tests_cant": "A frame property: quantifies over all other paths.", "anchors": ["tree.go:Tree._add", "tree.go:nextNodes"]}
{"id": "C09", "title": "Method coverage", "statement": "A registration for GetPost answers exactly GET and POST, one for GetHead exactly GET and HEAD, any other method exactly itself; a GET registration does not answer HEAD; the pseudo-methods themselves are never found; registering for one method never removes another method of the same route.", "quantifier": "all histories, routes, method strings and paths", "why_tests_cant": "Method is an arbitrary string; must hold for all histories mixing methods.", "anchors": ["tree.go:addMethod", "methods.go", "reg_tree.go:RegTree.Add"]}
{"id": "C10", "title": "Path normalisation", "statement": "Leading and trailing slashes, and surrounding white space, of routes and request paths are insignificant: the segments of a '/'-joined list of clean segments with any number of extra slashes and outer white space are exactly that list; a path consisting of slashes and/or white space is the root; segments never contain '/'.", "quantifier": "all byte strings, all lists of segments, any number of extra slashes", "why_tests_cant": "Unbounded strings; trimming is done in three stages that interact.", "anchors": ["tree.go:splitPath"]}
{"id": "C11", "title": "Lookup terminates without panicking and without blow-up", "statement": "Every lookup on every tree returns: no index is out of range, and the search examines each tree node at most once, however many branches match.", "quantifier": "all trees, methods, paths", "why_tests_cant": "Termination and worst-case work over unbounded trees.", "anchors": ["tree.go:Tree.Find"]}
{"id": "C12", "title": "The caller's parameter buffer is overwritten", "statement": "Whatever the argument buffer held before a lookup, afterwards it holds exactly the parameters of the served route, and is empty if nothing was found or the root or a regular expression route was found.", "quantifier": "all prior buffer contents, trees, regexp tables, methods, paths", "why_tests_cant": "Buffers come from a pool, so stale contents are arbitrary.", "anchors": ["tree.go:Tree.Find", "reg_tree.go:RegTree.Find", "server.go:Server.Find"]}
{"id": "C13", "title": "Regular-expression routes: found iff one matches", "statement": "A lookup among regular expression routes finds a handler set iff some expression registered for the method matches the path, and the set found belongs to such an expression, whatever order the table is visited in; when exactly one registered expression matches the answer is determined; the answers that are possible over all orders are exactly the latest registrations of the matching expressions.", "quantifier": "all registration histories, methods, paths, all iteration orders of the Go map", "why_tests_cant": "Go randomises map iteration; a test sees only a few orders.", "anchors": ["reg_tree.go:RegTree.Find", "reg_tree.go:RegTree.Add"]}
{"id": "C14", "title": "Tree routes take precedence over regular expressions", "statement": "The server answers from the segment tree whenever it has an answer, consults regular expressions only otherwise, and answers not-found only if both fail.", "quantifier": "all servers, methods, paths, iteration orders", "why_tests_cant": "Quantifies over all pairs of tables.", "anchors": ["server.go:Server.Find"]}
{"id": "C15", "title": "Registering a regular expression under an unsupported method", "statement": "Registering a regular expression route succeeds for the nine HTTP methods and the two combined ones and panics for every other method string, leaving the table unchanged.", "quantifier": "all method strings, all tables", "why_tests_cant": "Infinitely many method strings.", "anchors": ["reg_tree.go:RegTree.Add", "reg_tree.go:newRegTree"]}
{"id": "C16", "title": "Convenience registration without a handler set", "statement": "Server.Get/Post/... with an explicit handler set registers a copy of it with the given main handler; called without the optional set the registration panics and registers nothing.", "quantifier": "all servers, routes, handlers, methods", "why_tests_cant": "The optional argument is used differently from what its signature promises; all states must be covered.", "anchors": ["server.go:Server.Add", "server.go:nonEmptySet", "top_handler.go:HandlerSet.Clone"]}
{"id": "C17", "title": "Handlers run in the documented order", "statement": "For every request the handlers executed are a prefix of: main.Init, the before handlers in order, main.Run unless SkipMain was called earlier, the after handlers in order; each executed at most once.", "quantifier": "all handler sets of any length, all handler behaviours (any API calls, any error, panic), all initial contexts", "why_tests_cant": "Arbitrary numbers of arbitrary handlers.", "anchors": ["top_handler.go:HandlerSet.Run"]}
{"id": "C18", "title": "An error stops the chain and is the result", "statement": "The first handler that returns an error is the last one run and its error is the chain's result; if none does the result is nil.", "quantifier": "all handler sets, behaviours, contexts", "why_tests_cant": "Arbitrary numbers of arbitrary handlers.", "anchors": ["top_handler.go:HandlerSet.Run"]}
{"id": "C19", "title": "Stop and Abort end the chain", "statement": "Once a before, main or after handler has called Stop or Abort no later handler of the chain runs. (A Stop or Abort inside Init or the session initialiser takes effect only after the next handler has run: proved exactly, with a witness.)", "quantifier": "all handler sets, behaviours, contexts", "why_tests_cant": "Position of the stopping handler is arbitrary.", "anchors": ["top_handler.go:HandlerSet.Run", "ctx.go:Context.Stop", "ctx.go:Context.Abort", "ctx.go:Context.Stopped"]}
{"id": "C20", "title": "SkipMain skips exactly the main handler", "statement": "If SkipMain has been called when the before handlers end normally, main.Run is not executed and all after handlers still are (unless stopped or failed); if it has not, main.Run is executed.", "quantifier": "all handler sets, behaviours, contexts", "why_tests_cant": "Arbitrary handler behaviour.", "anchors": ["top_handler.go:HandlerSet.Run", "ctx.go:Context.SkipMain"]}
{"id": "C21", "title": "The last handler runs exactly once with the combined error", "statement": "For every routed request whose session initialiser succeeds and which is not aborted (and in which no handler panics) the last handler runs exactly once, after every other handler and after all request goroutines ended, and receives nil iff chain and goroutines all succeeded; on Abort, unrouted request or initialiser failure it never runs.", "quantifier": "all handler sets, behaviours, goroutine outcomes and completion orders", "why_tests_cant": "Needs all combinations of failures, stops and schedules.", "anchors": ["server_run.go:Server.runHTTP", "top_handler.go:HandlerSet.RunLast"]}
{"id": "C22", "title": "No goroutine error is lost", "statement": "Unless the request is aborted, the error passed to the last handler mentions the chain's error if there is one, and otherwise is the error of the first failing request goroutine; if any goroutine failed the error is non-nil, whatever the schedule.", "quantifier": "all goroutine sets and completion orders", "why_tests_cant": "Schedules are unbounded.", "anchors": ["server_run.go:Server.runHTTP", "ctx.go:Context.EGWait", "ctx.go:Context.EGGo"]}
{"id": "C23", "title": "Request context is cancelled when the request is over", "statement": "When request processing ends for a routed request - normally, by error, by abort, by failing initialiser or by a handler panic - the request context has been cancelled; during the handler chain it is not cancelled unless Abort was called or a request goroutine failed. (The last handler always sees a cancelled context, because waiting for the request goroutines cancels it.)", "quantifier": "all handler behaviours and outcomes", "why_tests_cant": "All exit paths of the request function.", "anchors": ["server_run.go:Server.runHTTP", "ctx.go:NewContext", "ctx.go:Context.Abort"]}
{"id": "C24", "title": "The debug trace tells the truth", "statement": "In debug mode the list of called handlers reported by the context is exactly the names of the handlers of the chain executed, in order (the main handler appearing for Init and again for Run, the last handler never); outside debug mode nothing is recorded.", "quantifier": "all handler sets and behaviours that neither change the log level nor add names themselves", "why_tests_cant": "Arbitrary numbers of handlers.", "anchors": ["ctx.go:Context.AddDebugHandleName", "ctx.go:Context.CalledHandles", "top_handler.go:HandlerSet.Run"]}
{"id": "C25", "title": "Unrouted requests get 404 and run nothing", "statement": "A request whose method and path are in neither table is answered 404 'not found', and no initialiser, handler or last handler runs.", "quantifier": "all servers, requests", "why_tests_cant": "All tables and requests.", "anchors": ["server_run.go:Server.runHTTP"]}
{"id": "C26", "title": "Authentication gates everything", "statement": "If basic authentication is enabled and the access function demands it, a request whose credentials are refused runs no initialiser and no handler at all, and is answered 401 with the configured WWW-Authenticate challenge.", "quantifier": "all servers, requests, headers, handler sets", "why_tests_cant": "All headers and handlers.", "anchors": ["server_run.go:Server.ServeHTTP", "baseauth.go:BaseAuth.Check"]}
{"id": "C27", "title": "Valid credentials are accepted", "statement": "A standard 'Basic' header (scheme in any letter case) for a user and password in the role table is accepted, for every non-empty user name without ':' and upper-case letters and every password without ':'.", "quantifier": "all users, passwords, role tables", "why_tests_cant": "Unbounded strings through base64.", "anchors": ["baseauth.go:BaseAuth.getUserPassword", "baseauth.go:BaseAuth.Check"]}
{"id": "C28", "title": "Accepted credentials are in the role table", "statement": "If a request is accepted then the decoded user is a key of the role table and the decoded password is its value. (Violated: an unknown user with an empty password is accepted; proved for non-empty passwords, with the exact characterisation.)", "quantifier": "all headers, role tables", "why_tests_cant": "An attacker chooses the header; all byte strings count.", "anchors": ["baseauth.go:BaseAuth.Check"]}
{"id": "C29", "title": "Malformed Authorization headers are refused", "statement": "A header that is empty, has no space, has another scheme, is not valid base64, or decodes to something without ':' is refused, whatever the role table holds.", "quantifier": "all byte strings, all role tables", "why_tests_cant": "Infinitely many malformed headers.", "anchors": ["baseauth.go:BaseAuth.getUserPassword"]}
{"id": "C30", "title": "Every configured user can log in", "statement": "For every entry of the role table the owner can authenticate with the standard header. (Violated for passwords containing ':' and user names containing ':' or upper-case ASCII letters: such entries can never be used; proved for all others.)", "quantifier": "all role tables and headers", "why_tests_cant": "All strings.", "anchors": ["baseauth.go:BaseAuth.getUserPassword"]}
{"id": "C31", "title": "Authentication decisions are logged exactly once", "statement": "When a log function is installed it is called exactly once per authentication check, with the decoded user and password and the actual decision.", "quantifier": "all headers, role tables", "why_tests_cant": "All headers.", "anchors": ["baseauth.go:BaseAuth.Check", "baseauth.go:BaseAuth.SetLogFunc"]}
{"id": "C32", "title": "Routes registered through a Router are snapshots", "statement": "The before, after, last and main handlers of a route registered through a Router are those configured on the router at that moment, and no later call on that router, its clones, or any other router or handler set changes them.", "quantifier": "all later sequences of API calls on any routers and sets, all slice growth policies", "why_tests_cant": "Go slices alias; whether an append is visible depends on capacities and on the whole history.", "anchors": ["gorouter.go:Router.Use", "gorouter.go:Router.UseReg", "top_handler.go:HandlerSet.Before"]}
{"id": "C33", "title": "Registered handler sets are isolated from their template", "statement": "After Server.Add copies a handler set, later Before/After/Use/Last calls on that same set do not change the registered route. (With user-made clones of the set in play the property is violated by slice aliasing: witness.)", "quantifier": "all later call sequences, all growth policies", "why_tests_cant": "Aliasing through spare capacity depends on history.", "anchors": ["server.go:Server.Add", "top_handler.go:HandlerSet.Clone", "top_handler.go:HandlerSet.Before"]}
{"id": "C34", "title": "Router and set builders keep order", "statement": "HandlerSet.Before/After append in call order; Router.First prepends, Router.LastAfter appends, Router.Before/After replace; the handlers run are exactly those, in that order.", "quantifier": "all call sequences on one router or set, all growth policies", "why_tests_cant": "All call sequences.", "anchors": ["gorouter.go:Router", "top_handler.go:HandlerSet"]}
{"id": "C35", "title": "Cloned routers are independent", "statement": "Calls on a cloned router never change the handlers configured on the original and vice versa. (Violated by LastAfter on two routers sharing spare capacity: witness; proved for First, Before, After, Last and for LastAfter without spare capacity.)", "quantifier": "all call sequences, all growth policies", "why_tests_cant": "Aliasing depends on capacities.", "anchors": ["gorouter.go:Router.Clone", "gorouter.go:Router.LastAfter"]}
{"id": "C36", "title": "Parameter lookup precedence", "statement": "PeekParam returns the first non-empty of: URL parameter, query parameter, form parameter; PeekMultiParam returns all values of the first source that has the name at all.", "quantifier": "all argument lists and names", "why_tests_cant": "All contents of three sources.", "anchors": ["ctx.go:Context.PeekParam", "ctx.go:Context.PeekMultiParam", "ctx.go:Context.PeekStringParam", "ctx.go:Context.PeekMultiStringParam"]}
{"id": "C37", "title": "URL parameters cannot be overridden by query or form", "statement": "If the served route binds a name, PeekParam(name) returns the URL value whatever the query and form contain. (Violated when the matched segment is empty: witness reachable through white-space trimming; proved for non-empty segments.)", "quantifier": "all routes, paths, queries, forms", "why_tests_cant": "All requests.", "anchors": ["ctx.go:Context.PeekParam", "tree.go:splitPath"]}
{"id": "C38", "title": "Form squeezing keeps every value", "statement": "SqueezeParams maps every form name with one value to that string and every name with several values to a list with exactly those values; names not in the form are absent. (The order is second, first, third, ...: proved exactly, so 'in form order' is violated.)", "quantifier": "all forms", "why_tests_cant": "Any number of repeated names.", "anchors": ["ctx.go:Context.SqueezeParams"]}
{"id": "C39", "title": "Boolean parameters", "statement": "PeekBoolParam is false exactly when the parameter is absent, empty, '0', 'f' or 'false' in any ASCII letter case.", "quantifier": "all parameter values", "why_tests_cant": "All strings.", "anchors": ["ctx.go:Context.PeekBoolParam"]}
{"id": "C40", "title": "Context data is a per-context map and clones are isolated", "statement": "Get returns the last value Set for the key on the same context; after Clone, Set on either context never affects the other. The SameSite mode of a context's cookies behaves in the same way: what SetSameSite set last on the context, else that of the original at the moment of cloning, else none.", "quantifier": "all sequences of Set/Clone on any number of contexts", "why_tests_cant": "All operation sequences.", "anchors": ["ctx.go:Context.Set", "ctx.go:Context.Get", "ctx.go:Context.Clone"]}
{"id": "C41", "title": "Host splitting", "statement": "The default cookie domain is the request host without a trailing numeric port and without enclosing brackets: for every name without ':' and brackets, with or without ':digits'; for bracketed IPv6 likewise; never panics.", "quantifier": "all host byte strings", "why_tests_cant": "All strings.", "anchors": ["ctx.go:splitHost", "ctx.go:validOptionalPort"]}
{"id": "C42", "title": "Cookie values are escaped and recoverable", "statement": "Whatever value is given to SetCookie, the stored cookie value contains only letters, digits, '-', '_', '.', '~', '+', and '%XX' escapes (so no separator or line break can be injected) and query-unescaping it gives the value back; empty path becomes '/', empty domain the host name.", "quantifier": "all values", "why_tests_cant": "All byte strings.", "anchors": ["ctx.go:Context.SetCookie"]}
{"id": "C43", "title": "Lookups by name return the first entry", "statement": "Cookies.Get, Params.Get return the first entry with the name, or the documented default if there is none; Params.ByName panics exactly when the first entry has an empty value list.", "quantifier": "all lists and names", "why_tests_cant": "All lists.", "anchors": ["ctx.go:Cookies.Get", "params/params.go:Params.Get", "params/params.go:Params.ByName"]}
{"id": "C44", "title": "Listen address", "statement": "Run listens on the single given address; with any further address it panics; the PORT environment variable and the ':8080' default are never used.", "quantifier": "all argument lists and environments", "why_tests_cant": "All argument lists.", "anchors": ["server.go:resolveAddress", "server_run.go:Server.Run"]}
{"id": "C45", "title": "Shutdown happens once", "statement": "However many goroutines call Shutdown, in any interleaving, the underlying server's shutdown is invoked exactly once (for fewer than 2^64 calls), by the first caller; all other calls return nil. (Violated when the signal handling and the time-out path of Run are counted, which bypass the counter: witness; proved for any number of Shutdown callers, and over the life of a Run without signals and time-out.)", "quantifier": "all numbers of callers and interleavings", "why_tests_cant": "Interleavings.", "anchors": ["server_run.go:Server.Shutdown"]}
{"id": "C46", "title": "Root route lookups and registrations exclude each other", "statement": "No execution has one goroutine reading the root route's handlers in a lookup while another is writing them in a registration, and no two registrations write the tree at the same time. (For non-root routes lookups do not exclude registrations: witness execution.)", "quantifier": "all numbers of goroutines, all interleavings of lookups and registrations", "why_tests_cant": "Races show up only in particular schedules.", "anchors": ["tree.go:Tree.Find", "tree.go:Tree.Add"]}
{"id": "C47", "title": "Log level filter", "statement": "A message of level l is written iff l is at most the configured level, and then exactly one line is written.", "quantifier": "all levels (any integer), all loggers, formats", "why_tests_cant": "All level pairs and logger states.", "anchors": ["logger/out.go:Logger.Log", "logger/out.go:Logger.Logf"]}
{"id": "C48", "title": "Level names round-trip", "statement": "Parse(String(l)) = l for the seven levels, Parse is case-insensitive on ASCII, 'warn' equals 'warning', every other ASCII string is an error, String of any other integer is 'unknown'.", "quantifier": "all integers, all strings", "why_tests_cant": "All strings.", "anchors": ["logger/level/level.go:Parse", "logger/level/level.go:Level.String"]}
{"id": "C49", "title": "Logger configuration is not shared", "statement": "Setting level, writer or key names on a configuration obtained from, given to, or cloned from a logger never affects that logger, and cloned loggers do not share fields.", "quantifier": "all operation sequences", "why_tests_cant": "All operation sequences on any number of loggers and configurations.", "anchors": ["logger/logger.go:Logger.SetConfig", "logger/logger.go:Logger.Config", "logger/logger.go:Logger.Clone", "logger/config/config.go:Config.Clone"]}
{"id": "C50", "title": "Written records carry the record's own level and key names", "statement": "A written record contains the level of the message under the configured level key, and the message text under the configured message key. (Violated: the configured threshold is written instead of the message's level, and the message key setters rename the error key; proved exactly what is written.)", "quantifier": "all loggers, levels, formats", "why_tests_cant": "All states.", "anchors": ["logger/out.go:Logger.Log", "logger/config/config.go:Config.MessageKey", "logger/logger.go:Logger.MessageKey"]}
{"id": "C51", "title": "Static files stay inside the root", "statement": "Whatever the request path, the name the file server asks the file system for is '.' or a slash-separated relative path without empty, '.' or '..' elements.", "quantifier": "all request paths (byte strings), all path normalisers of the HTTP library", "why_tests_cant": "An attacker chooses the path.", "anchors": ["static/static.go:fileHandler.ServeHTTP", "static/fs.go:ioFS.Open", "static/fs.go:serveFile"]}
{"id": "C52", "title": "Embedded static files stay inside the configured directory", "statement": "A request to a StaticFileFS route opens only files under the configured directory of the embedded file system. (Violated through double percent-decoding: witness; proved when the routed path contains no '%' and is normalised.)", "quantifier": "all request paths", "why_tests_cant": "An attacker chooses the path.", "anchors": ["static_embed.go:StaticHandler.Run"]}
{"id": "C53", "title": "Directories are never listed and index pages are redirected", "statement": "A file server request for a directory is answered 403 and never lists it; any path ending in '/index.html' is answered with a redirect without opening any file; index pages are never served under their own name. (The last part is violated: '/index.html/' serves the page: witness.)", "quantifier": "all file systems, all requests", "why_tests_cant": "All file systems.", "anchors": ["static/fs.go:serveFile", "static/static.go:fileHandler.ServeHTTP"]}
{"id": "C54", "title": "Byte ranges stay inside the content", "statement": "Every range accepted from a Range header starts at or after 0 and ends at or before the content size, so no read or Content-Range refers to bytes outside the content.", "quantifier": "all header strings, all sizes", "why_tests_cant": "Attacker-chosen header, all sizes.", "anchors": ["static/fs.go:parseRange"]}
{"id": "C55", "title": "Range headers mean what RFC 7233 says", "statement": "For well-formed headers: 'a-b' selects bytes a..min(b,size-1), 'a-' selects a..size-1, '-n' the last min(n,size) bytes, out-of-range specs are dropped, and 416-no-overlap is reported iff at least one spec was dropped for starting past the end and none remains; malformed specs are an error. (The last part is violated: a leading '+' is accepted, '-0' selects an empty range, and a spec starting past the end is not validated further: witnesses. Proved: the exact meaning of every header, and RFC 7233 for every well-formed one.)", "quantifier": "all lists of range specs, all sizes below 2^63", "why_tests_cant": "Unbounded lists of specs.", "anchors": ["static/fs.go:parseRange"]}
{"id": "C56", "title": "Served bytes, length and status agree", "statement": "For a GET without preconditions: no range (or ranges adding up to more than the content) gives 200 with the whole content; one range gives 206 with exactly those bytes and matching Content-Range; an unsatisfiable one gives 416; Content-Length equals the number of body bytes; HEAD gives the same headers with empty body.", "quantifier": "all contents below 2^63 bytes, all headers whose ranges add up to less than 2^63 bytes (witness that the sum wraps otherwise)", "why_tests_cant": "All contents and headers.", "anchors": ["static/fs.go:serveContent", "static/fs_utils.go:sumRangesSize"]}
{"id": "C57", "title": "Conditional requests", "statement": "If-Match / If-Unmodified-Since failing gives 412; If-None-Match matching or (without it) If-Modified-Since not older than the content gives 304 for GET/HEAD, 412 for If-None-Match with other methods; If-Match takes precedence over If-Unmodified-Since and If-None-Match over If-Modified-Since; files served by the file server carry no ETag so only '*' matches. 304 and 412 answers have no content; every other answer without an error carries the modification time if it is known.", "quantifier": "all headers, methods, modification times", "why_tests_cant": "All combinations.", "anchors": ["static/fs.go:checkPreconditions", "static/fs.go:checkIfMatch", "static/fs.go:checkIfNoneMatch", "static/fs.go:scanETag"]}
{"id": "C58", "title": "ETag scanning", "statement": "scanETag accepts exactly optional-'W/' quoted strings of allowed bytes at the start of the (trimmed) input and returns it with the rest; the header loops terminate.", "quantifier": "all byte strings", "why_tests_cant": "All strings.", "anchors": ["static/fs.go:scanETag", "static/fs.go:checkIfMatch"]}
{"id": "C59", "title": "Content sniffing is total, safe and local", "statement": "Content type detection never indexes out of range, always returns a non-empty type, depends only on the first 512 bytes, and returns text/plain only for data that starts with a byte order mark or has no binary control bytes in the first 512.", "quantifier": "all byte strings", "why_tests_cant": "All contents.", "anchors": ["static/sniff.go:DetectContentType"]}
{"id": "C60", "title": "ASCII trimming", "statement": "TrimString/TrimBytes return the longest infix that neither starts nor ends with ASCII white space; they are idempotent.", "quantifier": "all byte strings", "why_tests_cant": "All strings.", "anchors": ["internal/text/text.go:TrimString", "internal/text/text.go:TrimBytes"]}
{"id": "C61", "title": "Static handlers restore the request path", "statement": "After a static handler ran, the request path is what it was before. (Violated for paths containing a percent escape, which is decoded again: witness; proved exactly: restored iff the path contains no percent escape.)", "quantifier": "all paths and handler outcomes", "why_tests_cant": "All paths.", "anchors": ["static.go:StaticFileHandler.Run", "static_embed.go:StaticHandler.Run", "static_embed_fix.go:FixStaticHandler.Run"]}
{"id": "C62", "title": "File system errors do not leak", "statement": "The message and status sent for a file system error are one of three fixed pairs determined by the error's class; a file below a non-directory is reported as not existing.", "quantifier": "all errors, names, file systems", "why_tests_cant": "All errors.", "anchors": ["static/fs.go:toHTTPError", "static/fs.go:mapOpenError"]}
{"id": "C63", "title": "URL parameters stay valid while request goroutines run", "statement": "The pooled buffer that holds a request's URL parameters is given back only when no goroutine started by the request is still running. (Violated when the request is aborted or a handler panics: witness; proved for every request that ends otherwise.)", "quantifier": "all handler sets, behaviours, goroutine outcomes and schedules", "why_tests_cant": "A use after release shows only in particular schedules.", "anchors": ["server_run.go:Server.runHTTP", "ctx.go:Context.EGGo", "ctx.go:Context.EGWait"]}
{"id": "C64", "title": "Stop, Abort and SkipMain on a cloned context", "statement": "Calling Stop, Abort or SkipMain on a clone of a context panics and never changes whether any other context is stopped, aborted or skips its main handler. Set, SetSameSite and Clone never panic.", "quantifier": "all contexts and clones", "why_tests_cant": "Pointers may be shared between clones; all sharing patterns count.", "anchors": ["ctx.go:Context.Clone", "ctx.go:Context.Stop", "ctx.go:Context.Abort", "ctx.go:Context.SkipMain"]}
{"id": "C65", "title": "Run returns", "statement": "Once the context given to Run is cancelled, an interrupt signal arrives, or listening fails, Run returns after finitely many steps. (Violated if this happens before the HTTP library has stored its listener: Run then serves forever: witness; proved for all other schedules.)", "quantifier": "all interleavings of Run's goroutines, cancellation, signals and Shutdown callers", "why_tests_cant": "The failing schedules are races at start-up.", "anchors": ["server_run.go:Server.Run", "server_run.go:Server.Shutdown"]}
{"id": "C66", "title": "Run returns after Shutdown", "statement": "After a successful Shutdown call Run returns. (Violated: Run's watching goroutine waits for the context or a signal only; proved that Run never returns in any execution without cancellation, signal or failure, however often Shutdown is called.)", "quantifier": "all interleavings", "why_tests_cant": "Needs all continuations of an execution.", "anchors": ["server_run.go:Server.Run", "server_run.go:Server.Shutdown"]}
{"id": "C67", "title": "Run returns the first failure", "statement": "The result of Run is the first error any of its two goroutines ended with, nil if neither failed.", "quantifier": "all interleavings and errors", "why_tests_cant": "Both goroutines can fail in either order.", "anchors": ["server_run.go:Server.Run"]}
{"id": "C68", "title": "The type of a static answer is that of the file", "statement": "The Content-Type of an answer that serves a file is that of the file's extension or else detected from its first 512 bytes, whatever the request says. (Violated: a Content-Type header in the request suppresses it: witness; proved for requests without that header.)", "quantifier": "all files, names, requests", "why_tests_cant": "All requests and contents.", "anchors": ["static/fs.go:serveContent"]}
{"id": "C69", "title": "Serving from a directory stays in it", "statement": "Whatever name is asked for, opening it in a Dir opens only something in that directory; ServeFile refuses every request whose path has a '..' element without touching the file system, and otherwise opens exactly the file it was given.", "quantifier": "all directories, names, requests", "why_tests_cant": "An attacker chooses the path.", "anchors": ["static/fs.go:Dir.Open", "static/fs.go:ServeFile", "static/fs.go:containsDotDot"]}
{"id": "C70", "title": "A fixed file route serves that file", "statement": "A FixStaticFileFS route opens the configured file and no other, whatever the request. (Violated for names ending in 'index.html', where every request is redirected, and names with percent escapes: witnesses; proved for clean names, and that what is opened is the same for every request.)", "quantifier": "all names, requests, file systems", "why_tests_cant": "All requests.", "anchors": ["static_embed_fix.go:FixStaticHandler.Run"]}
{"id": "C71", "title": "Index page redirects keep the query", "statement": "The redirect of '.../index.html' points to './' with the query of the request. (Violated: the whole request URI, rewritten to the internal path, is sent as the query: witness, with the exact location.)", "quantifier": "all requests", "why_tests_cant": "All paths and queries.", "anchors": ["static/fs.go:localRedirect", "static/fs.go:serveFile"]}
{"id": "C72", "title": "An existing embedded file is served byte for byte", "statement": "A GET request without conditions and ranges to a StaticFileFS route for a file below the configured directory is answered 200 with exactly the bytes of that file, and opens nothing else.", "quantifier": "all file systems, directories, route prefixes and file names made of clean elements without percent escapes, the last one not \"index.html\" (those are redirected: C53), all contents", "why_tests_cant": "End to end through path rewriting, opening and sending, for all names and contents.", "anchors": ["static_embed.go:StaticHandler.Run", "static/fs.go:serveContent"]}
{"id": "C73", "title": "A request sees one state of its handler set", "statement": "While builder methods of a registered handler set are called concurrently, every request runs the handlers of the set as it was at one moment (all of them, in order, unless a handler ends the chain), and the last handler of the set as it was at one later moment; builder calls take effect one after the other.", "quantifier": "all sets, numbers of requests and builder calls, interleavings", "why_tests_cant": "Depends on the schedule.", "anchors": ["top_handler.go:HandlerSet.Run", "top_handler.go:HandlerSet.RunLast", "top_handler.go:HandlerSet.Before"]}
{"id": "C74", "title": "Requests and builder calls on one set do not deadlock", "statement": "Requests running on a handler set and builder calls on it never block each other for ever. (Violated if a handler calls a builder method or Clone of the set it runs in: that call never returns, no builder call ever completes again and no new request on the route begins; proved for handlers that do not.)", "quantifier": "all sets, numbers of requests and builder calls, interleavings", "why_tests_cant": "Depends on the schedule; needs all continuations.", "anchors": ["top_handler.go:HandlerSet.Run", "top_handler.go:HandlerSet.Clone", "server_run.go:Server.Find"]}
{"id": "C75", "title": "A request runs exactly its own route", "statement": "A request for a registered route (or regular expression) that nothing else registered competes with is processed exactly as by a server that has only this route, with the handlers configured on the router (or in the handler set) when the route was registered: same handlers in the same order with the same parameters, same response, same outcome, whatever else the program registers or changes before or afterwards.", "quantifier": "all programs of API calls before and after the registration, all handlers, requests, map iteration orders", "why_tests_cant": "Ranges over whole programs, requests and handlers.", "anchors": ["gorouter.go:Router.Use", "gorouter.go:Router.UseReg", "server.go:Server.Add", "server.go:Server.AddReg", "server_run.go:Server.ServeHTTP"]}
{"id": "C76", "title": "A static route answers exactly below its prefix", "statement": "StaticFile and StaticFileFS register a route that answers GET and HEAD requests whose path begins with the given prefix and a slash, with the handlers of the given set around the static handler, and change nothing for any other request. (Violated for prefixes with characters that mean something in regular expressions, which are not escaped, and for prefixes without a leading slash, which answer nothing: witnesses; proved for prefixes of ordinary characters.)", "quantifier": "all programs around the call, prefixes, paths, methods", "why_tests_cant": "All prefixes and paths, in every program.", "anchors": ["static.go:Server.StaticFile", "static_embed.go:Server.StaticFileFS", "static_embed_fix.go:Server.FixStaticFileFS"]}
{"id": "C77", "title": "An existing file of a directory is served byte for byte", "statement": "A GET request without conditions and ranges to a StaticFile route for a file in the configured directory is answered 200 with exactly the bytes of that file, and opens nothing else.", "quantifier": "all file systems, route prefixes and file names made of clean elements without percent escapes, the last one not \"index.html\" (those are redirected: C53), all contents", "why_tests_cant": "End to end through path rewriting, opening and sending, for all names and contents.", "anchors": ["static.go:StaticFileHandler.Run", "static/fs.go:serveContent"]}
{"id": "C78", "title": "Requests do not race", "statement": "Requests served at the same time, and goroutines that work meanwhile, never access the same memory at the same time with one of them writing, as long as handlers touch only the context and logger of their request. (Violated if, while requests are served, the log level of the server is set, or a route is added that disturbs the lookup of a request, which a root route does not: witnesses, and an exact statement. Proved otherwise, also while handler sets and routers are being changed and the writer is set.)", "quantifier": "all numbers of requests and goroutines, sequences of calls of the handlers, ways a request can end, interleavings", "why_tests_cant": "Race detectors see only the interleavings that happen.", "anchors": ["server_run.go:Server.runHTTP", "top_handler.go:HandlerSet.Run", "tree.go:Tree.Find", "reg_tree.go:RegTree.Find", "server.go:Server.SetLogLevel"]}
{"id": "C79", "title": "A logger can be shared by goroutines", "statement": "Goroutines may call the methods of one logger at the same time. (Violated for the ...f methods, which write the field map without the mutex, and for setting level, writer, standard keys or configuration while records are written: witnesses. Proved for filling, cloning and writing out, for filling and configuring, and for filling, cloning and changing the settings of configurations.)", "quantifier": "all numbers of goroutines, sequences of calls, loggers, interleavings", "why_tests_cant": "Race detectors see only the interleavings that happen.", "anchors": ["logger/logger.go:Logger", "logger/out.go:Logger.Logf", "logger/config/config.go:Config"]}
{"id": "C80", "title": "Work on clones of a context does not race", "statement": "Goroutines that a handler starts and that store values only in their own clones of its context do not race with each other or with the handler reading the context. (On the context itself Set, Get, Clone and Stop race: witnesses.)", "quantifier": "all numbers of goroutines, sequences of calls, interleavings", "why_tests_cant": "Race detectors see only the interleavings that happen.", "anchors": ["ctx.go:Context.Clone", "ctx.go:Context.Set", "ctx.go:Context.Get", "ctx.go:Context.Stop"]}
{"id": "C81", "title": "Routes can be registered concurrently", "statement": "Goroutines may build handler sets and routers and register routes at the same time. (Violated for routes with regular expressions, and for Clone, GetBefore and GetAfter of a router that is being changed: witnesses. Proved for everything else, together with lookups of the root path.)", "quantifier": "all numbers of goroutines, sequences of calls, interleavings", "why_tests_cant": "Race detectors see only the interleavings that happen.", "anchors": ["gorouter.go:Router", "reg_tree.go:RegTree.Add", "tree.go:Tree.Add", "server.go:Server.Add"]}
{"id": "C82", "title": "Calls of the API never block each other for good", "statement": "However requests and calls of the API on any objects are interleaved, somebody can always go on and everybody can reach their end. (Violated if handlers of two requests make builder calls on each other's handler sets; proved exactly: possible if and only if there is a circle of handler sets, each run by a request whose handlers change, clone or register a set of the circle; other goroutines and calls never matter.)", "quantifier": "all numbers of requests and goroutines, sequences of calls, objects, interleavings", "why_tests_cant": "Deadlocks depend on the schedule; needs all continuations.", "anchors": ["top_handler.go:HandlerSet", "gorouter.go:Router.Use", "tree.go:Tree.Add", "logger/logger.go:Logger.Config", "logger/config/config.go:Config.Clone"]}
{"id": "C83", "title": "Cookies sent by a client are read back", "statement": "Cookie(name) returns the first cookie of the request with that name, with its name and value, and the error only if the request has no such cookie. (Violated: the cookie returned never has its name, a value with '=' is torn apart, and an empty value is reported as missing: witnesses and the exact result for all well-formed requests. Values set with SetCookie come back, up to URL-unescaping.)", "quantifier": "all well-formed Cookie headers, any number of headers and cookies, names and values, plain or quoted", "why_tests_cant": "All names and values in all positions.", "anchors": ["ctx.go:Context.Cookie", "ctx.go:Context.SetCookie"]}
{"id": "C84", "title": "The limit of a request's goroutines is kept", "statement": "After EGSetLimit(n) at most n goroutines of the request's group run at the same time: EGGo waits and EGTryGo returns false exactly while n are busy, every goroutine that returns makes room, EGWait returns exactly when all are done. A negative limit is no limit; another limit while a goroutine is not done panics. (Violated if the limit is set after a goroutine was started: that goroutine can never finish or another starts too early: witnesses.)", "quantifier": "all limits, sequences of calls and of goroutines returning", "why_tests_cant": "All interleavings of calls and goroutine ends.", "anchors": ["ctx.go:Context.EGSetLimit", "ctx.go:Context.EGGo", "ctx.go:Context.EGTryGo", "ctx.go:Context.EGWait"]}
{"id": "C85", "title": "Request ids tell requests apart", "statement": "UniqId returns different numbers for different requests. (Violated: requests for the same path at the same nanosecond, and collisions at different times or for different paths: witnesses. Proved for one path at different times that agree but for the last 16 digits - within 115 days -, and for one time and paths of the same length that differ within eight consecutive bytes.)", "quantifier": "all times and paths", "why_tests_cant": "About all pairs of times and paths; collisions of a checksum are not found by sampling.", "anchors": ["ctx.go:NewContext", "ctx.go:Context.UniqId"]}
{"id": "C86", "title": "Every log record is one JSON object on one line", "statement": "Everything the loggers write is lines; each line, whatever bytes keys, messages, errors and fields contain, has no control character and none of the characters <, > and & before its newline, parses as one JSON object, and that object has every field of the record exactly once, with the values given (integers, booleans, nil, texts, nested slices and maps); text that is not valid UTF-8 is read back with each offending byte replaced by U+FFFD, valid text unchanged. A log message therefore cannot forge another record or another field.", "quantifier": "every history of logger calls, every message, key, error text and field value of the modelled kinds", "why_tests_cant": "the texts range over all byte strings, and the escaping depends on the bytes that follow", "anchors": ["logger/fields.go:Fields.Json", "logger/out.go:Logger.Log", "logger/out.go:Logger.Logf"]}
{"id": "C87", "title": "A response is what its handlers wrote", "statement": "The response of a routed request is the result of the changes its handlers made, in the order in which they made them, starting from the response the connection brought: nothing is lost, nothing is added, and nothing is changed while no handler runs. If the handlers only use Write and WriteString the body is the concatenation of what they wrote. In particular an error returned by a handler, the session initialiser or a goroutine changes nothing of the response: without a handler that reports it the client gets status 200.", "quantifier": "all servers, routes, handlers (arbitrary programs), schedules of request goroutines, authentication settings and requests that are routed", "why_tests_cant": "handlers are arbitrary programs, and errors, stops, aborts and panics can happen at any point", "anchors": ["ctx.go:Context.Write", "ctx.go:Context.WriteString", "server_run.go:Server.runHTTP", "top_handler.go:HandlerSet.Run", "top_handler.go:HandlerSet.RunLast"]}
{"id": "C88", "title": "Each failed request is logged as one line", "statement": "A request that fails - no route, failing session initialiser, error of the chain or of a goroutine that the last handler does not settle - makes the server print exactly one line with the remote address and the reason; a request that does not fail, is refused by authentication, or in which a handler panics, prints nothing. (Violated: the path is printed as decoded, so a client can put line breaks into it and forge lines about other addresses: witness. The exact message is proved for every request, and the number of lines: one more than the line breaks in address and reason.)", "quantifier": "all servers, handlers, schedules, authentication settings and requests", "why_tests_cant": "the reason depends on which of many calls failed first in which interleaving, and the text on arbitrary client bytes", "anchors": ["server_run.go:printError", "server_run.go:Server.ServeHTTP", "server_run.go:Server.runHTTP"]}
{"id": "C89", "title": "Each request logs with the server's settings, on its own logger", "statement": "When the handlers of a request begin, its logger has the level and the writer configured for the server at that moment, no error and no field but the time stamp, and no other context has it; afterwards only calls on that context or logger change it, whatever other requests and the server's settings do; and nothing done to loggers changes the server's settings. What the session initialiser set on the request's logger is in effect for its handlers. (The last sentence is violated: the logger is replaced after the initialiser: witness.)", "quantifier": "all histories of requests, settings and logger calls, interleaved in any order", "why_tests_cant": "Histories of any number of requests.", "anchors": ["server_run.go:Server.runHTTP", "ctx.go:Context.SetLogger", "ctx.go:Context.Debugf", "server.go:Server.SetLogLevel", "server.go:Server.SetLoggerWriter"]}
{"id": "C90", "title": "Static files reach the client whole", "statement": "After StaticFile or StaticFileFS for a prefix of plain text (ASCII without operators, other characters in UTF-8), or FixStaticFileFS for a path, a request that no other route answers is answered by that route's file server alone, whatever was registered before and afterwards: for a plain GET of an existing file the client gets status 200 and exactly the bytes of the file and no error is reported; for a file that does not exist it gets 404 and the error is reported.", "quantifier": "all programs of registrations before and after the call, requests, file systems, files, schedules, authentication settings that let the request pass", "why_tests_cant": "Composition of registration, lookup, pipeline and file server over all programs and file systems.", "anchors": ["static.go:Server.StaticFile", "static_embed.go:Server.StaticFileFS", "static_embed_fix.go:Server.FixStaticFileFS", "server_run.go:Server.ServeHTTP"]}
{"id": "C91", "title": "Concurrent requests never see each other's URL parameters", "statement": "Whatever requests run at the same time, however their steps interleave and whatever other users of the buffer pool do: while the handlers of a request run, its URL parameters are exactly those the lookup of its own path yields when done alone, and the handlers are those this lookup yields; nobody else has the buffer. A request is answered not found only if its lookup, done alone, finds nothing. No request is ever stuck, and its lookup takes a number of steps bounded by the size of the route tree.", "quantifier": "all route trees and regular-expression tables, all sets of requests, all interleavings, all choices of the pool, all behaviours of other users of the pool that release what they acquire once", "why_tests_cant": "the pool hands out old objects depending on timing; a leak shows only in rare interleavings", "anchors": ["tree.go:Tree.Find", "tree.go:cloneArgs", "server_run.go:Server.runHTTP", "server.go:Server.Find", "reg_tree.go:RegTree.Find"]}
{"id": "C92", "title": "A server is run with the settings given last", "statement": "After any sequence of SetServer, SetListener, SetServerName, SetServerTLS and SetShutdownTimeOut calls the getters return the value given last, and Run hands to fasthttp exactly: the listener given last (net.Listen at Run's address only if that is nil), wrapped in TLS exactly if both files given last are named; the fasthttp server given last, or a new one, always with the router as its handler, and with the server name given last unless that is empty. A Run that cannot listen or cannot load the certificate reports exactly that.", "quantifier": "all sequences of setter calls, all addresses, all results of net.Listen and of loading the certificate", "why_tests_cant": "The sequences of settings and their combinations with the outcome of the system calls are unbounded, and a test of Run needs sockets and certificates.", "anchors": ["server.go: SetServer, SetListener, SetServerName, SetServerTLS, SetShutdownTimeOut, Server, ServerName, ShutdownTimeOut", "server_run.go: Run"]}
{"id": "C93", "title": "A server can be run again", "statement": "After Run has returned, the same server can be run again, at the address then given: it serves, and it can be stopped by its context, by a signal or by Shutdown.", "quantifier": "all histories of setter calls, Shutdown calls and Runs, all interleavings during each Run", "why_tests_cant": "The state left by a Run (counter, listener, TLS wrapper) decides about the next; histories and interleavings are unbounded.", "anchors": ["server_run.go: Run, Shutdown", "server.go: Server"]}
{"id": "C94", "title": "Run gives its listener back", "statement": "When Run has returned, its listener is closed, so that the address can be used again.", "quantifier": "all interleavings of the two goroutines of Run with cancellation, signals, Shutdown calls and failures", "why_tests_cant": "Needs all interleavings and all failure points.", "anchors": ["server_run.go: Run, Shutdown"]}
{"id": "C95", "title": "The listing of the routes shows what is registered", "statement": "The text of a routing tree (Tree.String), read by its indentation, shows exactly the registered routes: at the place of a route stands the entry /METHOD[id] exactly if a registration of that route covers the method, carries a handler set with that id and, for routes without parameters, no later registration of the same route covers the method. Printing returns for every tree into which only non-nil handler sets were put, in whatever order Go visits the maps of handlers, and panics right after a nil set was added.", "quantifier": "all histories of registrations (without empty path segments below a parameter), all ids, all orders of visiting maps", "why_tests_cant": "the text depends on the whole history, on sharing of nodes between routes and on the random iteration order of Go maps", "anchors": ["tree.go: Tree.String, Node.print, Tree.Add", "top_handler.go: HandlerSet.ID"]}
{"id": "C96", "title": "A server is the table of its registrations", "statement": "For every program of calls that writes its variadic arguments out, does not clone handler sets and does not combine Router.Clone with LastAfter: read the calls as operations on plain values and collect the table of registered routes (method, route, handlers). A request is then processed exactly as by a server that has only the row of the table that serves it; if no row does, exactly as by a server that has only the latest registration of one matching expression for its method; if there is none, exactly as by a server that has nothing, which answers 404. In particular two programs with equal tables (and no expressions) are the same server.", "quantifier": "all programs of registration calls, all requests, all handlers, all growth policies of append, all map iteration orders", "why_tests_cant": "programs, requests and handlers are unbounded and the statement is about their combination: sharing of slices and tree nodes, order of registration, arbitration between routes, fallback to expressions", "anchors": ["server.go: Server.Add, Server.AddReg, Server.Router", "gorouter.go: Router", "top_handler.go: HandlerSet", "tree.go: Tree.Add, Tree.Find", "server_run.go: Server.runHTTP"]}
{"id": "C97", "title": "Whether all routes can be reached can be read off the table", "statement": "Call a table of routes orderly if no route is outranked (C04) by another route that competes for one of its paths - a finite check over pairs of routes. Every route of a table is served on every path it matches, by itself or by a later registration of the same route, if and only if the table is orderly. In an orderly table every lookup gives the latest registration that matches the path and covers the method, and the order of registration of routes that do not collide makes no difference; a server with an orderly table without collisions processes every request as a server that has only the row that answers it.", "quantifier": "all tables of routes (no empty or colon-only segments), all methods and paths; for the converse each registration has its own handler set and no segment ends in white space", "why_tests_cant": "quantifies over all paths and all orders of registration of every table", "anchors": ["tree.go: Add, _add, Find"]}
{"id": "C98", "title": "The example programs serve what they list", "statement": "Each of the example programs starts, and its server processes every request for a path and method of one of its routes with exactly the handlers configured for that route, GET and HEAD requests for other paths under /html/ (where static files are registered) by the static handler alone, and answers 404 to everything else.", "quantifier": "all requests, all behaviours of the handlers, all growth policies of append, all map iteration orders", "why_tests_cant": "quantifies over all requests and paths", "anchors": ["examples/server.go: main", "examples/example_1/main.go: main", "examples/example_2/main.go: main", "examples/example_3/main.go: main", "examples/static_video/main.go: main"]}
{"id": "C99", "title": "A cookie set in a response comes back", "statement": "After SetCookie a client that follows RFC 6265 knows the name, the value and exactly the attributes asked for (lifetime, domain or host, path or '/', Secure, HttpOnly, SameSite); with every later request to a host and path the cookie covers it sends the cookie, and Cookie(name) returns a cookie whose unescaped value is the one set last; a lifetime below zero makes the client forget the cookie. (Violated: no call ever makes a client forget a cookie, and an escaped ';' in the path ends the attribute, so that what follows is read as further attributes. The client is told what was asked exactly if the name is not empty and has no '=', and name, domain and path have no ';' and no blanks at the ends.)", "quantifier": "all hosts, arguments, numbers of SetCookie calls in one response, contents of the client's store, later requests and orders of the cookies sent", "why_tests_cant": "All arguments, all contents of the store, all orders.", "anchors": ["ctx.go:Context.SetCookie", "ctx.go:Context.Cookie", "ctx.go:splitHost"]}
{"id": "C100", "title": "A path parameter arrives as the client sent it", "statement": "A client asks for a path with given segments, writing each byte as itself or as a percent escape as it likes, with any query and fragment. The route served is the one the routing rules give for these segments, and PeekParam returns for each parameter of that route the segment the client put in its place. Different ways of writing the same segments are never told apart. (Violated: a segment that is empty, is '..' or contains an escaped slash, '.' before another segment, and white space at the end of the last segment cannot be sent, in any way of writing. Exact: the segments seen are those sent iff none of this applies.)", "quantifier": "all route tables, methods, lists of segments (any bytes), ways of writing them, queries, fragments and bodies", "why_tests_cant": "All byte strings, all choices of escapes for every byte, all tables.", "anchors": ["server_run.go:Server.runHTTP", "server.go:Server.Find", "tree.go:Tree.Find", "tree.go:splitPath", "ctx.go:Context.PeekParam"]}
{"id": "C101", "title": "Query and form parameters arrive as the client sent them", "statement": "A client sends query parameters in the target and, with Content-Type application/x-www-form-urlencoded (possibly followed by parameters), form parameters in the body, writing each byte as itself where allowed, as '+' for a space or as a percent escape. For every non-empty name PeekParam, PeekMultiParam and SqueezeParams see exactly the pairs sent, in order: a name the route does not bind has the first value of the query if that is not empty, else the first value of the form, else none; all values of the query, else of the form, in order; SqueezeParams the values of the form (two or more in the order second, first, third, ...: C38). With any other content type there are no form parameters.", "quantifier": "all lists of pairs (any bytes), ways of writing them, paths, content types, bodies, URL parameters and names", "why_tests_cant": "All byte strings, all choices of escapes for every byte.", "anchors": ["ctx.go:Context.PeekParam", "ctx.go:Context.PeekMultiParam", "ctx.go:Context.SqueezeParams"]}
{"id": "C102", "title": "An access function that asks by path prefix covers every route below the prefix", "statement": "If authentication is on and the access function asks for credentials whenever the request path begins with some literal segments (\"/admin\"), then no request without accepted credentials reaches a route below these segments, however its target is written (escapes, doubled slashes, dot segments, trailing slashes or blanks) and whatever else is registered; for the routes that go on after the prefix it is enough to ask for the prefix with a slash.", "quantifier": "all registration histories, prefixes, access functions, configurations and request targets", "why_tests_cant": "there are infinitely many spellings of a target, and the path the access function sees and the segments the router matches are computed differently", "anchors": ["baseauth.go: SetCheckAccessFunc, Check", "server_run.go: ServeHTTP", "tree.go: Find, splitPath"]}
{"id": "C103", "title": "Logging in", "statement": "A request without credentials that is asked about is answered with 401 and a challenge from which a client (RFC 7235) reads the scheme Basic and exactly the configured message and charset; if it then repeats the request with the name and password of an entry, the request is processed exactly as by the server without authentication.", "quantifier": "all configurations, messages, charsets, entries, requests and servers", "why_tests_cant": "the message is an arbitrary string that is put between quotes", "anchors": ["baseauth.go: SetMessage, Check, getUserPassword", "server_run.go: ServeHTTP"]}
{"id": "C104", "title": "A request gets past EGWait", "statement": "Whatever a request's handlers and the functions they give to EGGo and EGTryGo do with the group (start further goroutines, wait), once every function is left to run, the server's EGWait returns and all goroutines of the request are done.", "quantifier": "all limits, all programs of EGGo, EGTryGo and EGWait calls of handlers and goroutines, all schedules", "why_tests_cant": "All interleavings of goroutines that start goroutines; a hang shows up in one schedule only.", "anchors": ["ctx.go:Context.EGSetLimit", "ctx.go:Context.EGGo", "ctx.go:Context.EGTryGo", "ctx.go:Context.EGWait", "server_run.go:runHTTP"]}
{"id": "C105", "title": "Static routes answer byte ranges", "statement": "A GET or HEAD request without conditions for an existing file of any kind of static route is answered exactly as the content of that file would be, and nothing else is opened. With a Range header that is a list of RFC 7233 specifications: 416 with the size if none selects a byte, exactly the selected bytes with status 206 and a matching Content-Range if one does, a multipart answer with exactly those parts if several do, and the whole file if together they are longer than the file.", "quantifier": "all static routes with clean names, all file systems, files, requests and Range headers", "why_tests_cant": "ranges over all files, names and Range headers", "anchors": ["static/fs.go:serveFile", "static/fs.go:serveContent", "static/fs.go:parseRange", "static.go:Run", "static_embed.go:Run", "static_embed_fix.go:Run"]}
{"id": "C106", "title": "Cached copies are revalidated", "statement": "A client that got a file of a static route and asks again, If-Modified-Since the Last-Modified date of that answer, gets 304 without content and content headers if the file is not from a later second, and the current file, whole and with its date, if it is.", "quantifier": "all static routes, files before and after, modification times, first answers with content", "why_tests_cant": "relates two requests and two states of the file system, for all times and contents", "anchors": ["static/fs.go:checkPreconditions", "static/fs.go:checkIfModifiedSince", "static/fs.go:setLastModified", "static/fs.go:writeNotModified"]}
{"id": "C107", "title": "Interrupted downloads are resumed", "statement": "A client that has the first k bytes of a file of a static route and asks for the bytes from k on, If-Range the Last-Modified date of its answer, gets exactly the missing bytes if the file is from the same second, so that both together are the file, and the current file, whole, if it is from another second.", "quantifier": "all static routes, files before and after, modification times, positions", "why_tests_cant": "relates two requests and two states of the file system, for all times, positions and contents", "anchors": ["static/fs.go:checkIfRange", "static/fs.go:checkPreconditions", "static/fs.go:parseRange", "static/fs.go:setLastModified"]}
{"id": "C108", "title": "Users can be added and revoked while the server runs", "statement": "A request is decided by the BaseAuth set last on its server, the settings made last on that BaseAuth, and the entries which the map set last on that BaseAuth has at the time of the request. So a user put into that map, directly or through Roles(), can log in from then on at every server that uses it; a user deleted from it is refused with any non-empty password; writing to any other map, including one that was replaced, changes nothing. SetBaseAuth(nil) does not switch authentication off: every request then panics.", "quantifier": "all programs that make and share maps, BaseAuth objects and servers, all requests", "why_tests_cant": "Maps and BaseAuth objects are shared by reference, in arbitrarily many ways.", "anchors": ["baseauth.go:BaseAuth.SetRoles", "baseauth.go:BaseAuth.Roles", "baseauth.go:BaseAuth.Check", "baseauth.go:NewBaseAuth", "server.go:Server.SetBaseAuth", "server.go:New"]}
{"id": "C109", "title": "From the bytes of a request to the handlers", "statement": "A client asks for a path, with query and form parameters, each byte written as itself or escaped. If none of its segments is lost on the way (C100), the request is answered exactly as by a server that has only the table row which the routing rules give for the segments the client meant, its handlers seeing as parameters the segments bound by the row, and the query and form parameters meant by the client, in the order sent; if there is no such row, as by a server that has only the latest registration of a matching expression; if there is none, as by an empty server. Two requests that mean the same are answered alike by every server, however they are written.", "quantifier": "all programs of registration calls (read as values), all handlers, all requests and all ways to write them, all settings of the guard", "why_tests_cant": "composes decoding, normalisation, routing, parameters, the guard and the processing for all programs and all requests", "anchors": ["server_run.go:ServeHTTP", "server_run.go:runHTTP", "server.go:Find", "tree.go:find", "ctx.go:PeekParam", "gorouter.go:Use", "server.go:Add"]}
{"id": "C110", "title": "Downloads work through a whole server", "statement": "A static route (StaticFile, StaticFileFS, FixStaticFileFS) of a server that has any other routes, handlers and guard: a client that is admitted and asks for one byte range of a file gets 206 and exactly those bytes; a client that sends back the Last-Modified date of an earlier answer gets 304 without content, or the file as it is now if it is from a later second; a client that resumes a download gets exactly the missing bytes, or the file as it is now if it is from another second; a range that selects nothing is refused with 416 and the size of the file. In the other cases nothing is reported as an error.", "quantifier": "all programs of registration calls around the static route, all requests that nothing else answers, all files before and after, all guard settings", "why_tests_cant": "composes registration, routing, the guard, the processing and the file server over two requests and two states of the file system", "anchors": ["static.go:StaticFile", "static_embed.go:StaticFileFS", "static_embed_fix.go:FixStaticFileFS", "server_run.go:ServeHTTP", "static/fs.go:serveContent", "static/fs.go:checkIfRange"]}
{"id": "C111", "title": "Contexts of a request: cancellation, values, isolation", "statement": "Ctx() of a request is cancelled exactly if the request was aborted or is over, a goroutine of its EGGo group failed or the group was waited for (so always when the last handlers run), or the server began to shut down while the request's listener served; GlobalContext() is the context of the latest Run, cancelled exactly if that run failed or ended or the context given to Run (or one it derives from) is cancelled, and carries its values; Ctx().Value(k) is the latest user value of the fasthttp request; what one request does to its contexts never shows in another's or in the server's; RCtx() is the request's own context.", "quantifier": "all histories of context creation, derivation and cancellation, runs, serving and shutdown phases, requests, aborts, group errors, waits, user values and Set calls, in any interleaving", "why_tests_cant": "cancellation depends on the interleaving of the program, Run, the shutdown and all requests; a test fixes one", "anchors": ["ctx.go NewContext, Ctx, RCtx, GlobalContext, Abort, EGWait, EGGo, Set, Get", "server_run.go Run, runHTTP"]}
{"id": "C112", "title": "Files that cannot seek or change their size are not served wrong", "statement": "A static route names a file whose file system gives it no Seek method, or whose size is no longer the one its file information gave. Whatever the request (conditions, ranges, method), a successful answer carries exactly the bytes it announces, and otherwise the answer is an error. Proved: the answer has the status, headers and error of the answer for a file with exactly the announced bytes, and its body is a beginning of that answer's body; a file without Seek is sent whole if its type need not be sniffed, and otherwise refused with 500 (type unknown) or 416 (one range).", "quantifier": "every static route, request, response so far, file information, content (shorter, longer, without Seek), interpretation of MIME types, dates and boundaries", "why_tests_cant": "needs every file system behaviour between opening and reading; a test uses files that stay as they are", "anchors": ["static/fs.go serveContent", "static/fs.go serveFile", "static/fs.go ioFile.Seek"]}
{"id": "C113", "title": "The schedule of a request's goroutines does not change the answer", "statement": "If the goroutines that handlers start with EGGo fail only with one and the same error, change shared state only in ways that commute, and handlers do not look at what the goroutines do before waiting for them, then for every scheduling (and whenever the connection's context ends) the same handlers are called in the same order with the same results and errors, the same is written, the request ends in the same way and the response is the same. Without any one of these conditions this fails.", "quantifier": "all handlers, goroutines (with children), routes, requests and pairs of schedules", "why_tests_cant": "a race detector or a repeated test sees some schedules; the claim compares all of them", "anchors": ["server_run.go: runHTTP", "ctx.go: EGGo, EGWait", "top_handler.go: Run, RunLast"]}
{"id": "C114", "title": "The dates of static files are right, and all three HTTP date forms are understood", "statement": "A static route states the modification time of a file as the date of its second in the Gregorian calendar (UTC), in the fixed-length form of RFC 7231 (\"Sun, 06 Nov 1994 08:49:37 GMT\"), with the right day of the week, for every time in the years 0 to 9999. If-Modified-Since is understood in each of the three forms of RFC 7231 (that of RFC 850 for the years 1969 to 2068, as it has only two digits, and unless the server's own time zone gives the name GMT to another time): for any second written in any of them, the answer is 304 without content if the file is not from a later second, and the whole file otherwise. The date the server wrote is read back as its second exactly in those years; what it writes for others nobody can read. No other text is understood: a header is read as a time exactly when it is in one of the three forms, names in any case, any number of blanks where the form has one, an hour in one or two digits, possibly a fraction of a second, a zone name where RFC 850 has one; the name of the day is not compared with the date.", "quantifier": "all times (unbounded integers), all seconds in the three forms, all files, requests and static routes, all server time zones", "why_tests_cant": "The calendar has no period shorter than 400 years, and dates before 1970, leap days and century years are rarely tested; tests of conditional requests use one or two dates.", "anchors": ["static/fs_utils.go:TimeFormat", "static/fs_utils.go:ParseTime", "static/fs.go:setLastModified", "static/fs.go:checkIfModifiedSince"]}
{"id": "C115", "title": "The time stamps of log records", "statement": "The field @timestamp of a log record is the time, in UTC and to the millisecond, at which the message was logged, in the form of RFC 3339 that the trailing Z announces.", "quantifier": "all times, all offsets of the server's clocks from UTC, all histories of calls on loggers and configurations, all messages", "why_tests_cant": "Tests run in one time zone (often UTC) and log at once; they do not compare the stamps of messages far apart.", "anchors": ["logger/logger.go:New", "logger/config/config.go:DefaultTimestampFormat", "server.go:Debugf", "server_run.go:150"]}
{"id": "C116", "title": "Which calls race", "statement": "Goroutines that make calls of the API, and requests whose handlers change no handler sets: there is an interleaving with a data race exactly if a call of one and a call of another access the same memory, one of them writing, while they hold no mutex that keeps them apart. Whether two calls race does not depend on what was called before, nor on how many goroutines there are.", "quantifier": "all numbers of goroutines and requests, sequences of calls, objects, interleavings", "why_tests_cant": "That a race can happen needs a schedule; that it cannot, all schedules.", "anchors": ["gorouter.go:Router", "top_handler.go:HandlerSet", "tree.go:Tree", "reg_tree.go:RegTree", "logger/logger.go:Logger", "logger/config/config.go:Config", "ctx.go:Context"]}
{"id": "C117", "title": "A chain of handlers answers with what they write, in order", "statement": "A request that a row of the server's table answers, all of whose handlers only write and return nil, is answered with what Init, the before handlers, the main handler and the after handlers write, in this order and nothing else. So do the example programs: examples/server.go answers with an empty page, example_1 with one line per handler of the row in order, example_2 and example_3 with one line and, for a client that has no test_cookie, a Set-Cookie of test_cookie=test for an hour, which no later visit of that client gets again; everything else that no row answers gets 404.", "quantifier": "all requests, schedules, connections, log levels, clients (stores of cookies and orders of sending them)", "why_tests_cant": "needs the whole path from registration through routing, the chain and the client's cookie store, for every request and schedule", "anchors": ["examples/server.go:main", "examples/example_1/main.go:TestHandler.Run", "examples/example_2/main.go:TestHandler.Run", "examples/example_3/main.go:TestHandler.Run", "examples/static_video/main.go:TestHandler.Run", "top_handler.go:HandlerSet.Run", "ctx.go:Write", "ctx.go:SetCookie", "ctx.go:Cookie"]}
{"id": "C118", "title": "Serving content keeps what the handlers before put into the response", "statement": "A handler (or one before it in the chain) may set response headers, write to the body and set a status, and then call static.ServeContent, static.ServeFile or let a static route answer. Every header that is not about the content (Content-Type, -Length, -Encoding, -Range, Accept-Ranges, Last-Modified, X-Content-Type-Options; Location for redirects) is in the answer as it was set, and the body goes on from what was written. The Etag set by the handler is the one If-Match and If-None-Match are compared with. A Content-Encoding stays unless the answer is 304, and with one the Content-Length is the handler's own. The status is that of the content, whatever was set before. A Content-Type that was set stays (documented at ServeContent).", "quantifier": "all earlier responses, requests, contents, names, modification times, file systems and library behaviours", "why_tests_cant": "the earlier content of the response, the request headers and the path taken through the function are unbounded, and every one of some twenty return paths counts", "anchors": ["static/fs.go: ServeContent, serveContent, checkPreconditions, writeNotModified, setLastModified, serveFile, ServeFile, localRedirect", "static/fs_utils.go: Error", "static.go: StaticFileHandler.Run", "static_embed.go: StaticHandler.Run", "static_embed_fix.go: FixStaticHandler.Run"]}
{"id": "C119", "title": "Reading a directory of FS in pieces gives every entry once", "statement": "For a directory opened through static.FS, Readdir(n) with n > 0 returns at most n entries, the next ones in the order of the directory, without those that no longer exist; an empty result comes with an error; with n <= 0 it returns all that are left. Calls until io.EOF give every existing entry exactly once, and the end is reached. As with *os.File (which the File interface refers to), io.EOF comes only with an empty result.", "quantifier": "all directories that keep the contract of fs.ReadDirFile (any sizes of the pieces it returns, entries vanishing at any time), all n and all sequences of calls", "why_tests_cant": "how the underlying directory cuts its pieces, which entries vanish and the sequence of calls are unbounded", "anchors": ["static/fs.go: ioFile.Readdir, File"]}
{"id": "C120", "title": "A multipart answer does not depend on scheduling and leaves nothing behind", "statement": "The answer to a request for several byte ranges is written by a goroutine through a pipe. Whatever the schedule and in whatever pieces the content is read: the body has the bytes of the parts in order; ServeContent returns and its goroutine ends, also for HEAD requests, contents that fail and contents shorter than announced; and the content is not used any more once ServeContent has returned, so the caller may close it.", "quantifier": "all schedules of the two goroutines, all ways of cutting reads and writes into pieces, all contents, ranges and methods", "why_tests_cant": "the interleavings and the sizes of the pieces are unbounded; a leaked goroutine or a late read shows only under some of them", "anchors": ["static/fs.go: serveContent (the goroutine of the case len(ranges) > 1), ServeContent", "static/fs_utils.go: rangesMIMESize"]}
{"id": "C121", "title": "Files opened to answer a request are closed", "statement": "Every file that a static route, static.FileServer or static.ServeFile opens while it answers a request is closed exactly once, after its last use, whatever the request asks for and however the file system answers (missing files, failing Stat, directories, redirects, contents that fail); at most one is open.", "quantifier": "all requests, file systems (including all errors) and responses", "why_tests_cant": "the return paths of serveFile, each with its own state of the file variable, times all file systems", "anchors": ["static/fs.go: serveFile, ServeFile", "static/static.go: FileServer, fileHandler.ServeHTTP"]}
{"id": "C122", "title": "Equal requests are answered alike", "statement": "As long as nothing is registered, two requests with the same method and the same path are answered by the same handler set, and so with the same response if handlers, authorization and clock behave the same; a static route that is registered again for its prefix replaces the earlier one, and of static routes with nested prefixes the longest answers.", "quantifier": "every set of registered routes and expressions, every method and path, every order in which Go visits its maps, every server and request", "why_tests_cant": "The order in which Go visits a map differs from run to run and from visit to visit: a test sees some of the orders for some tables.", "anchors": ["reg_tree.go:RegTree.Find", "reg_tree.go:RegTree.Add", "server.go:Server.Find", "static.go:StaticFile", "static_embed.go:StaticFileFS"]}
{"id": "C123", "title": "Which calls panic", "statement": "The calls that build handler sets and routers and register routes panic exactly in these cases: Add or AddReg is given a nil handler set; a convenience method (Get, Post, ...) is given no set, or nil as its first one; AddReg or UseReg is given a method that is none of the eleven supported for expressions. A call that panics leaves the routes, the expressions, the handlers of every set and registered route and the configuration of every router as they were.", "quantifier": "every program of calls (any number of sets, routers, routes, expressions and slices, any growth policy of append) and every next call on variables that exist", "why_tests_cant": "the calls that panic must be told from those that do not after every history, and what a recovered panic leaves behind must be compared for every state", "anchors": ["server.go:Server.Add", "server.go:Server.AddReg", "server.go:nonEmptySet", "reg_tree.go:RegTree.Add", "gorouter.go:Router.UseReg"]}
{"id": "C124", "title": "The video of the example can be watched, sought in and asked for again", "statement": "The server of examples/static_video, for every video file it can open and without authentication: GET /file is answered 200 with exactly the bytes of the file, called a video; with one satisfiable byte range it is answered 206 with exactly the bytes the range selects, and with 416 and the size if it selects nothing; a client that has an answer and asks again with its date, nothing having changed, is told 304; a client that has the first k bytes and asks for the rest with the date of the answer gets exactly the missing bytes; if the file cannot be opened, the client is told so. Every answer with the content has the Cache-Control the handler sets.", "quantifier": "every content of the file, every clock at the time of the requests, every request (method, path, headers), every other handler of the program, every iteration order of the server's map", "why_tests_cant": "The answers depend on the bytes, on the range and on the moment of each request; the file the example names exists on one machine only, and two requests of a test fall into the same second or not by chance", "anchors": ["examples/static_video/main.go:TestStaticHandler.Run", "examples/static_video/fileouter/fileouter.go", "static/fs.go:ServeContent"]}
{"id": "C125", "title": "A cookie is a variable of the client", "statement": "Handlers keep a value with a client by calling SetCookie(name, value, ...) always for the same domain and path, and read it with Cookie(name). For every client that follows RFC 6265 and every sequence of visits, whatever cookies the handlers set in each of them, and however often: in the next request to a host and path the cookie covers, Cookie(name) gives exactly the value set last (unescaped); it gives no cookie if that value was empty, if the cookie was never set, or if it does not cover the request. No other cookie, and no order in which the client sends its cookies, changes this.", "quantifier": "every name, value, domain and path that can be written, every history of visits and calls, every store the client begins with, every later request, every order of the cookies sent", "why_tests_cant": "What a handler reads depends on all answers the client got before and on the client's freedom to order its cookies: the histories are unbounded", "anchors": ["ctx.go:SetCookie", "ctx.go:Cookie", "ctx.go:splitHost"]}
{"id": "C126", "title": "Interrupted downloads end with one version of the file", "statement": "A client downloads a file of an address added by Static or StaticEmbed, is cut off at any byte, and asks again with Range: bytes=N- and If-Range: the Last-Modified it was given, any number of times, while the file may be replaced between any two of its requests. If no two of the versions with different bytes are from the same second, then at every moment what the client has is the beginning of one version of the file, and when it is done it is all of one version: parts of two versions are never joined. As long as the file stays as it was, the client is sent exactly the bytes it does not have; and one more answer that is not cut off always completes the download with the version of that moment. (With two versions from one second the client can end with a file that never was.)", "quantifier": "every file, every history of versions and interruptions, every byte at which an answer is cut off, every program that mounts the address and every server", "why_tests_cant": "The claim is about all histories of requests, replacements and cuts; a test runs a few", "anchors": ["static/fs.go:ServeContent", "static/fs.go:checkIfRange", "static_embed.go", "static.go"]}
{"id": "C127", "title": "A cache that revalidates holds the current file", "statement": "A cache holds a file of an address added by Static or StaticEmbed and asks for it again any number of times with If-Modified-Since: the Last-Modified it was told (without it if it was told none); a 200 replaces what it holds, a 304 keeps it (and may renew the date), and some answers are lost, while the file may be replaced between any two requests. If every version whose bytes differ from an earlier one is from a later second, then after every answer that arrives the cache holds exactly the file as it is at that moment; files without a known time are always sent whole. If the file is still as at the last answer the cache is told 304 without content. In every case what it holds is one version, whole, and 304 is only answered if the file is not from a later second than that version. (If an older file is put back with its time, the cache keeps the newer one however often it asks.)", "quantifier": "every file, every history of versions, requests and lost answers, every choice of the cache to renew the date, every program that mounts the address and every server", "why_tests_cant": "The claim is about all histories of requests and replacements; a test runs a few", "anchors": ["static/fs.go:ServeContent", "static/fs.go:checkIfModifiedSince", "static/fs.go:checkPreconditions", "static_embed.go", "static.go"]}
{"id": "C128", "title": "A refused client learns nothing", "statement": "With authentication on, the answer to a request that is refused is the same, byte by byte, whatever was asked: whether the address exists, whether the user exists or the password is wrong, which handlers, files, users and other settings the server has. Only the configured challenge is in it. More generally everything the server does with a request (answer, handlers run, log calls) depends on the table of users only through whether the credentials of this request are accepted; the entries of users the request does not name have no influence at all.", "quantifier": "every two servers, every two sequences of settings with the same challenge, every two requests; every two role tables", "why_tests_cant": "Noninterference compares all pairs of servers and requests; a test compares a few", "anchors": ["server_run.go:ServeHTTP", "baseauth.go:Check", "baseauth.go:getUserPassword"]}
{"id": "C129", "title": "Files can be fetched in pieces, in any order", "statement": "A client learns size and date of a file of a static route with HEAD and then fetches the file in pieces with Range: bytes=a-b and If-Range: the date, of any sizes, in any order, overlapping or repeated, some answers cut off, starting again whenever it likes, while the file may be replaced between any two requests. If no two versions with different bytes are from the same second, all bytes it has at any moment stand at their positions in one version of the file, whose size it knows, and any file it ends with is one version, whole. While the file stays as it is, a complete answer fills exactly the positions asked for, and any pieces that cover the file give the file; if it has changed, the client gets the file as it is now.", "quantifier": "every file, every choice and order of pieces, every history of versions, cuts and restarts, every program that mounts the address and every server", "why_tests_cant": "The claim is about all histories of requests, replacements and cuts and all partitions of the file; a test runs a few", "anchors": ["static/fs.go:ServeContent", "static/fs.go:parseRange", "static/fs.go:checkIfRange", "static_embed.go", "static.go"]}
{"id": "C130", "title": "A guard in front of every route is never bypassed", "statement": "If every route and expression of a program is registered through a Router that has a guard (a before handler) in its Before list at that moment, then a request the guard refuses - by returning an error, panicking, or calling Stop, Abort or SkipMain - never reaches a main handler, whatever else the program does before, between or after the registrations; and the answer, the error, the state and the trace of handlers do not depend on what the main handlers would do. In particular this holds for a program that makes one router with the guard (Before or First), registers through it and its clones only, and passes the guard again whenever it calls Before again (Before replaces the list: without that a clone drops the guard). The same holds for routes registered through a handler set that has the guard, provided that no other set that exists at that moment is appended to or cloned afterwards, and for programs whose calls can be read as values; in general it does not hold for sets (C33).", "quantifier": "all programs of API calls, all requests, all handlers, goroutine schedules and session initialisers that do not turn a request to be refused into an acceptable one, all map orders", "why_tests_cant": "quantifies over whole programs, all requests and all behaviours of the other handlers and goroutines; independence of the main handlers relates two servers", "anchors": ["gorouter.go:43-97 First/Before/Use/UseReg", "gorouter.go:159-168 Clone", "top_handler.go:24-70 HandlerSet.Run", "server_run.go:123-167 runHTTP", "server.go:157-235 Add"]}
{"id": "C131", "title": "Routing does not look inside segments or at parameter names", "statement": "Take any sequence of registrations, spell the literal segments of all routes and of the requested path differently (different segments staying different) and give the parameters other names, even different ones in different routes: the lookup finds the same handler set, or nothing, as before, and reports the same parameter values in the same order, under the new names. In particular renaming a parameter in a route never changes which route serves a request, and two servers that differ in parameter names only answer every request alike when their handlers read the parameters under the new names.", "quantifier": "all sequences of registrations, including overlapping and unclean ones; all spellings (injective maps of segments) and renamings; all methods, paths and buffers; all servers, requests, handlers and authentication settings", "why_tests_cant": "tests use one spelling of one table; that no comparison anywhere looks at case, prefixes, lengths or names is a statement about all pairs of tables", "anchors": ["tree.go: Tree.Add, _add, nextNodes, getUrlID, Tree.Find", "server.go: Server.Find", "server_run.go: runHTTP"]}
{"id": "C132", "title": "When the order of registration matters", "statement": "Two registrations are in each other's way when some path that one route matches is also contested by the other (the other route, or the beginning of it, matches the path too) unless they share one branch that is literal all the way, or when they register the same route for a common method. If no two registrations of a table are in each other's way, the order of the registrations does not matter: every permutation answers every lookup and every request the same. And this is exact: for two registrations of different handler sets that are in each other's way there is a request that the two orders answer differently. Whether two rows are in each other's way can be computed from the rows. In every table, also with empty segments and segments of colons only, parts of the registrations whose routes part - after common literal segments one ends, or both go on with different segments that are no parameters; say, below /api and below /web - can be registered one after the other or mixed in any way.", "quantifier": "all sequences of registrations of clean routes and all their permutations, all sequences of registrations whatsoever and all ways to mix parts of them whose routes part; all methods and paths; all servers, requests and handlers", "why_tests_cant": "a test registers routes in one order; that no order makes a difference, and exactly when one does, ranges over all tables, permutations and paths", "anchors": ["tree.go: Tree.Add, _add, nextNodes, Tree.Find", "server.go: Server.Add, Server.Find"]}
{"id": "C133", "title": "What is registered below a prefix is a router of its own", "statement": "If no route matches a literal prefix other than literally (with a parameter in its place), lookups below the prefix depend only on the routes that begin with it: they give the handler set and the parameters that the table of these routes without the prefix gives for the rest of the path, or nothing, whatever else is registered, before, in between and afterwards. In particular a whole table can be moved below a prefix: it answers there as it did before, and nothing elsewhere.", "quantifier": "all sequences of registrations, also of routes with empty segments or segments of colons only, all literal prefixes, all methods and paths", "why_tests_cant": "a test mounts one API under one prefix; that no registration elsewhere ever changes it ranges over all tables", "anchors": ["tree.go: Tree.Add, _add, nextNodes, Tree.Find", "server.go: Server.Add, Server.Find"]}
{"id": "C134", "title": "One last handler answers every failed request", "statement": "Let every registered handler set have a last handler that replaces the response by an error page when it is given an error and leaves it alone otherwise. Then for every request that is let in and finds a route, whose session initialiser (if any) succeeds and whose handlers neither panic nor call Abort: if a handler or a request goroutine failed, the client gets the page of an error whose cause is that of the handler that failed (or else of the first goroutine that failed), and nothing of what was written before; if nothing failed, it gets what the other handlers wrote. So if the pages have statuses the other handlers do not use, the status tells failed requests from others. The conditions are needed: after a failed session initialiser, an Abort with an error or a panic no page is sent.", "quantifier": "all servers, routes, handlers, goroutines, schedules, requests, error pages and authentication settings", "why_tests_cant": "the handler that fails, the goroutine that fails first and the moment it does so differ from request to request; tests show single requests", "anchors": ["server_run.go: ServeHTTP, runHTTP", "top_handler.go: Run, RunLast", "ctx.go: Abort, EGGo, EGWait", "handler.go: ILastHandler"]}
{"id": "C135", "title": "A HEAD request learns what GET would send", "statement": "On a server with a StaticFile, StaticFileFS or FixStaticFileFS route, whatever else its program registers, a HEAD request for a path of the route, whether there is such a file, a directory or nothing, gets the status and the headers that the same request with GET gets, the same error is reported for it, and no content comes with a response that is not an error.", "quantifier": "all programs around the route, file systems, files, paths below the route, request headers (conditions, ranges), log levels and authentication settings", "why_tests_cant": "the headers and the status depend on the conditions, the ranges and the file; tests show single requests", "anchors": ["static.go: StaticFile", "static_embed.go: StaticFileFS", "static_embed_fix.go: FixStaticFileFS", "static/fs.go: serveContent, serveFile", "static/static.go: ServeHTTP"]}
{"id": "C136", "title": "Running the set-up of the routes again", "statement": "Registering a whole table of routes once more, unchanged, changes the answer to no request, whatever the routes are; so does registering only its last part once more. A table without empty segments registered once more with new handler sets, after any number of complete or partial repetitions, a request whose route has no parameter is answered by the last table, and a request whose route has parameters by the first one, with the same parameters; what was not found stays not found.", "quantifier": "all tables of routes (unchanged), all tables without empty segments (changed), any repetitions in between, methods, paths, requests", "why_tests_cant": "which registration wins depends on the branches of the routes and on what was registered before; tests register a route twice, not tables", "anchors": ["tree.go: Add, add, append, nextNodes, Find, addMethod"]}
{"id": "C137", "title": "Every table of routes, however odd, has a definite reading", "statement": "Whatever routes were registered, also with empty segments and segments of colons only, in whatever order: a lookup is answered by the registration that the written rules select; the route has as many segments as the path, was registered for a method that covers the request, and its segments accept those of the path one by one up to the first empty segment of the route; and registering a route with fewer segments than the path does not change the answer.", "quantifier": "all lists of registrations without exception, methods, paths", "why_tests_cant": "odd routes interact with the routes registered before them through the branches of the tree; tests try a few", "anchors": ["tree.go: Add, add, append, nextNodes, getUrlID, splitPath, Find, addMethod"]}
{"id": "C138", "title": "A server with odd routes answers as its table reads", "statement": "For every program of registration calls, also one whose routes have empty segments or segments of colons only, and every request: if reading the table row by row gives an entry and bindings, the request is answered exactly as by a server whose only route is any ordinary one with the same bindings and the handlers of that entry; two programs whose tables read the same for a request answer it alike; if the table gives nothing, the latest registration of a matching expression answers, or nobody. From the bytes of the request: its handlers see the bindings and the query and form parameters the client meant.", "quantifier": "all programs of registration calls (read as values) without exception, all handlers, all requests and all ways to write them, all settings of the guard", "why_tests_cant": "odd routes interact with other routes; a test of a server sees one table", "anchors": ["tree.go: Add, Find", "reg_tree.go: Add, Find", "gorouter.go: Use, UseReg", "server.go: add", "server_run.go: runHTTP"]}
{"id": "C139", "title": "What is logged at an allowed level is written", "statement": "Every call of a logging method at a level the logger allows writes one line. (Violated: once a logger holds a field whose value has no JSON - a function, a channel, not-a-number - every record of it, and of every clone made since, is an empty write, whatever the message and however urgent, until some call gives that very field another value. Proved: exactly which calls write nothing, in every history; that the silence lasts; that a program that gives its loggers only fields that have JSON loses no record; and that this holds of each logger for itself, whatever is done to others, its originals and clones among them; so a request does not silence others, and what is logged with Debugf of a server or a context is never lost.)", "quantifier": "all histories of calls on all loggers, configurations and clones; all values and all encoders that fail exactly for the values without JSON", "why_tests_cant": "the field may have been given long before, through a clone or a merge; a test logs values it knows to be fine", "anchors": ["logger/fields.go:Fields.Json", "logger/out.go:Logger.Log", "logger/out.go:Logger.Logf", "logger/logger.go:Logger.Add", "logger/logger.go:Logger.Clone"]}
{"id": "C140", "title": "Routes of other methods do not matter", "statement": "The answer to a request depends only on the routes registered for its method. (Violated: POST /u/:id registered after GET /u/:id is never found; and POST /a/x, which does not match /a/b, decides which of GET /:p/b and GET /a/b gets GET /a/b. Exact for one route with a parameter registered any number of times: only the first registration counts. Proved for tables of literal routes, and for routes of other methods that come later and do not read the path.)", "quantifier": "all tables, methods and paths", "why_tests_cant": "tests register few routes, mostly for one method; the effect depends on the order and on prefixes", "anchors": ["tree.go:Tree._add", "tree.go:Tree.Find", "tree.go:addMethod"]}
