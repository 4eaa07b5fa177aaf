# Formal model of iostrovok/gorouter in Lean 4 — design

Contents: 1 layout · 2 modelling conventions · 3 per property: what is modelled, how it is proved · 4 trusted base
(kernel, axioms, external behaviour) · 5 which code is modelled and which is not · 6 where the code violates a
property · 7 how theorems and model are tested.

## 1. Layout

| Lean modules | model | contents |
|---|---|---|
| `Base/Str, GoMap, U8` | Go strings, maps, bytes | byte strings, `strings.*` functions, maps, exhaustive byte facts |
| `Base/Base64` | `encoding/base64` (StdEncoding) | decoder as in Go, encoder |
| `Base/FastPath` | fasthttp v1.58.0 `normalizePath` | percent-decoding and cleaning of request paths |
| `Base/Path` | `path`, `path/filepath` (Unix) | `Clean`, `Join`, `Base`, `Split` |
| `Model/Tree` | `tree.go`, `methods.go` | segment tree: `Add`, `Find` |
| `Model/RegTree` | `reg_tree.go`, `server.go` (lookup) | regexp table, `Server.Find` |
| `Model/Heap` | `top_handler.go` (builders), `gorouter.go`, `server.go` (registration) | handler sets and routers over a heap of arrays, programs of API calls |
| `Model/Pipeline` | `top_handler.go` (Run, RunLast), `ctx.go` (control), `server_run.go` (runHTTP) | request life cycle with goroutines |
| `Model/Auth` | `baseauth.go`, `server_run.go` (ServeHTTP) | basic authentication |
| `Model/Roles` | `baseauth.go` SetRoles, Roles, NewBaseAuth, `server.go` New, SetBaseAuth | maps, BaseAuth objects and servers on a heap, shared by reference |
| `Model/Ctx` | `ctx.go` (helpers), `params/params.go` | parameters, form, cookies, host, context data and clones |
| `Model/ServerRun` | `server.go` (resolveAddress), `server_run.go` (Run, Shutdown) | start, watching goroutine, shutdown counter |
| `Model/Locks` | locking of `tree.go` | registrations and lookups interleaved |
| `Model/SetLocks` | locking of `top_handler.go` | requests and builder calls on one set interleaved |
| `Model/Races` | accesses to shared memory of the API calls of gorouter.go, top_handler.go, tree.go, reg_tree.go, server.go, ctx.go, logger/** | one list of accesses and lock operations per call, goroutines interleaved |
| `Model/Cookie` | `ctx.go` Cookie, with fasthttp's Cookie header scanner | result of Cookie for the Cookie headers of a request |
| `Model/SetCookie` | `ctx.go` SetCookie, with fasthttp's `Cookie.AppendBytes` and `ResponseHeader.SetCookie` | the Set-Cookie lines of a response |
| `Model/Wire` | `server_run.go` runHTTP (path looked up), `ctx.go` PeekParam … SqueezeParams, with fasthttp's `URI.parse`, `Args.ParseBytes`, `parsePostArgs` | from the request target and body to path, query and form |
| `Model/Pipe`, `Props/Pipe` | `static/fs.go` the goroutine of multipart answers and `io.Pipe` (C120) |
| `Model/Handles`, `Spec/Handles`, `Props/Handles` | `static/fs.go` serveFile with the files it opens, uses and closes (C121) |
| `Spec/Determined`, `Props/Determined` | `reg_tree.go`, `server.go`, `static.go`: which handler sets may answer (C122) |
| `Spec/Panics`, `Props/Panics` | `server.go`, `reg_tree.go`, `gorouter.go`: the calls that panic (C123) |
| `Spec/CookieAny`, `Props/CookieAny` | `ctx.go:168-176`: what Cookie makes of arbitrary Cookie headers (C83) |
| `Spec/DateForms`, `Props/DateNames`, `Props/DateForms` | C114_texts: exactly which texts are read as a date, in the three forms with what package time lets pass (case of names, runs of blanks, one-digit hours, fractions, zone names), and as which time |
| `Model/Video`, `Props/Video` | the handler of examples/static_video/main.go:37-59 with fileouter.go, in the program of C98 | C124 |
| `Spec/Session`, `Props/Session` | a client over any number of visits, on Model/SetCookie and Model/Cookie | C125 |
| `Spec/Download`, `Props/Download` | a client that is interrupted and goes on, any number of times, on Model/EndToEnd, Range and Cond | C126 |
| `Spec/Cache`, `Props/Cache` | a cache that revalidates any number of times, on Model/EndToEnd and Cond | C127 |
| `Spec/Segments`, `Props/Segments` | a client that fetches pieces in any order, on Model/EndToEnd, Range and Cond | C129 |
| `Spec/Guard` | what it means that a handler refuses requests, that the others do not undo it, that a program registers through guarded routers only |
| `Spec/Rename`, `Lemmas/Rename`, `Props/Rename` | no new code: two tables of routes that are the same up to the spelling of literals and the names of parameters, and the trees they make (C131) |
| `Spec/Order`, `Props/Order` | no new code: which pairs of registrations are in each other's way (C132) |
| `Props/Prefix` | no new code: the routes below a literal prefix (C133) |
| `Props/ErrorPage` | C134: a last handler that answers errors | Spec/ErrorPage: `AnswersErrors` (what such a last handler does), `Failed` (a handler or goroutine returned an error, read off the trace) |
| `Props/Head` | C135: HEAD and GET for static files | Spec/Head: `HeadAnswers` (same status, same headers, no content, errors the same altogether) |
| `Props/Reload` | C136: a table of routes registered again | Spec/Reload: `sameRoutes`, `known` |
| `Props/Every`, `Lemmas/EveryTree`, `Lemmas/EveryAgain` | C137: the reading of every table, C136 for every table | Spec/Every: `serveEvery`, `reads` |
| `Props/LifeError` | C92: calls of Run that do not come to serve | — |
| `Props/Odd` | C138: whole servers with odd routes | Spec/Odd: `entryEvery` |
| `Props/Mounted` | C133 for every table, also with odd routes | Spec/Mounted: `under`, `KeepsClear` |
| `Props/Frame` | C08 for every table and every new route | Spec/Every: `reads` |
| `Props/First` | C03 for every table: the route registered first | — |
| `Props/Gain` | C07 and C03 for every table: who can hide a path | Spec/Every: `reads` |
| `Props/Left` | C63: which part of a request leaves goroutines running | — |
| `Props/Method` | C140: whether the routes of other methods matter | Spec/Own: `ofMethod` |
| `Props/Diverge` | C132 for every table: routes that part after literal segments | Spec/Diverge: `Parting`, `Shuffle` |
| `Props/Lost` | C139: records lost because a field has no JSON | Spec/Lost: `FailsOn`, `Replaces`, `OpFine` |
| `Props/LostReq` | C139 for requests and Debugf | — |
| `Props/LifeSocket` | C93, C94 for whole calls of Run: which sockets are closed | Spec/Socket: `OnSocket`, `Uses` |
| `Props/Silent` | noninterference of the guard, on Model/Auth | C128 |
| `Model/ReadDir`, `Spec/ReadDir`, `Props/ReadDir` | `static/fs.go` ioFile.ReadDir, Readdir over any `fs.ReadDirFile` (C119) |
| `Model/ExampleHandlers`, `Spec/Plain`, `Props/Plain` | what the handlers of the example programs write (C117) |
| `Model/Dates` | static/fs_utils.go: TimeFormat, ParseTime; package time: absDate, Date, Format, Parse for the three layouts | 64 bit overflow of years far from now; Local is a parameter (offset of a zone name) |
| `Model/LogTime` | logger/logger.go:25, logger/config/config.go:13; package time: appendNano | the time zone is its offset at that moment |
| `Model/Contexts` | `ctx.go` NewContext, Ctx, RCtx, GlobalContext, Abort, EGWait, `server_run.go` 32-33, 135-136, with package context, errgroup and fasthttp's `RequestCtx.Done`/`Value` | histories of calls on contexts |
| `Model/Group` | `ctx.go` EGSetLimit, EGGo, EGTryGo, EGWait, with errgroup's limit | token channel and phases of the goroutines |
| `Model/GroupProg` | `ctx.go` EGGo, EGTryGo, EGWait called by handlers and by goroutines, `server_run.go`:157 | programs of group calls, scheduled step by step on Model/Group |
| `Model/UniqId` | `ctx.go` UniqId, with hash/crc64 | checksum of time and path, bit by bit |
| `Model/Json` | `logger/fields.go` Json, with json-iterator and unicode/utf8 | escaping and encoding of records |
| `Model/StdLog` | `server_run.go` printError, ServeHTTP | what is printed about failed requests |
| `Model/ReqLog` | `server.go` (log settings), `ctx.go` (logger calls), `server_run.go`:135-150 | the loggers of requests on the heap of Model/Logger |
| `Model/Pool` | `tree.go`:86-176 (`Find`, `cloneArgs`), `server.go`:128-140 (`Find`), `server_run.go`:123-133, fasthttp `AcquireArgs`/`ReleaseArgs` | concurrent requests step by step, objects with addresses, a pool that may return any free object, a new one, or drop objects |
| `Model/Life` | `server.go`:18-95 (fields, setters, getters), `server_run.go` (whole Runs) | settings, several Runs of one server, one after the other |
| `Model/TreePrint` | `tree.go`:242-260 (`String`, `print`) | the listing of a tree; map order arbitrary |
| `Model/Examples` | `examples/*.go`, `examples/*/main.go` | the five example programs as programs of API calls |
| `Model/EndToEnd` | request processing on the tables a program of API calls has left | Heap + Pipeline + Auth composed |
| `Model/StaticReg`, `Base/Rx` | `static.go`, `static_embed.go`, `static_embed_fix.go` (registration) | calls of the API they make; `Base/Rx` is the fragment of package regexp needed for "^"+prefix+"/.*" |
| `Model/StaticMain` | the handlers of static.go, static_embed.go, static_embed_fix.go in the pipeline | Model/Static run by Model/Pipeline |
| `Model/Logger` | `logger/**`, Debugf helpers | levels, configurations, loggers, records |
| `Model/Text` | `internal/text/text.go` (= `net/textproto.TrimString`) | ASCII trimming |
| `Model/Sniff` | `static/sniff.go` | content type detection |
| `Model/Range` | `static/fs.go` (parseRange, httpRange), `fs_utils.go` | byte ranges, int64 wrap-around |
| `Model/Cond` | `static/fs.go` (preconditions, ETags) | conditional requests |
| `Model/Content` | `static/fs.go` (serveContent), `fs_utils.go` | status, headers, body, multipart |
| `Model/Static` | `static/fs.go`, `static/static.go`, `static*.go` | file servers and static handlers |
| `Conformance`, `ConformanceExt` | the project's unit tests; published test vectors of the external code modelled | cases only, evaluated by the kernel; no property rests on them |
| `Witness/*` | the theorems with hypotheses, applied to concrete servers, requests and histories with every hypothesis discharged |
| `Spec/*` | nothing in the code | the small independent specifications the theorems refer to |
| `Lemmas/*` | – | helper lemmas |
| `Props/*` | – | the property theorems, one file per area, each with concrete cases |

Every model definition cites the file and lines of /repo it models. `tools/gen_props.py`, `gen_manifest.py`,
`gen_axioms.py` regenerate properties.jsonl, MANIFEST.json and AXIOMS.md.

## 2. Conventions

* A Go `string`/`[]byte` is a list of bytes (`Str := List UInt8`), not of runes: paths, headers and bodies are arbitrary bytes.
* nil pointers, error returns and panics are explicit values (`Option`, `Except`, `Outcome`). Indexing out of range, assignment to a nil map and method calls on nil pointers are panics of the model.
* A method that mutates through a pointer returns the new value. The route tree is a tree of exclusively owned nodes (each `*Node` is created by one `append` and stored in one `Children` slice), so functional update is faithful. Where aliasing matters (handler slices, contexts, logger configurations) there is an explicit heap.
* Loops are structural recursion or take fuel; with fuel, "out of fuel" is a distinct outcome proved unreachable.
* Nondeterminism (map iteration order, append growth, goroutine scheduling, interleavings) is a universally quantified parameter or a step relation; no fairness is assumed unless stated.
* External behaviour is a parameter wherever possible; see section 4.
* A property that is false of the code keeps its full statement in properties.jsonl, has a theorem `…_violated` with a concrete witness (or the negation for all states), and the strongest true part as `…_partial` or an exact characterisation.

## 3. Plan per property

**Routing (Model/Tree, Spec/Routing, Props/Routing).** `Node`, `addRec` and the queue loop of `Find` are modelled line by line. (a) The queue loop equals "first candidate at full depth in depth-first order" for every tree (induction on fuel, Lemmas/TreeFind); (b) for histories of clean routes (no empty or colon-only segment) a representation relation between nodes and lists of registrations is preserved by `Add` (Lemmas/TreeAdd, Routing); for arbitrary histories an invariant ties every node to the registered routes and their "graft" paths (Lemmas/NodeInv, NodePath); (c) `Spec.Routing` speaks about lists of registrations only.

* C01 literal routes are a map: corollary of (b), for all histories of literal routes.
* C02 only registered routes are served: `C02_any_history` for every history (exact relation of route and path), `C02_sound` when the served route is clean; `C02_condition_needed` for empty segments.
* C03 reachability: false (`C03_violated`, `C03_violated_prefix`); proved without competitors, with agreeing competitors, with literal competitors; exact condition: `C03_exact`.
* C04 arbitration: order of first creation of branches, from (a) and (b), both for success and failure.
* C05 parameters: for every history, when the served route is clean.
* C06 re-registration: parameters ignored, literals replaced; for every history (`Lemmas/Again`): a registered route keeps its branch (`Ready`, preserved by every later registration), so adding it again puts no full-depth node before the first one.
* C07 monotonicity: false; proved for fresh first segments and for literal histories; exact effect of one more registration: `C07_exact`.
* C08 frame: for every history, when the new route is clean; `C08_condition_needed` otherwise.
* C09 method coverage: map algebra of `addMethod`; invariant: no pseudo-method keys; methods do not interfere (`C09_other_methods`, as C06).
* C10 normalisation: byte-level `TrimSpace` (all Unicode white space in UTF-8), `Trim`, `Split`.
* C11 termination: fuel = number of nodes suffices, panics unreachable, on every tree.
* C12 buffer: the result is a function of tree, method and path only.

**Regular expressions and combined lookup (Model/RegTree).** Which strings an expression matches is a parameter, the iteration order any permutation. C13 found iff some latest registration matches, and which one; C14 tree first; C15 unsupported methods panic and change nothing.

**Builders and registration (Model/Heap, Spec/Builders).** Heap of arrays, Go `append` with arbitrary growth; programs are arbitrary lists of API calls. C16 convenience methods; C32 snapshots: frame invariants over all later programs; C33, C35: isolation, false in general because of shared spare capacity (witnesses with Go's doubling growth), proved for the programs without the sharing; C34 order: refinement of a value semantics (Lemmas/ValueSem), and call by call for every program.

**Requests (Model/Pipeline, Spec/Pipeline).** A handler is an arbitrary terminating interaction with its context (`Prog`), goroutines are interleaved by an arbitrary scheduler; a ghost trace records what happened. C17–C20 about the chain, C21–C25, C63 about the whole of runHTTP; proofs by induction over programs and schedules (Lemmas/Pipeline, Chain, ChainRuns, QuietProg, Request, Quiet).

**Responses and the server's log (Spec/Answer, Model/StdLog, Spec/StdLog).** C87: the ghost trace records every change of the response; over complete handler calls the changes form a chain (`Whole`), by induction over programs. C88: the returned error of runHTTP as a function of the trace, from the shapes of Lemmas/Request; violated for paths with line breaks.

**Authentication (Model/Auth, Spec/Auth).** Byte-level, with Go's base64 decoder; C26 gate for every configuration history, C27, C29, C31 proved, C28 and C30 violated (witnesses, exact characterisation).

**Shared role tables (Model/Roles, Spec/Roles).** C108: the heap of maps, BaseAuth objects and servers against a reading of the program backwards (last SetBaseAuth, last SetRoles, last write to the entry by any alias), by induction on the program; then C26_gate. Maps as Go has them: concurrent writes are races (C78).

**Context helpers (Model/Ctx, Spec/Ctx).** C36–C43 as functions over ordered lists of pairs; C40 and C64 over a heap of contexts by refinement to a value semantics; C37 violated for empty segments; C38's order refuted.

**Server (Model/ServerRun).** C44 address resolution; C45 counter (64-bit) under every interleaving; C65–C67 labelled transition system of Run, its goroutines, signals, Shutdown calls and fasthttp's listener; C65, C66 violated.

**Locks (Model/Locks, Model/SetLocks).** Interleavings of any number of goroutines with `sync.RWMutex` (writer preference). C46 tree, C73, C74 handler sets; invariants over all schedules; C74 violated by a handler that calls a builder of its own set; C74_exact: that is the only way; C74_ends_partial: otherwise everything is over after a bounded number of fair rounds.

**Races and deadlocks (Model/Races, Spec/Races).** C78–C81: a race is a reachable state with two goroutines about to access one location, one of them writing; lockset argument (`raceFree_of_chk`): a discipline (`Guard`) per location, checked along every program, excludes it for all interleavings. C82: `Waits` (a request that runs set s has a handler that locks set t) either has a circle (`Circle`), and then the requests of the circle are run one after the other up to their locks and stay there for good (`Jammed`, an invariant), or the sets have an order (`rank_of_no_circle`), and mutexes taken in the order sets, router, node, logger, configuration let every interleaving be continued to the end (`noDeadlock_of_ord`). Programs outside the disciplines: witnesses.

**Which calls race (Spec/Clash, Lemmas/Clash).** C116: a race is reachable exactly if two programs have clashing accesses. That a clash leads to a race needs a schedule: mutexes are taken in one order and given back last-in-first-out (`lifo`), so both goroutines can be brought to the mutex of least rank they will still hold at their access, again and again, until both are there (`meet`); the accesses in question hold no common mutex, except for reading. Conversely every reachable state keeps track of who holds what (`Tracks`). From it: exact tables of which methods must be kept apart, for the methods of a logger (C79_exact), a context (C80_exact), registration and lookups (C81_exact, C46_exact), and for what may be done to a server while requests are served (C78_exact). The nodes of the tree other than their handlers are one location, so `disturbs` in these tables counts any lookup below the root and any registration that brings nodes as in each other's way, in whatever branch.

**Cookies and goroutine limits (Model/Cookie, Spec/Cookie, Model/Group).** C83: requests are built from a list of cookies by a separate specification of the Cookie header; the result of `Cookie` is computed for all of them by induction over the list; the property as stated is refuted. C83_any leaves well-formed requests: `Spec/CookieAny` says relationally what any header means (semicolons, first '=', spaces, one pair of quotes), the relation is shown to be functional and total, and the result of `Cookie` is characterised by it. C84: invariant `tokens in the channel = goroutines not yet done` for all sequences of calls once the limit is set first; witnesses otherwise.

**Cookies there and back (Model/SetCookie, Spec/SetCookie).** C99: the specification is an RFC 6265 client (reading Set-Cookie, store, which cookies go with a request, in any order); the lines are read back by splitting at the separators they cannot contain, the calls of a response by induction (one line per name, the last), the store by induction over the lines, and the next request by C83_exact.

**What the client wrote (Model/Wire, Spec/Wire).** C100, C101: the specification is the relation "w is a way to write s" (each byte as itself or escaped, in either case; '+' for a space in parameters), closed under joining to paths, pairs and targets. Decoding inverts it by induction on the derivation; splitting at separators the written text cannot contain recovers the parts. C100_exact: every step of the normalisation and of the splitting that changes a path shortens it, so if the segments come out as sent, no step changed anything, which gives the conditions. Not modelled: targets in absolute form, targets with control characters (the library rejects them), streamed bodies, multipart forms (the module does not read them).

**Access by path, logging in (Spec/Challenge).** C102: the segments of a normalised path, written again, are a prefix of the path (the split only trims at the end), so a path matched by a route below L begins with L; with C26 and C02. C103: the reader of challenges is the grammar of RFC 7235; that a quoted text read back equals itself only without quotes and backslashes is shown by an induction in which the reading position is ahead of the comparison by a run of backslashes.

**Request ids (Model/UniqId).** C85: the checksum is linear over GF(2) and each step injective; an explicit left inverse (Gaussian elimination, checked by the kernel) recovers any difference of 16 half bytes or of 8 bytes, so such differences change the id. C85_exact (Spec/UniqId): for all times and paths, same id iff the texts, aligned at the end and preceded by eight fixed bytes, differ by a sum of shifted copies of the pattern of CRC-64/ISO (divisibility by the generator polynomial): the checksum is followed as a shift register bit by bit; the bits that leave it are the quotient, and its content is determined by the last 64 of them. C85_burst: texts of one length that differ only within 64 consecutive bits never collide.

**Getting past EGWait (Model/GroupProg, Spec/GroupProg).** C104: functions are trees of calls; the invariant is that of C84 plus: the number of goroutines that may still call EGGo does not grow. Every step lowers a weight, so schedules are finite; in a stuck state all places are taken by goroutines before EGGo, so there are at least n of them. C104_exact (Props/GroupExact): `standing` bounds how many goroutines can stand before EGGo at once and no step raises it; conversely, as long as fewer than n stand, somebody can move without lowering it below n, so a hanging state is reached.

**End to end (Model/EndToEnd, StaticReg).** C75 composes C32/C33 (what is registered), C01/C03/C13/C14 (what is found) and the pipeline: processing depends only on the lookup result and the handlers found. C76 uses the meaning of "^"+prefix+"/.*" for prefixes of plain text, non-ASCII characters included (`rx_literal`), and for prefixes with dots (`rx_dots`) and C75 for expressions; C77 composes the path rewriting of StaticFile with C56/C58. C90 puts the file servers into the pipeline as main handlers and composes C76 (and the argument of C33 for the set the call makes), the lookup and C70/C72/C77.

**Logger (Model/Logger, Spec/Logger).** Heap of configurations and loggers, histories of calls; C47–C50 by refinement to a value semantics. `Sprintf` and JSON are parameters; C50 violated (exact record proved). C86 (Model/Json, Spec/Json): a JSON reader written separately reads every record back; UTF-8 decoding proved against the encoding of RFC 3629. C91 (Model/Pool): an ownership invariant (every object is in the pool, with another user, or held by one request, and at most once; pooled objects are empty; the loop state of each request determines the result of its sequential lookup), preserved by every step. C92–C94 (Model/Life): the settings by induction over the history; one Run from an arbitrary Shutdown counter and listener by invariants over the events of Model/ServerRun. A Run after a shutdown call that gave up (fasthttp then still holds the old listener) is not described. C89 (Model/ReqLog): every call of server, context and request processing is the list of logger calls it makes; the value semantics of C49 gives isolation over all histories.

**Listing (Model/TreePrint, Spec/Listing).** C95: the tree is read back from its text by indentation; the lines of a node are determined by the representation invariant of C01 (`Rep`), by induction over it.

**Tables (Spec/Table, Spec/Orderly, Spec/Examples, Model/Examples).** C96 puts C34 (calls as values), C04/C13/C14 (lookup) and C75 (processing) together: the specification collects a table of rows from the calls without heap and tree, and the server is compared with a server that has one row only; routing is shown to commute with renaming what is registered, so the addresses in the tree and the rows of the table are looked up alike. C97 is proved from the arbitration theorem (both directions; the converse builds a path on which two routes meet). C98 instantiates both with the example programs; the finite checks over their tables are evaluated by the kernel, the requests stay quantified.

**From the socket to the handlers (Spec/Whole).** C109 composes C96 (the server is its table), C100/C101 (what was written) and the independence of the processing from everything but the row, the bindings and the parameters: after the rewriting by C96 only the parameters and the pooled buffer differ, and the lookup of the sole row has the same result for both.

**Downloads through a server (Props/Mount).** C110 carries C105–C107 (the file server) through C90 (a static route of a server answers with what its file server makes of the request), uniformly for the three kinds of static route; two arrivals with two interpretations of the handlers, so that the file system and everything else may change in between.

**Contexts (Model/Contexts, Spec/Contexts).** C111: the world keeps tables of contexts; the specification speaks only of positions in the history ("the call that made it", "some later call"), with cancellation of the program's contexts as an inductive predicate along derivation. Entries of the tables change only by calls that concern them (induction on the history); the shutdown channel of fasthttp is related to a three-phase automaton by an invariant. Isolation is a simulation that ignores one request. Simplified: a child counts as done as soon as its parent is; deadlines and contexts that handlers derive themselves are left out.

**Frail files (Spec/Frail).** C112: the answer for any content is compared with the answer for a file with exactly the announced bytes; every stage of `serveContent` preserves "same status and headers, body a beginning of the other", by induction over the ranges for multipart bodies.

**Schedules (Spec/Confluence).** C113: two runs of the same request under any two schedulers are related by an invariant: what handlers can see is equal, the shared state that results when the pending goroutines are run is equal, "some goroutine has failed or will" is equivalent, and the trace without goroutine steps is equal. Each goroutine step preserves the invariant on its own side, each handler call on both; after EGWait nothing is pending, so state and error are equal. C113_needed gives a pair of schedules with different answers for each condition dropped.

**Dates (Spec/Dates).** C114: the calendar is specified by 1 January 1970, the lengths of months and the rule for the next day (`Calendar`), the week by the Thursday of that day (`Week`); both are shown to have exactly one solution, the arithmetic of package time (division by 400, 100, 4 and 1 years, month table) is shown to be it, and day numbers are shown to be its inverse. Each form is then read element by element; a form is refused by the layouts tried before its own (the long name of the day, the comma). C114_texts turns this round: each element read is characterised by an equivalence (Props/DateNames), the loop over the layout is unrolled, and the three forms are shown to exclude one another by their fourth byte, so a text is read as a time if and only if `DateText` describes it. C114_law discharges the hypothesis `DateLaw` of C106, C107 and C110.

**The goroutine of a multipart answer (Model/Pipe).** C120: a transition system of goroutine and caller over an unbuffered pipe. `PipeInv` (bytes read and still to be written are those of the script; bytes read and wanted add up) gives the bytes; a measure and progress give the end; that the content is left alone follows from the counted size being exactly what is written, or more if something fails (`partActs_length`, with the size arithmetic of C56). C120_answer ties it to the sequential model of Model/Content.

**Files (Model/Handles).** C121: serveFile once more with its open, use and close events; C121_same shows that it answers as the model of Model/Static. `listing_untidy` shows that the listing mode, which nothing exported turns on, would leak the directory.

**Equal requests (Props/Determined).** C122 quantifies over the orders in which the map of expressions is visited. C122_possible characterises the possible answers declaratively (`Answers`: the latest registration of an expression that matches), C122_exact when there is only one, C122_static instantiates it with the expressions StaticFile compiles; C122_violated gives the two programs.

**Which calls panic (Props/Panics).** C123_exact compares the panic flag of the step of `Model/Heap` with the list `PanicCall` of `Spec/Panics`, after every program; the proof uses that the table of expressions is always the one built from the accepted registrations (`WF.regs`). C123_unchanged follows a recovered panic: the array and set that a refused `AddReg`/`UseReg` has already allocated are reachable from nothing that existed before. `Scoped` leaves out calls on variables that do not exist and slice expressions out of bounds: neither is the library's doing.

**The video (Props/Video).** `video_served` follows a request through C98 (which handler runs), the pipeline and the handler to `ServeContent`; `content_route` turns a call of `ServeContent` into a static route for one file (C105), so that C105, C106, C107, C68 and C118 apply to the handler. The modification time passed is the clock of the request (main.go:58), so asking again is exact in the seconds of the two requests.

**Sessions (Props/Session).** C125: the invariant `Knows` says that the client's store has no cookie of the name, or exactly one, with the value of the last call; one Set-Cookie line (`knows_receive`), one answer (`knows_visit`, where only the last call for each name is written) and then any number of visits keep it; C83_exact reads the header. Expiry of cookies with the passing of time is not described. C125_paths shows that the proviso (one path) is needed.

**Downloads (Props/Download).** C126: `ServesParts` lists what is needed of one answer (the whole file without If-Range; the rest if the second is the same; all if it is not), `serves_parts` proves it of the model from C107 and the file theorems, and `download_one` is the induction over the history with the invariant `OfOne`. C126_same_second shows that the proviso about the second is needed, with a history of two requests.

**Caches (Props/Cache).** C127: as for downloads, `ServesCache` lists the answers, `serves_cache` proves them of the model and `cached_of` is the induction over the history; the invariant `HeldOf` says that the bytes are of one version and the date of one that is not from a later second, so it also covers caches that renew the date after a 304. C127_backup is the history, of any length, in which the proviso fails and the cache stays stale.

**Refusals (Props/Silent).** C128 compares two runs: `C128_silent` takes two unrelated servers and requests and only asks for the same challenge; `C128_one_bit` is an equality of whole outcomes. Timing (string comparison stops at the first difference) is not described by the model.

**Pieces (Props/Segments).** C129 is C126 for clients that fetch any pieces in any order: `ServesSegments`, `serves_segments` and the induction `segmented_one`; C129_covered builds, for any list of pieces that covers the file, the history that ends with the file.

**Guards (Props/Guard).** C130 composes the heap model (which handlers a route has, C32/C96), the routing tables (what is found was registered, C02/C13) and the chain (C18-C20): by induction over the before list a refused request never ends the list with `next` unless `skipped` is set, so both the trace without `main` and the equality of two servers with different main handlers follow for one request, and `guarded_all` (induction over the program) gives the hypothesis on the tables for every program. `C130_before_replaces` and `C33_unguarded` show that the two provisos are needed.

**Respelled routes (Props/Rename).** C131 is a simulation: `_add` and `Find` are followed on two trees at once. Two nodes are related when their texts are related by an injective map, both or neither have a parameter name, their handlers are the same and their children are related one by one; every registration keeps this, for every history (no condition on the routes, empty segments and colons included), and a lookup makes the same decisions on both. `C131_requests` lifts it to whole requests.

**Order of registration (Props/Order).** C132 sharpens C97_order: the condition is on pairs of rows, not on the table in both orders, and `C132_exact` proves it necessary. Sufficiency goes through C97 (routes that are not in each other's way make an orderly table in every order, and then at most one row answers a request); necessity builds the contested path and compares the two orders by C04.

**Prefixes (Props/Prefix).** C133 works on the specification of routing (C04): the routes that go on with a literal form one branch, and the branches of parameters contribute nothing below an owned prefix. `C133_condition_needed` shows the condition is needed.

**Error pages (Props/ErrorPage).** C134 combines C21, C22 and C87 at the level of `serveHTTP`: the only change of the response made after the chain is the one of the last handler (`pages_routed`, by unfolding `runRouted`), it is made exactly if the error handed to it is not nil (C21), and the response is what the recorded changes lead to (C87). `C134_provisos` shows by three requests that the conditions (no failed session initialiser, no Abort, no panic) cannot be dropped.

**HEAD (Props/Head).** C135 follows the request through the file server: preconditions and content type do not look at the method beyond "GET or HEAD", the only place that does is `sendBody`, and every error is written before it (`serveContent_headAnswers`, `fileServe_head`); the server level is C90 for both requests (`mounted_any`). `C135_fixed` shows with C25 that no HEAD request reaches a fixed file route.

**Registering again (Props/Reload).** C136 is proved on the specification of routing, by induction over the path: one more registration of a known route leaves the first candidate of every path, and joins it if the candidate binds nothing and the route is the path (`cand_again`, `cand_known`); a first candidate that binds nothing consists of all registrations of the path (`head_ending`). `C136_reload` is the general form, `C136_twice` the unchanged table, `C136_parameters` partial reloads.

**Every table (Props/Every).** The specification Spec/Routing covers tables without empty and colon-only segments. Spec/Every has two more rules and covers all: an empty segment continues on the first branch without text, even the branch of a parameter, and what is registered below a parameter goes to all branches there are. The refinement is again by induction over the registrations (`descend_reps`, `treeOf_reps`) and over the path (`candsAt_reps`), giving `treeFind_every` without hypotheses. On it: where the registrations on a branch come from (`origin_forks`, `choices_reads`: C137_served), that a registration shorter than the path contributes nothing (`choices_shorter`), and that reading the last part of a table again only repeats the last part of each branch (`choices_again`: C136_every_table).

**Whole servers with odd routes (Props/Odd).** As for C96, the log of registrations of the world and the table that the program read as values builds are laid side by side; that a reading does not look at what is registered (`serveEvery_mapSet`) and `treeFind_every` give what is found. The part of C96 about expressions is now a lemma of its own (`unrouted_answer`).

**Prefixes in every table (Props/Mounted).** The forks a table is read as (`forks_foldl`) are taken one segment at a time: below a segment that no parameter competes with, the candidates are those of the rows that go on with it (`forks_segment`), which by induction gives the rows below the prefix.

**Adding a route to every table (Props/Frame).** C08 with `reads` (C137) in place of "matches": a way whose text is not empty has no name (`ofSegment_forks`), so a new route goes only ways that the path does not, unless it reads the path (`choices_unread`).

**The route registered first (Props/First).** In every table: later routes never come before the way of the first one and only add to it (`foldl_head`), so its end is the first candidate of every path it matches (`choices_head`); what is served there is the latest registration for the method.

**Who can hide a path (Props/Gain).** For every table: a registration that is not longer than the path leaves the best candidate as it was or is itself on the best candidate afterwards (`choices_gain`). So if it covers the method, the path stays found; with C08 for every table, a path that is lost was hidden by a route that reads it and is longer or does not cover the method (`C07_culprit`), and a matching route is reachable where there is none of these (`C03_covering_partial`).

**Who leaves goroutines running (Props/Left).** `C63_where` composes C21 (all goroutines have ended when the last handler starts) and `C63_release_partial`: goroutines run when the buffer is given back only if the last handler started them, or no last handler was called after a panic, an abort or a failing session initialiser.

**Routes of other methods (Props/Method).** C140 compares a table with the table of its routes for one method (`ofMethod`). Literal routes share nodes, so only registrations that cover the method count (C01). A route with a parameter opens a branch each time it is registered, and the first branch that reaches the depth of the path decides (`candidates_same`), so the same route for a second method is never reached.

**Order in every table (Props/Diverge).** For tables with odd routes C132 is proved of routes that part: after common literal segments one ends, or both go on with different segments that are no parameters. At that segment the two orders give the same ways but for two neighbours without name and with different texts (`Crossed`), of which a path can take one at most; this survives further registrations. Before it both go the one way with that text, where they are swapped (`AllSwapped`), which is the claim for the rest of the path.

**Lost records (Props/Lost).** C139 is told in the values of C49, where every logger is its own: `Json` returns nothing when the encoder fails and `Log` writes that. The encoder is any that fails exactly for records holding a value without JSON (`FailsOn`; `encoder_exists`). A call that does not replace a field leaves it (`kept_step`), so the silence lasts by induction on the calls; for the partial statement the invariant is that all fields of all loggers have JSON.

**Lost records and requests (Props/LostReq).** C89 says which record the first message of a request and a Debugf write: it holds texts only, so it has JSON, whatever was put into other loggers, or (Debugf) into this one.

**Sockets (Props/LifeSocket).** C94 speaks of one abstract listener; here a whole Run of a whole server is followed to the socket beneath its listener, with TLS or without: it is closed exactly when the execution of Run closes it, no other socket ever is, and what the server keeps as its listener is on that socket, which is what the next Run of C93 meets.

**What was there before (Spec/Kept).** C118: `Keeps K w w'` (headers outside K as before, body extended) is closed under every primitive that changes a response, and is carried through every path of serveContent and serveFile, once with K being all content headers, once without Content-Encoding and, if there is one, Content-Length. The status is shown to be overwritten by running both from `w` and `w` with another status.

**Directories in pieces (Spec/ReadDir).** C119: the contract of `fs.ReadDirFile` is a hypothesis (`ReadsDir`, met by `plainDir`); the loop of Readdir is shown by induction on its fuel, which the entries left bound, to return a prefix of what is left. `Collected` is a caller who keeps every piece.

**Example answers (Model/ExampleHandlers, Spec/Plain).** C117: `PlainProg` describes handlers that only change response and state; induction over it and over the lists of handlers shows that nothing else of the context matters, whatever the scheduler does; composed with C97 (routing) and C98 (tables), C83 and C99 (the client's cookie store).

**Shared arrays (Spec/Alias, Props/Alias).** `Overwrites A s xs z` says when `append(s, xs...)` changes the list `z`: room behind `s`, in the same array, over a cell `z` uses, with another content. `append_changes` proves this of the model's `append` for all heaps; `C33_exact` and `C35_exact` use it to say which calls, after any program, change a registered route or another router, and that no other call does.

**Time stamps (Spec/LogTime).** C115: `Says` is the reading of a text as RFC 3339 in UTC; fixed-width fields make it unambiguous (C115_one_reading). The stamp of a logger made at t with clocks off seconds east says exactly t + off, to the millisecond; an invariant over histories of logger calls shows that the field keeps the moment of creation.

**File serving (Model/Static, Content, Cond, Range, Sniff, Text and their Specs).** C51–C53, C61, C62, C68–C72 with the file system a parameter, fasthttp's normaliser and Go's `path.Clean` modelled; C54–C56 on integers and bytes with int64 wrap-around; C57, C58 preconditions against RFC 7232 in Spec/Cond; C59 sniffing against a table of rules; C60 trimming.

**Ranges, revalidation, resumed downloads (Spec/Seek).** C105–C107: which file a request names and what an answer with a part of it looks like are written down in Spec/Seek; each static route is shown equal to `serveContent` on that file (C105_content), then C55 (RFC 7233 meaning of the header), C56 (what is sent) and C57 (conditions) are composed. For the two-request properties the date law — the date the library writes is read back as the second it was written from and does not look like an entity tag — is a hypothesis on the parameters `parse` and `format`, which C114_law proves of Go's for the years 0 to 9999, and the file system may change between the requests.

## 4. Trusted base

* **Kernel**: Lean 4.33.0; no Mathlib module is imported. No axioms of our own, no compiled evaluation (`decide +kernel` and `decide` reduce in the kernel).
* **Axioms**: at most `propext`, `Classical.choice`, `Quot.sound`; AXIOMS.md lists them for every manifest theorem.
* **The reading of /repo into the model**, cited line by line; nothing was executed.
* **External code, modelled**: fasthttp v1.58.0 `normalizePath` (SetPath), `Args` (ordered list of pairs; Peek, PeekMulti, Add, Reset), Cookie header scanner and `Cookie.ParseBytes`, `Server.Shutdown`/`Serve` as far as Run depends on it (listener stored when Serve begins; Shutdown without a listener does nothing); golang.org/x/sync v0.10.0 `errgroup` (first error kept, context cancelled at the first error or when Wait returns; SetLimit, TryGo); Go `sync.RWMutex`, `sync/atomic` counters, `append`, maps, `strings`, `path`, `strconv.ParseInt/ParseBool`, `encoding/base64`, `net/url` query escaping, `hash/crc64`, `unicode/utf8` decoding, json-iterator v1.1.12 (strings with HTML escaping, integers, booleans, nil, slices, string maps), `mime/multipart` framing, `net/textproto.TrimString`.
* **External behaviour as parameters** (theorems hold for every value): regular expression matching, `time.Parse`/`Format` (except in C114, which models them), `strings.ToLower` on non-ASCII text, `fmt.Sprintf`, JSON encoding in C47–C50 (C86 models it), MIME types by extension, URI quoting, the file system, map iteration order, append growth, goroutine scheduling.

## 5. What is modelled and what is not

| file | modelled | not modelled |
|---|---|---|
| tree.go, methods.go | all: Add, Find and what they call, the locks, `String`/`print` (Model/TreePrint) | — |
| reg_tree.go | all | package regexp itself |
| server.go | Find, Add, AddReg, Get…, resolveAddress, Debugf, the setters and getters (Model/Life, Model/ReqLog, Model/Auth) | — |
| gorouter.go, top_handler.go | all (`HandlerSet.ID` in Model/TreePrint) | — |
| ctx.go | control flow, goroutine group, data, clones, parameters, forms, SetCookie, Cookie, UniqId, goroutine limits, host, Debugf | response helpers that only forward to fasthttp |
| server_run.go | Run, Shutdown, ServeHTTP, runHTTP | sockets, TLS, fasthttp's own server loop |
| baseauth.go, params/ | all | – |
| logger/** | level, config, logger, fields, out, JSON encoding | JSON of floats, structs and marshalers |
| static.go, static_embed.go, static_embed_fix.go | the handlers and their registration | debug log lines |
| static/** | all except log lines | MIME tables, multipart boundary randomness |
| internal/text | all | – |
| examples/ | the registrations of the five programs (Model/Examples), what their handlers write and the cookie they set (Model/ExampleHandlers), the video handler (Model/Video) | terminal output, log lines, ports, timers |

Further simplifications are stated in the comments of the definitions concerned.

## 6. Disagreements between the code and the properties

Each is proved as a `…_violated` theorem (or as the exact characterisation named).

* Routing: routes with an empty segment are grafted onto parameter nodes (C02, C08); the first branch that reaches full depth decides even if it has no handler for the method (C03); a later literal registration hides parameter routes (C07).
* Auth: any unknown user with an empty password is accepted (C28); entries with ':' or upper-case letters cannot be used (C30).
* Builders: Clone and LastAfter share spare capacity (C33, C35).
* StaticFile and StaticFileFS do not escape the prefix they put into a regular expression; a prefix without a leading slash answers nothing (C76).
* Handler sets: a handler that calls a builder method or Clone of its own set blocks for ever and with it the route (C74).
* Requests: after an abort, panic or failing session initialiser the pooled parameter buffer is released while goroutines may still run (C63); Stop in Init does not stop the chain (C19_init); a cloned context panics on Stop, Abort, SkipMain (C64).
* Context: an empty path segment lets the query override a URL parameter (C37); squeezed forms lose the order (C38).
* Server: signal and time-out shutdown bypass the once-only counter (C45); Run never returns after Shutdown alone (C66); a cancellation before the listener is stored is lost (C65); a server that was shut down cannot be run again, and Shutdown before the first Run panics (C93); after a failure to load certificates the address stays occupied (C94).
* Races: adding routes or setting the server's log level while requests are served (C78); the ...f methods of a logger used by two goroutines, and level, writer, key and configuration setters of a logger in use (C79); Set, Stop and Get on one context (C80); regular expression routes registered by two goroutines, Clone and GetBefore of a router being changed (C81). Handlers that change each other's sets in a circle deadlock (C82; exactly those).
* `Cookie` parses the value of the cookie as if it were a whole cookie: the name is lost, values with '=' are split, and empty cookies are missing (C83). A limit set after the first EGGo leaves a goroutine that never finishes (C84).
* An error of the session initialiser, and an error returned along with Abort, reach no handler and no client: the answer is 200 with whatever was written, usually nothing (C134_provisos).
* A path parameter that contains an (escaped) slash reaches other routes, since the path is decoded before it is split; '..', '.' before another segment, empty values and trailing white space are lost (C100).
* Running the set-up again with new handlers replaces the handlers of routes without parameters only; routes with parameters keep the old ones, so a server is half reloaded (C136_reload).
* FixStaticFileFS registers its route for GET and POST, so HEAD is answered 404 although GET finds the file, and POST sends the file (C135_violated, C135_fixed). StaticFile and StaticFileFS register GET and HEAD.
* examples/static_video passes the time of the request as the modification time of the video (main.go:58), so a client that asks again, or resumes, in a later second is sent everything again; the "video/mp4" it sets is overwritten, because ServeContent looks for Content-Type in the request (fs.go:244); and a missing file is answered as an empty success (C124_violated, C124_missing).
* Two static routes for one prefix, or for nested prefixes, answer the same path at random: the expressions are keyed by pointer and the map is visited in random order (C122).
* A field without JSON (a function, a channel, not-a-number) silences its logger and the clones made since: every later record is an empty write (C139).
* A route with a parameter that is registered for a second method is never reached with that method (C140).
* A Content-Type set by the handler before ServeContent is overwritten: the code asks the request for it (C118).
* Readdir of a file of static.FS returns io.EOF along with the last entries (C119).
* The field @timestamp of log records is local time with a literal "Z" (C115), and is the time at which the logger was made: all messages of one request carry the time at which its handlers began.
* A static file that shrinks between Stat and the copy is announced with its old size and sent truncated with status 200; several ranges of a file without Seek are answered 206 with a part header and no content (C112).
* `RCtx` is documented as the request's "local" context but returns the server's (`ctx.go:149-152`): it is not cancelled when the request ends or is aborted (C111). The last handlers always see a cancelled `Ctx()`.
* `SetMessage` does not escape: a quote or a backslash in the message changes the challenge the client reads (C103). An access function that compares the whole path, rather than a prefix, misses the spellings with a slash or a blank at the end (`access_equal_insufficient`).
* Goroutines of a request that call EGGo hold a place while they wait for one: with limit n, n of them hang for ever (C104).
* A cookie cannot be deleted with SetCookie: fasthttp writes positive lifetimes only; an escaped ';' in the path injects attributes (C99).
* Request ids collide (C85).
* Line breaks in a request path are printed as they are, so clients can forge lines of the server's log (C88); errors of handlers are never reported to the client by the router (C87).
* Locks: only root lookups are protected by the lock of the tree (C46).
* The logger is replaced after the session initialiser has run, so its fields and level are lost (C89).
* Logger: records carry the configured level instead of their own, and renaming the message key renames the error key (C50).
* Static: percent escapes are decoded twice, so an embedded file server leaves its directory (C52); `index.html/` serves the index page (C53); the path is not restored exactly (C61); a request's Content-Type suppresses the answer's (C68); FixStaticFileFS on an index page always redirects (C70); redirects carry the whole request URI as query (C71); sums of range sizes wrap (C56_wraps); some malformed Range headers are accepted (C55).

## 7. Tests of the theorems and of the model

The reading of the code: every assertion of the project's own tests of tree.go and internal/text (tree_test.go, tree_2_test.go, text_test.go) is evaluated on the model by the kernel (`Conformance`), and so are published test vectors of Go's path, base64, crc64, url, net/http range, ETag and sniff code and of fasthttp's path normalisation (`ConformanceExt`). gorouter_test.go opens sockets and is not reproduced; its routes are those of examples/server.go (C98).

`seeded/LOG.jsonl` records edits of the model, each a realistic bug, made in a scratch copy: the whole development was recompiled after each edit and the theorems that no longer check were collected. Where a claim became false and its theorems still checked, the theorems were tightened (field `tightened`).
