{"id": "C01", "title": "Counter tracks value, high and low exactly", "statement": "After any sequence of Set/Inc/Dec/Reset calls on a Counter: Current() is the value produced by the last call since the most recent Reset (0 if there was none), with Inc/Dec wrapping in two's complement; High() and Low() are the signed maximum and minimum of all values produced by calls since that Reset (0 if there was none); Set returns the former value, Inc/Dec return the new value and Reset returns the triple (value, low, high) that held before it.", "quantifier": "all finite sequences of operations with all int64 arguments", "why_tests_cant": "values and sequence lengths are unbounded; wrap-around only occurs at extreme arguments", "anchors": ["counter.go: Counter.Set, Counter.Inc, Counter.Dec, Counter.High, Counter.Low, Counter.Current, Counter.Reset"]}
{"id": "C02", "title": "Counter statistics are consistent", "statement": "Stats on a Counter emits exactly high, low, value in that order; high and low are NaN exactly when nothing has been recorded since construction or the last Reset, and otherwise low <= value <= high.", "quantifier": "all operation histories", "why_tests_cant": "the empty/non-empty distinction must survive every interleaving of Reset and updates", "anchors": ["counter.go: Counter.Stats, Counter.Reset"]}
{"id": "C03", "title": "Lock-protected objects are linearizable", "statement": "When any number of goroutines call the mutex-protected operations of a Counter concurrently, under every schedule the final state and every returned value are those of executing the completed calls one after another in the order in which they acquired the lock; no update is lost, and the system never deadlocks (some goroutine can always move while any call is unfinished).", "quantifier": "all numbers of goroutines, all programs of calls per goroutine, all schedules of the individual field reads and writes", "why_tests_cant": "the number of interleavings is unbounded; races are timing dependent", "anchors": ["counter.go: all methods"]}
{"id": "C04", "title": "Distribution aggregates are exact", "statement": "After any sequence of Insert, Query, Stats and Reset on an IntDist/DurationDist, Count is the number of inserts since the last Reset, Sum is their two's-complement sum, Low/High are their exact minimum/maximum and Recent is the last one; Query and Stats never disturb these.", "quantifier": "all operation histories, all int64 values, all random number streams, all values of Window", "why_tests_cant": "unbounded histories; the sampling path only runs beyond 64 values with random indexes", "anchors": ["intdist.go: IntDist.Insert, Reset, Query, Stats", "durdist.go"]}
{"id": "C05", "title": "The reservoir contains only real observations", "statement": "Every sampled value a distribution holds (the first min(Count,64) reservoir entries) is the float32 rounding of a value inserted since the last Reset; while at most 64 values have been inserted since the last Reset the reservoir is exactly the multiset of all of them, even if queries (which sort in place) are interleaved.", "quantifier": "all operation histories, random streams and Window settings", "why_tests_cant": "in-place sorting, random replacement and Reset interact; only some histories show a leak of stale slots", "anchors": ["intdist.go: IntDist.Insert, Query, Reset", "durdist.go"]}
{"id": "C06", "title": "Quantile estimates are bounded and monotone", "statement": "For a distribution with at least one value, Query(q) lies between the smallest and the largest reservoir value for every q, Query(q)=min for q<=0, Query(q)=max for q>=1, and q1<=q2 implies Query(q1)<=Query(q2); hence rmin<=r10<=r50<=r90<=r99<=rmax. This holds with IEEE rounding of each float64 operation.", "quantifier": "all reservoirs, all float64 quantiles", "why_tests_cant": "floating-point rounding at every step can break interpolation bounds for rare inputs", "anchors": ["intdist.go: IntDist.Query", "durdist.go: DurationDist.Query"]}
{"id": "C07", "title": "Query never indexes out of range", "statement": "For every non-NaN float64 quantile and every reachable distribution, the two reservoir positions Query reads are within the populated part of the reservoir: rounding of quantile*(n-1) can never reach n-1 when quantile<1.", "quantifier": "all float64 quantiles below 1, all reservoir fill levels 2..64", "why_tests_cant": "needs every float64; a rounding-up case would panic in production only for quantiles near 1", "anchors": ["intdist.go: IntDist.Query"]}
{"id": "C08", "title": "Reset empties a distribution", "statement": "After Reset a distribution is indistinguishable from a new one: Count, Sum, Low, High, Recent are zero, quantiles report zero, and later quantiles depend only on values inserted after the Reset.", "quantifier": "all histories before and after Reset", "why_tests_cant": "stale reservoir slots survive Reset; visible only through particular later calls", "anchors": ["intdist.go: IntDist.Reset, Query"]}
{"id": "C09", "title": "Sampling index and replacement rate", "statement": "Past 64 values, the slot chosen for replacement is an index below min(Count, Window) (Window>0) or Count (Window<=0), the value is stored exactly when that index is below 64, and over all 2^64 generator outputs each index is chosen either floor(2^64/w) or ceil(2^64/w) times, so with a positive Window of at least 64 the replacement probability never falls below 64/Window by more than 64 parts in 2^64.", "quantifier": "all 64-bit generator outputs, all counts, all Window values", "why_tests_cant": "a statement about all 2^64 outputs", "anchors": ["intdist.go: IntDist.Insert", "dist.go: Window, ReservoirSize"]}
{"id": "C10", "title": "Random generators do not degenerate", "statement": "One step of each generator (lcg, xorshift64, xorshift128, xorshift1024) is injective on its state, so no two different states merge; a non-zero xorshift state never becomes zero; Int63 is always non-negative.", "quantifier": "all generator states (2^64, 2^128, 2^1024), all numbers of steps", "why_tests_cant": "state spaces are astronomically large", "anchors": ["rng.go: lcg.Uint64, xorshift64.Uint64, xorshift128.Uint64, xorshift1024.Uint64, Int63, Seed"]}
{"id": "C11", "title": "Seeding yields a live sampler", "statement": "For every seed newXORShift128 can draw, the resulting generator is not the all-zero (constant) generator, nor becomes so; the same of xorshift1024; and different seeds give different generators.", "quantifier": "all 2^63 seeds", "why_tests_cant": "one bad seed out of 2^63", "anchors": ["rng.go: xorshift128.Seed, newXORShift128"]}
{"id": "C12", "title": "Meters never lose events", "statement": "After any interleaving of Mark, Mark64, background ticks, SetTotal and Reset, Total() is the base set by the last Reset/SetTotal plus every amount marked that the base did not override, modulo 2^64; ticks never change Total.", "quantifier": "all operation and tick sequences", "why_tests_cant": "ticks happen every ten minutes; the 24-bucket shift only evicts after 4 hours of activity", "anchors": ["meter.go: Meter.Mark, Mark64, tick, stats, Total, Reset, SetTotal"]}
{"id": "C13", "title": "Meter rate window", "statement": "Rate() is computed from exactly the amounts marked in the current bucket and the 23 most recently completed non-idle buckets, divided by the time since the oldest of these buckets began; ticks during which nothing was marked do not advance the window; when all marks are non-negative and their sum fits an int64 the rate is never negative, and it is 0 when no time has passed.", "quantifier": "all mark/tick/reset histories and all clock readings", "why_tests_cant": "needs long histories of real time", "anchors": ["meter.go: Meter.tick, Meter.stats, Meter.Rate"]}
{"id": "C14", "title": "DiffMeter reports differences", "statement": "A DiffMeter's total is the difference of its two meters' totals and its rate the difference of their rates, both evaluated at one clock reading.", "quantifier": "all histories of both meters", "why_tests_cant": "unbounded histories", "anchors": ["meter.go: DiffMeter.Stats"]}
{"id": "C15", "title": "A running timer is counted at most once", "statement": "However many times and from however many goroutines Stop is called on a RunningTimer, its Timer's distribution receives exactly one duration for it (the elapsed time of the first Stop to take the lock) and the Timer's Count is the number of distinct stopped running timers.", "quantifier": "all sequences of Start/Stop over any number of running timers", "why_tests_cant": "double-stop races", "anchors": ["timer.go: Timer.Start, RunningTimer.Stop, Timer.Values"]}
{"id": "C16", "title": "BoolVal counts under concurrency", "statement": "Under every interleaving of Observe and Stats, each Stats report satisfies disposition = true - false, the reported counts never exceed the number of Observe calls begun and are at least those finished before the report began, and once all calls have finished true/false are exactly the numbers of true/false observations and recent is the value of an observation whose Observe finished last among stores.", "quantifier": "all numbers of goroutines and all schedules of the individual atomic operations", "why_tests_cant": "lock-free interleavings", "anchors": ["val.go: BoolVal.Observe, BoolVal.Stats"]}
{"id": "C17", "title": "FuncStats accounting identity", "statement": "For any sequence of finished observations, successes+errors+panics equals the number of finished observations, each observation counted in exactly one class (panic if it panicked, else error by name if err is non-nil, else success); success times hold exactly the durations of successes and failure times those of errors and panics; the per-name error counts sum to errors; Stats reports total = successes + failures and failures = errors + panics; no two of the values it reports have the same measurement, tags and field.", "quantifier": "all sequences of outcomes and durations, all error names", "why_tests_cant": "unbounded histories and arbitrary error names", "anchors": ["funcstats.go: FuncStats.end, Stats, Success, Panics, Errors, SuccessTimes, FailureTimes"]}
{"id": "C18", "title": "Current and Highwater under concurrency", "statement": "Without Reset and under every interleaving of starts and ends: Current() is always the number of observations begun and not ended; Highwater() never exceeds the maximum Current has reached, never decreases, and is at least the value of Current seen by every start that has returned; when no start is in progress Highwater equals the maximum value Current has ever had.", "quantifier": "all numbers of goroutines, all schedules of the atomic adds, loads and compare-and-swaps", "why_tests_cant": "compare-and-swap retry loops only misbehave under rare schedules", "anchors": ["funcstats.go: FuncStats.start, end, Current, Highwater"]}
{"id": "C19", "title": "Current is never negative", "statement": "Current() reports how many instances are being observed, so it is never negative, including when Reset is called at any time.", "quantifier": "all histories of start, end and Reset", "why_tests_cant": "Reset must happen while an observation is running", "anchors": ["funcstats.go: FuncStats.Reset, Current"]}
{"id": "C20", "title": "Func.Parents lists exactly the callers", "statement": "Under every interleaving of task starts, Parents reports each distinct parent Func (and nil for entry) at most once; everything it reports was a parent of a start that has begun, and every start that returned before Parents began is reported.", "quantifier": "all numbers of goroutines, all schedules of the compare-and-swap fast path", "why_tests_cant": "the first-element fast path races with the map path", "anchors": ["funcset.go: funcSet.Add, Iterate", "func.go: Func.Parents"]}
{"id": "C21", "title": "Child bag is a multiset", "statement": "For every sequence of adds and removes in which no element is removed more often than it was added, iterating the bag of children yields exactly the spans with positive multiplicity (each at least once), and Span.Children reports each exactly once, ordered by full function name and then id.", "quantifier": "all add/remove sequences", "why_tests_cant": "first-slot fast path interacts with the overflow map", "anchors": ["spanbag.go: Add, Remove, Iterate", "span.go: Span.Children"]}
{"id": "C22", "title": "RootSpans is exactly the running spans without a live parent", "statement": "In every state reached by any interleaving of span starts and finishes in which no start or finish is half way through, RootSpans lists exactly the running spans (of that registry) that have no local parent or whose parent has finished, each once.", "quantifier": "all span trees, all schedules of the individual lock-protected steps, any number of goroutines", "why_tests_cant": "orphan hand-over between parent exit, child start and child exit is a three-way race", "anchors": ["ctx.go: newSpan", "span.go: addChild, removeChild, orphan", "registry.go: rootSpanStart, rootSpanEnd, orphanedSpan, orphanEnd, RootSpans"]}
{"id": "C23", "title": "AllSpans visits every running span exactly once", "statement": "In every such quiescent state AllSpans visits every running span exactly once and nothing else, and terminates.", "quantifier": "all span trees and schedules", "why_tests_cant": "same race; also depends on acyclicity of the live tree", "anchors": ["registry.go: AllSpans, walkSpan", "span.go: Children"]}
{"id": "C24", "title": "Finished spans are never listed again", "statement": "Under every schedule, once a span's exit function has returned the span is never again in the registry's root or orphan sets or in any span's children.", "quantifier": "all schedules and all later steps", "why_tests_cant": "leaks show up only under rare races and accumulate slowly", "anchors": ["ctx.go: newSpan", "registry.go: orphanEnd, rootSpanEnd", "span.go: removeChild"]}
{"id": "C25", "title": "Running spans are always visible", "statement": "At every instant (not only quiescent ones) every span whose start has returned and whose exit has not begun can be reached from RootSpans through Children.", "quantifier": "all schedules, all instants", "why_tests_cant": "requires stopping goroutines between specific instructions", "anchors": ["ctx.go: newSpan exit", "span.go: orphan"]}
{"id": "C26", "title": "Orphaned means the parent finished first", "statement": "A running span is reported Orphaned exactly when its local parent has finished, once no start or exit is half way through; Orphaned never becomes true for a span whose parent has not begun to finish, and never changes after the span has finished.", "quantifier": "all schedules", "why_tests_cant": "race between parent exit and child exit", "anchors": ["span.go: Span.orphan, Orphaned", "ctx.go: newSpan"]}
{"id": "C27", "title": "Trace.Spans counts running spans", "statement": "Trace.Spans is at every instant the number of spans of that trace that have been counted in and not yet counted out, equals the number of running spans of the trace when nothing is half way through, and is never negative.", "quantifier": "all schedules and traces", "why_tests_cant": "concurrent atomic updates", "anchors": ["trace.go: incrementSpans, decrementSpans, Spans", "ctx.go: newSpan"]}
{"id": "C28", "title": "Tasks preserve context values", "statement": "The context produced by a Task yields the new Span from SpanFromCtx and, for every other key, the same value as the context it was given; contexts do not accumulate span layers; ResetContextSpan hides the span and keeps every other value.", "quantifier": "all context chains, all keys", "why_tests_cant": "arbitrary nesting of contexts", "anchors": ["ctx.go: SpanFromCtx, newSpan, ResetContextSpan", "span.go: Span.Value"]}
{"id": "C29", "title": "Trace and parent assignment", "statement": "A Task on a context with a span makes a child on the same trace; on a context without a span (or a nil context) a root span on a fresh trace announced to trace observers exactly once; ResetTrace always makes a root span on a fresh trace; RemoteTrace makes a root span whose ParentId is the given id, on the given trace, or with a nil trace on the context's trace if any.", "quantifier": "all contexts and arguments", "why_tests_cant": "combinatorial decision logic", "anchors": ["ctx.go: newSpan, Func.Task, Func.RemoteTrace, Func.ResetTrace, cleanCtx", "span.go: ParentId"]}
{"id": "C30", "title": "Panics are recorded and re-raised", "statement": "When a monitored function panics, the exit function records one panic and re-raises the same value; when it does not, the exit function returns normally; a panic is never recorded as a success and never swallowed.", "quantifier": "all panic values", "why_tests_cant": "includes the nil panic value", "anchors": ["ctx.go: newSpan exit closure", "funcstats.go: FuncStats.Observe"]}
{"id": "C31", "title": "Span observers: exactly the registered ones, exactly once", "statement": "For every interleaving of ObserveSpans, cancel and span starts: a span start whose observer lookup happens when the set of registered observers is S calls observers in most-recently-registered-first order without repetition; an observer registered before and not cancelled until after the start is called exactly once; an observer whose cancel returned before the start began is not called.", "quantifier": "all numbers of observers, all schedules of the linked-list compare-and-swaps", "why_tests_cant": "lock-free list with concurrent removal", "anchors": ["trace.go: ObserveSpansCtx, removeObserver, removeObserverFrom, getObserver", "ctx.go: spanObserverTuple.Start"]}
{"id": "C32", "title": "Trace watchers", "statement": "Every new trace is announced to exactly the ObserveTraces callbacks registered and not cancelled at that time, each exactly once; cancelling one watcher (even repeatedly) never affects another.", "quantifier": "all register/cancel/new-trace sequences", "why_tests_cant": "the 0/1/many fast paths", "anchors": ["registry.go: ObserveTraces, updateWatcher, observeTrace"]}
{"id": "C33", "title": "ObserveAllTraces attaches once and detaches fully", "statement": "Under every interleaving of new traces, the scan of existing root spans and cancellation, the collector is attached to each trace at most once, and after cancel returns it is attached to no trace and never will be again.", "quantifier": "all schedules, any number of traces", "why_tests_cant": "race between the watcher callback and cancel", "anchors": ["collect/trace.go: ObserveAllTraces"]}
{"id": "C34", "title": "Span collector life cycle", "statement": "Under every interleaving of Start, Finish, ForceStart and Stop a SpanCollector starts at most once, its Done channel is closed at most once (no double-close panic), and after Stop nothing more is started; it closes Done when the span it started on finishes.", "quantifier": "all schedules of the atomic pointer operations", "why_tests_cant": "double close is a rare race that crashes the process", "anchors": ["collect/collect.go: SpanCollector.Start, Finish, Stop, ForceStart"]}
{"id": "C35", "title": "Collected spans form the subtree of the matched span", "statement": "After the matched span finishes, Spans() returns that span first and then exactly the collected finished spans that reach it through parent ids, each once, parents before children; every returned span belongs to the matched span's trace and finished while collecting.", "quantifier": "all finish orders and parent-id forests", "why_tests_cant": "unbounded trees", "anchors": ["collect/collect.go: Finish, Spans"]}
{"id": "C36", "title": "Spans() terminates", "statement": "Spans() terminates whatever spans were collected.", "quantifier": "all collected span sets including remote parent ids", "why_tests_cant": "a parent-id cycle needs colliding ids", "anchors": ["collect/collect.go: Spans"]}
{"id": "C37", "title": "NewId values are non-negative and distinct", "statement": "NewId never returns a negative number, and the ids it returns in one process are pairwise distinct.", "quantifier": "all random seeds, all numbers of calls, all concurrent schedules", "why_tests_cant": "a statement about all 2^63 seeds and any number of calls", "anchors": ["id.go: NewId, init"]}
{"id": "C38", "title": "Tag sets behave as immutable maps", "statement": "Set/SetAll/SetTags return a tag set whose Get is the old one updated with the given pairs (later pairs win), Len is the number of distinct keys, and every previously obtained tag set, including its String, is unchanged.", "quantifier": "all tag sets and update sequences", "why_tests_cant": "unbounded histories of derived tag sets", "anchors": ["tags.go: TagSet.Get, Len, Set, SetTags, SetAll, All, String"]}
{"id": "C39", "title": "Series names are deterministic", "statement": "String/WithField of a SeriesKey depend only on the measurement, the tag map and the field: not on the order tags were added, on map iteration order or on earlier String calls; tags are listed in increasing key order.", "quantifier": "all keys, all iteration orders", "why_tests_cant": "map iteration order is random", "anchors": ["tags.go: TagSet.String, writeTags", "stats.go: SeriesKey.String, WithField"]}
{"id": "C40", "title": "Series names are unambiguous", "statement": "Two different series (measurement, tag map, field) never have the same WithField string, so Collect never merges two series.", "quantifier": "all measurements, tag keys, tag values and fields", "why_tests_cant": "adversarial strings", "anchors": ["tags.go: writeTag, writeMeasurement", "stats.go: SeriesKey.WithField, Collect"]}
{"id": "C41", "title": "Scope hands out one source per name and kind", "statement": "On one Scope, two calls of the same accessor with the same name and tags return the same object for the whole life of the scope and the constructor runs once, under every interleaving of concurrent accessor calls; asking for the same name as a different kind panics and leaves the registered source in place.", "quantifier": "all sequences and schedules of accessor calls", "why_tests_cant": "double-checked locking", "anchors": ["scope.go: newSource, FuncNamed, Meter, Counter, IntVal, ..."]}
{"id": "C42", "title": "Different names or tags give different sources", "statement": "Accessor calls with different names or different tag lists return different objects (\"Each unique combination of keys/values in each SeriesTag will result in a unique Func\"). Functions and other kinds of sources have separate names.", "quantifier": "all names, tag keys and tag values", "why_tests_cant": "adversarial strings containing ',' and '='", "anchors": ["scope.go: sourceName, FuncNamed"]}
{"id": "C43", "title": "Gauges overwrite, chains accumulate, Stats tags everything", "statement": "Registering a gauge under a name replaces exactly the previous gauge of that name and panics if another kind holds it; Chain adds a source on every call; Scope.Stats reports every source of the scope exactly once and every chain entry once, each key carrying tag scope=<name>.", "quantifier": "all registration sequences", "why_tests_cant": "unbounded histories", "anchors": ["scope.go: Gauge, Chain, Stats, allNamedSources"]}
{"id": "C44", "title": "Registry scopes are unique and enumerated in order", "statement": "ScopeNamed returns the same Scope for the same name and different Scopes for different names; Scopes visits every scope ever created exactly once in increasing name order.", "quantifier": "all sequences of ScopeNamed calls", "why_tests_cant": "map iteration order", "anchors": ["registry.go: ScopeNamed, Scopes"]}
{"id": "C45", "title": "Transformers compose and do not leak", "statement": "Stats on a registry built with WithTransformers applies every transformer exactly once, the most recently added one seeing the raw values first; WithTransformers(a).WithTransformers(b) behaves as WithTransformers(a,b); the registry it was derived from is unaffected.", "quantifier": "all transformer lists and stat sources", "why_tests_cant": "arbitrary user transformers", "anchors": ["registry.go: WithTransformers, Stats", "transform.go: TransformStatSource"]}
{"id": "C46", "title": "Delta transformer telescopes", "statement": "A DeltaTransformer passes every value through unchanged and in order; for each series with field total it adds one delta after every occurrence but the first, equal to the difference of consecutive totals, so the deltas of a series sum to last minus first; series do not affect each other.", "quantifier": "all streams of values", "why_tests_cant": "unbounded streams over many series", "anchors": ["transform.go: DeltaTransformer.Transform"]}
{"id": "C47", "title": "Struct statistics", "statement": "StatSourceFromStruct reports exactly the numeric and boolean fields not tagged ignore, in declaration order, booleans as 0/1, fields of nested structs prefixed with the path of field names joined by dots, following pointers. No two are reported under the same name.", "quantifier": "all struct shapes, nesting depths and pointer depths", "why_tests_cant": "arbitrary types; nil pointers", "anchors": ["struct.go: StatSourceFromStruct, deref"]}
{"id": "C48", "title": "Error naming precedence", "statement": "The error name is that of the most recently added handler that accepts the error; if none accepts, the error's own Name if it accepts; otherwise the fixed table, less what App Engine and TinyGo lack; otherwise System Error. Adding a handler never changes the name of an error it rejects.", "quantifier": "all handler lists and errors", "why_tests_cant": "arbitrary user handlers", "anchors": ["error_names.go: AddErrorNameHandler, getErrorName", "error_names_net.go", "error_names_net_tinygo.go", "error_names_syscall.go", "error_names_ae.go"]}
{"id": "C49", "title": "Function and package names", "statement": "From a fully qualified function name pkgpath.Func, the task name is the part after the first dot following the last slash and the package scope name is the import path.", "quantifier": "all import paths and function names", "why_tests_cant": "arbitrary strings", "anchors": ["callers.go: extractFuncName, callerPackage, callerFunc"]}
{"id": "C50", "title": "Trace headers round-trip", "statement": "For every trace id, parent id and sampled flag that a span can carry, reading the headers written by SetHeader gives the same trace id, parent id and flag.", "quantifier": "all int64 ids", "why_tests_cant": "2^128 id pairs; sign handling", "anchors": ["http/info.go: SetHeader, TraceInfoFromHeader, hexToUint64"]}
{"id": "C51", "title": "Malformed trace headers are rejected safely", "statement": "TraceInfoFromHeader never panics, and yields ids only if the traceparent header is four dash-separated hex numbers of at most 64 bits with version 0; every other non-empty traceparent yields an empty TraceInfo; without traceparent the result is sampled exactly when tracestate contains sampled=true.", "quantifier": "all header strings", "why_tests_cant": "arbitrary byte strings from the network", "anchors": ["http/info.go: TraceInfoFromHeader, hexToUint64"]}
{"id": "C52", "title": "Baggage is filtered and round-trips", "statement": "Only allow-listed baggage keys are ever imported; the imported value is that of the last occurrence of the key; baggage written by SetHeader without commas in keys or values and without '=' in keys is read back exactly (restricted to the allowed keys).", "quantifier": "all baggage strings and allow-lists", "why_tests_cant": "arbitrary byte strings from the network", "anchors": ["http/info.go: TraceInfoFromHeader, SetHeader"]}
{"id": "C53", "title": "Reported response code is the one sent", "statement": "The status code recorded for a traced request is the code the HTTP server sent to the client.", "quantifier": "all sequences of WriteHeader/Write calls by a handler", "why_tests_cant": "handlers may call WriteHeader several times or after Write", "anchors": ["http/http.go: Wrap, responseWriterObserver"]}
{"id": "C54", "title": "Dot labels are safe and lossless", "statement": "escapeDotLabel output contains no double quote, no raw newline and no backslash other than in \\l, so it cannot terminate the label it is placed in, and the original bytes can be recovered from it.", "quantifier": "all byte strings", "why_tests_cant": "adversarial names", "anchors": ["present/dot.go: escapeDotLabel"]}
{"id": "C55", "title": "JSON lists are well-formed or reported as errors", "statement": "If listWriter reports success, the bytes written are '[', the encodings of all elements separated by commas, ']' in order; after the first write or encoding error nothing more is written and that error is returned.", "quantifier": "all element lists, all failure points of the writer", "why_tests_cant": "every crash point", "anchors": ["present/json.go: listWriter"]}
{"id": "C56", "title": "StatsJSON succeeds for every registry", "statement": "With a working writer StatsJSON writes a complete JSON document for every registry state.", "quantifier": "all registry states", "why_tests_cant": "needs particular source states (a counter that has not been used)", "anchors": ["present/stats.go: StatsJSON", "counter.go: Stats", "present/json.go"]}
{"id": "C57", "title": "Request routing", "statement": "FromRequest selects the presenter determined by the first two path segments (extra slashes before a segment and everything after the second segment ignored), answers unknown paths with not found, and trace requests with neither regex nor trace_id (or with invalid ones) with bad request.", "quantifier": "all paths and query values", "why_tests_cant": "arbitrary strings", "anchors": ["present/path.go: FromRequest, shift"]}
{"id": "C58", "title": "Keep-alive pings stop", "statement": "Under every schedule: after stop returns no further ping is made; after a ping fails no further ping is made, the derived context is cancelled and stop returns that first error; stop never panics however often it is called, and its calls return if the pings do.", "quantifier": "all schedules of ticks, stop calls and cancellations", "why_tests_cant": "timing dependent", "anchors": ["present/utils.go: keepAlive"]}
{"id": "C59", "title": "Span picture geometry", "statement": "In the SVG of a set of spans every bar starts within the 1200-unit width, has width at least 1 and ends at most one unit beyond the right edge; a line joins it to the middle of the left end of its parent's bar exactly if the parent is drawn; and drawing never panics.", "quantifier": "all start/finish times", "why_tests_cant": "division by the total duration; int64 overflow for long traces", "anchors": ["present/trace.go: SpansToSVG timeToX"]}
{"id": "C60", "title": "GC pause statistics count each collection once", "statement": "The runtime_gcstats distribution grows by one for each garbage collection noticed, not for each time statistics are read. Each reading reports the number of goroutines, the fields of the memory statistics and the distribution.", "quantifier": "all sequences of collections and Stats calls", "why_tests_cant": "needs a history of collections and reads", "anchors": ["environment/runtime.go: Runtime"]}
{"id": "C61", "title": "monotime never goes backwards", "statement": "On Windows, as long as the performance counter does not decrease, monotime's elapsed time does not decrease and equals the counter difference in nanoseconds.", "quantifier": "all counter values and frequencies", "why_tests_cant": "needs a long uptime", "anchors": ["monotime/monotime_windows.go: elapsed"]}
{"id": "C62", "title": "Spin lock mutual exclusion", "statement": "Under every schedule at most one goroutine is between Lock and Unlock of a spinLock, and when the lock is free some waiting goroutine can take it.", "quantifier": "all numbers of goroutines and schedules", "why_tests_cant": "lock-free interleavings", "anchors": ["spinlock.go: spinLock.Lock, Unlock"]}
{"id": "C63", "title": "Task.Func returns the task's Func", "statement": "Calling Func() on any Task obtained from Scope.Task, Scope.TaskNamed or Func.Task returns its Func, without side effects, whether or not the task has run.", "quantifier": "all tasks and times of call", "why_tests_cant": "lazy initialisation order", "anchors": ["task.go: Task.Func, taskArgs", "ctx.go: Scope.Task"]}
{"id": "C64", "title": "End-to-end call accounting", "statement": "Running any tree of monitored calls (each call succeeding, failing or panicking, panics propagating to callers until recovered) through Task leaves, for every Func: current 0; successes, errors and panics equal to the numbers of calls of the tree with that outcome; parents equal to the set of its callers in the tree; highwater at least the deepest recursion of that Func; and leaves no running span, no orphan, and trace span count 0.", "quantifier": "all finite call trees", "why_tests_cant": "unbounded programs", "anchors": ["ctx.go: newSpan", "funcstats.go", "span.go"]}
{"id": "C65", "title": "No lock-order deadlock among spans", "statement": "The locks taken by span start, span exit, orphaning and registry enumeration cannot deadlock: in every reachable state in which some start or exit is unfinished, some step is possible.", "quantifier": "all schedules and span trees", "why_tests_cant": "deadlocks need precise timing", "anchors": ["span.go: orphan, addChild, removeChild", "registry.go: orphanedSpan"]}
{"id": "C66", "title": "Averages lie within the data", "statement": "As long as the sum of the values does not overflow, FullAverage lies between Low and High; ReservoirAverage lies between the smallest and the largest reservoir value (rmin <= ravg <= rmax).", "quantifier": "all histories and values", "why_tests_cant": "needs values whose float32 sum rounds badly", "anchors": ["intdist.go: FullAverage, ReservoirAverage", "floatdist.go: FullAverage, ReservoirAverage"]}
{"id": "C67", "title": "FloatDist aggregates and quantiles", "statement": "For every history of a FloatDist, Count, Low, High and Recent are those of the values inserted since the last Reset, Sum is their left-to-right float64 sum, and quantiles are bounded by the smallest and largest reservoir value and monotone; Stats reports these.", "quantifier": "all histories of float64 values, infinities and NaN included", "why_tests_cant": "NaN, rounding, overflow and subnormal numbers", "anchors": ["floatdist.go: Insert, Query, Stats"]}
{"id": "C68", "title": "Value distributions under concurrent use", "statement": "When any number of goroutines call Observe, Quantile and Stats on one IntVal, DurationVal or FloatVal, under every schedule no call panics and, once all calls have returned, the distribution holds every observed value exactly once: its count, wrapped sum, minimum and maximum are those of all observed values and its most recent value is the last one in the order in which the calls took the lock.", "quantifier": "all numbers of goroutines, programs and schedules", "why_tests_cant": "unbounded interleavings", "anchors": ["val.go: IntVal.Observe, Quantile, Stats; DurationVal; FloatVal"]}
{"id": "C69", "title": "A traced request links server to client", "statement": "When a client sends a request through TraceRequest and the server handles it with TraceHandler, the server's span belongs to the client's trace and its parent is the client's span of that request; an unsampled request starts a trace of its own.", "quantifier": "all client spans, trace ids, headers and chains of services", "why_tests_cant": "needs distributed histories and all id values", "anchors": ["http/client.go: TraceRequest", "http/info.go: TraceInfoFromSpan", "http/server.go: traceHandler.ServeHTTP"]}
{"id": "C70", "title": "Overlapping spans get different rows in the SVG", "statement": "In the SVG of a set of spans, two bars of the same row belong to spans that do not overlap in time, so no bar hides another.", "quantifier": "all finite sets of spans and parent relations", "why_tests_cant": "needs all shapes of concurrent span trees", "anchors": ["present/trace.go: computeLayoutInformation, includeSpanInLayoutInformation, computeRow, SpansToSVG"]}
{"id": "C71", "title": "Trace values", "statement": "Under every schedule of Get, Set and GetAll on a trace, Get(k) returns what the last Set(k, v) before it gave (nil if there was none), GetAll returns a copy of all values set so far that later Sets do not change, and every call returns.", "quantifier": "all numbers of goroutines, keys, values and schedules, including keys that cannot be hashed", "why_tests_cant": "unbounded interleavings", "anchors": ["trace.go: Trace.Get, Set, GetAll, ObserveSpans"]}
{"id": "C72", "title": "Span annotations", "statement": "Under every schedule of Annotate and Annotations on a span, Annotations returns exactly the annotations of the Annotate calls before it, in order, that list does not change afterwards, and no annotation is lost.", "quantifier": "all numbers of goroutines, annotations and schedules", "why_tests_cant": "unbounded interleavings; shared slice memory", "anchors": ["span.go: Span.Annotate, Annotations"]}
{"id": "C73", "title": "Span listings are complete", "statement": "SpansText and SpansDot write every span of the given trees exactly once with its ids, name, arguments, elapsed time, orphan mark and annotations: the text one block per span, parents before children, indented by depth; the graph one node per span and exactly one edge per parent and child. The graph can be read in only one way, whatever the names, arguments and annotations contain.", "quantifier": "all finite forests of spans with arbitrary texts", "why_tests_cant": "needs all tree shapes and all texts", "anchors": ["present/spans.go: SpansText, SpansDot, outputTextSpan, outputDotSpan"]}
{"id": "C74", "title": "Function listings are complete", "statement": "FuncsText and FuncsDot write for every Func its id, name, current, highwater, successes, total errors, panics, each error count, times, and one entry per caller ('entry' for calls without a monitored caller); the total does not depend on map iteration order.", "quantifier": "all finite sets of functions with arbitrary statistics, error names and callers", "why_tests_cant": "needs all texts, counts and iteration orders", "anchors": ["present/funcs.go: FuncsText, FuncsDot"]}
{"id": "C75", "title": "Write errors are not lost", "statement": "Whatever the writer does, SpansText, SpansDot, FuncsText and FuncsDot hand it the document piece by piece, stop at the first failed write and return its error; they return nil only if everything was written.", "quantifier": "all writers, failing at any call after any number of bytes, and all inputs", "why_tests_cant": "needs a failure at every point", "anchors": ["present/spans.go", "present/funcs.go"]}
{"id": "C76", "title": "Results arrive completely", "statement": "A Result from FromRequest writes to the client a prefix of what the presenter produced, in order; if it returns nil the client got all of it and the presenter succeeded; if any write to the client fails it returns an error, even if the presenter ignores write errors.", "quantifier": "all presenters, all sizes of writes, all clients failing at any point", "why_tests_cant": "buffering boundaries and failure points", "anchors": ["present/path.go: FromRequest (buffering)"]}
{"id": "C77", "title": "Keep-alive bytes reach the client", "statement": "While a trace query waits for matching spans, the client receives a newline for each keep-alive interval.", "quantifier": "all waiting times", "why_tests_cant": "needs hours of waiting", "anchors": ["present/path.go: FromRequest", "present/utils.go: keepAlive", "present/trace.go: watchForSpansWithKeepalive"]}
{"id": "C78", "title": "Texts in the SVG are only texts", "statement": "In the SVG of a trace, names and arguments of functions appear as text, whatever they contain: they add no element and no attribute, are shown unchanged if XML allows their characters, and run no script; and the document begins with its XML declaration.", "quantifier": "all names and arguments", "why_tests_cant": "needs all byte strings, including hostile ones", "anchors": ["present/trace.go: SpansToSVG, svgFunc, TraceQuerySVG"]}
{"id": "C79", "title": "Copies of distributions are faithful", "statement": "Copy() of a distribution, taken after any history, answers every quantile, average and aggregate and reports the same statistics as the original at that moment; used further, it holds exactly the values of the original's history followed by its own, and random choices come from a generator of its own.", "quantifier": "all histories before and after the copy, all quantiles", "why_tests_cant": "unbounded histories and hidden state (sorted flag, reservoir order)", "anchors": ["intdist.go: IntDist.Copy", "durdist.go: DurationDist.Copy", "floatdist.go: FloatDist.Copy"]}
{"id": "C80", "title": "Reported numbers have the right unit and precision", "statement": "The float64 passed to a Stats callback for an integer is that integer, exactly up to 2^53 and otherwise with a relative error of at most 2^-53; for a duration it is the duration in seconds with the right sign, exact for whole seconds and otherwise with a relative error of at most 2^-51.", "quantifier": "all int64 values and durations, all histories of a distribution", "why_tests_cant": "needs all 2^64 values", "anchors": ["dist.go: toFloat64", "intdist.go: IntDist.Stats", "durdist.go: DurationDist.Stats"]}
{"id": "C81", "title": "Every meter is ticked, by one goroutine", "statement": "However many goroutines create meters at the same time, exactly one background goroutine is started, before the first NewMeter returns; in every round it reads the clock once and ticks, with that time, every meter whose NewMeter had returned when the round began, and no meter twice; creating meters never blocks for good.", "quantifier": "all numbers of goroutines and meters, all schedules", "why_tests_cant": "unbounded interleavings of creation with the ticker's walk over a growing slice", "anchors": ["meter.go: ticker, ticker.register, ticker.run, NewMeter"]}
{"id": "C82", "title": "Meters under concurrent use", "statement": "Under every schedule of Mark, Reset, SetTotal, ticks and Rate/Total/Stats on one meter, the calls behave as if made one after another: every returned rate and total is that of exactly the calls before it, and without resets the final total is the sum of all marks.", "quantifier": "all numbers of goroutines, calls and schedules", "why_tests_cant": "unbounded interleavings", "anchors": ["meter.go: Meter.Mark, Reset, SetTotal, tick, Rate, Total, Stats"]}
{"id": "C83", "title": "The mutex-based atomics are atomic", "statement": "On App Engine, where unsafe is unavailable, the pointer operations behave exactly as atomic loads, stores, swaps and compare-and-swaps under every schedule; of several goroutines replacing an initial value exactly one succeeds.", "quantifier": "all numbers of goroutines, variables, operations and schedules", "why_tests_cant": "unbounded interleavings; build variant not tested", "anchors": ["cas_safe.go: loadFunc, compareAndSwapFunc, loadTraceWatcherRef, storeTraceWatcherRef, loadSpanObserverTuple, compareAndSwapSpanObserverTuple", "collect/cas_safe.go"]}
{"id": "C84", "title": "StructVal reports the latest struct", "statement": "Under every schedule of Observe and Stats on a StructVal, each report is about the value observed last before it: nothing if there was none or it is not a struct, and otherwise (no nil pointers, C47) exactly the numbers of that struct, by field path, under the StructVal's key.", "quantifier": "all schedules, all struct values", "why_tests_cant": "unbounded interleavings and nesting", "anchors": ["val.go: StructVal.Observe, StructVal.Stats"]}
{"id": "C85", "title": "FindSpan finds a span", "statement": "Whatever spans start on whatever goroutines: FindSpan returns only after its matcher has said yes or the context was cancelled, and only after detaching from all traces; until then the matcher is asked exactly once about each span that starts, and it is not asked about any span that starts after a yes has taken effect or after FindSpan has returned; no channel is closed twice; and after a yes or a cancellation FindSpan can always return by its own steps. A matcher that panics makes the start of its span panic, and counts as no answer.", "quantifier": "all numbers of goroutines and spans, all answers of the matcher, all schedules and times of cancellation", "why_tests_cant": "unbounded interleavings of matching spans, cancellation and return", "anchors": ["collect/ctx.go: FindSpan", "collect/collect.go: spanFinder.Start, spanFinder.Stop, newSpanFinder"]}
{"id": "C86", "title": "/trace/remote picks one trace", "statement": "However many spans match at the same time, a request of /trace/remote marks at most one trace as sampled, which belongs to a matching span, and calls its callback at most once, afterwards; it answers with exactly that trace, after the search is over, or with the error of the first failed keep-alive ping, and never dereferences a missing trace. Once a span has been accepted or a ping has failed, and if no further spans start and the ticker does not fire again, nothing can keep it from returning. If the callback panics, so does the start of the span that called it, of which there is at most one in the whole request; the request is not told, and can be left waiting until another span matches or a ping fails.", "quantifier": "all numbers of goroutines and spans, all matchers, callbacks that return or panic, all outcomes of pings, all schedules", "why_tests_cant": "unbounded interleavings of matchers with the request's own goroutine and its keep-alive", "anchors": ["present/path.go: FromRequest", "present/utils.go: keepAlive", "collect/ctx.go: FindSpan"]}
{"id": "C87", "title": "WatchForSpans returns the tree of a matching span", "statement": "When WatchForSpans returns spans, no span having finished twice and finished spans having different ids: it collected for exactly one span, which the matcher accepts and which has finished; the result begins with it, has no span twice, contains nothing but finished spans of its trace whose parent comes earlier in the result, and contains every span of its tree that finished in time. It returns an error only if the context was cancelled. However it returns, its collector is attached to no trace any more; and once the context is cancelled or the collection is complete nothing can keep it from returning.", "quantifier": "all numbers of goroutines, traces and spans, all matchers, all schedules and times of cancellation", "why_tests_cant": "unbounded interleavings of starting and finishing spans, new traces, cancellation and return", "anchors": ["collect/ctx.go: WatchForSpans", "collect/collect.go: SpanCollector"]}
{"id": "C88", "title": "CollectSpans returns the spans of its work and leaves nothing behind", "statement": "When CollectSpans returns spans, no span having finished twice and finished spans having different ids: the result begins with the span around the work, has no span twice, contains nothing but finished spans of its trace whose parent comes earlier in the result, and contains every span of its tree that finished in time; it panics only if the work does. After it has returned its collector records nothing and is no longer registered with the trace.", "quantifier": "all numbers of goroutines and spans, all schedules", "why_tests_cant": "unbounded interleavings of spans finishing on other goroutines with the return", "anchors": ["collect/ctx.go: CollectSpans", "collect/collect.go: SpanCollector"]}
{"id": "C89", "title": "Naming an error never blocks a function's statistics", "statement": "Under every schedule of calls ending and statistics being read on a Func, whatever code names the errors does (error name handlers, Name methods), every call on the Func can return.", "quantifier": "all numbers of goroutines, all schedules, handlers that return, panic or use the Func", "why_tests_cant": "unbounded interleavings; the handlers run while the mutex is held", "anchors": ["funcstats.go: FuncStats.end", "error_names.go: getErrorName"]}
{"id": "C90", "title": "The JSON documents say what was observed", "statement": "Reading what SpansJSON, the finished-span JSON of a trace and FuncsJSON write with any JSON reader (RFC 8259) gives one element for each span or function, in order, whose members are exactly the documented ones and whose texts, numbers, lists and nulls are the observed ones; names that are not UTF-8 come out with the bad bytes replaced by U+FFFD and everything else comes out unchanged. Newlines sent before the document do not matter, and the document is always valid UTF-8.", "quantifier": "all lists of spans and functions: all names, arguments, annotations, numbers of parents and error counts, all byte strings", "why_tests_cant": "unbounded lists and byte strings, all escapes", "anchors": ["present/json.go: formatSpan, formatFinishedSpan, formatFunc, listWriter", "present/spans.go: SpansJSON", "present/funcs.go: FuncsJSON", "present/trace.go: SpansToJSON"]}
{"id": "C91", "title": "Statistics as text can be read back", "statement": "StatsText writes one line for each statistic, in the order of the registry: the series name, an equals sign and the value to the nearest millionth (or NaN, +Inf, -Inf), and the value is what follows the last equals sign of the line; so reports with the same text have the same names and, to a millionth, the same values. If the writer fails, it gets nothing more and its error is returned.", "quantifier": "all lists of statistics, all names, tags and values, all writers", "why_tests_cant": "unbounded reports and values", "anchors": ["present/stats.go: StatsText", "stats.go: SeriesKey.WithField", "tags.go: writeTag, writeMeasurement"]}
{"id": "C92", "title": "HTTP clients get the document or an error status", "statement": "The HTTP handler answers a trace request with an unusable query, and nothing else, with status 400, an unknown path, and nothing else, with status 404, and says why; every other request gets status 200, the content type of its path and the complete document, or an error status if the document could not be made. Every link on the index page leads to a document.", "quantifier": "all paths and queries, all registries, all presenters as programs of writes of any length", "why_tests_cant": "unbounded paths, queries and documents; presenters failing at any point", "anchors": ["present/http.go: handler.ServeHTTP", "present/errs.go: getStatusCode, errorT", "present/path.go: FromRequest, writeIndex"]}
{"id": "C93", "title": "A trace query writes newlines and then one document", "statement": "When TraceQuerySVG or TraceQueryJSON return nil, the writer was given keep-alive newlines and then exactly the document of the spans of one matching span's tree; newlines and document never mix, whatever the schedule. If they return an error it is that of the first newline that could not be written, after which no document is written, or that of a write of the document. Once a newline could not be written the query gives up even if no span ever matches.", "quantifier": "all schedules of keep-alive ticks, spans of any number of goroutines and failing writes", "why_tests_cant": "unbounded interleavings of two goroutines writing to one writer with the spans of the program", "anchors": ["present/trace.go: TraceQuerySVG, TraceQueryJSON, watchForSpansWithKeepalive", "present/utils.go: keepAlive", "collect/ctx.go: WatchForSpans"]}
{"id": "C94", "title": "Process statistics are those of the kernel", "statement": "Under proc_stat every field that the kernel gives for the process is reported with its own name and value, whatever the process is called, and under proc_statm every number of the memory statistics, and under rusage every number the kernel gives for the use of resources; a file that cannot be read or understood makes nothing be reported for it, never a wrong value, and no panic.", "quantifier": "all contents of the two files, all names of the process, all values of the fields", "why_tests_cant": "unbounded texts; a name may hold spaces, parentheses and digits that look like fields", "anchors": ["environment/proc_linux.go: proc, readProcSelfStat, readProcSelfStatm", "environment/rusage.go: Rusage", "struct.go: StatSourceFromStruct"]}
{"id": "C95", "title": "Process checksum and descriptor count", "statement": "However many goroutines read the statistics of the process, the executable is read at most once; every report has control=1 and the uptime, and all have the same checksum, that of the whole executable, or all have none because it could not be read. The descriptor count is that of all entries, in however many parts the directory is delivered, and is left out when it could not be read to the end.", "quantifier": "all interleavings of any number of goroutines; all outcomes of reading; all partitions of the directory", "why_tests_cant": "unbounded interleavings and directory sizes", "anchors": ["environment/process.go: Process, processCRC, getProcessCRC", "environment/os.go: OS", "environment/os_unix.go: fdCount"]}
{"id": "C96", "title": "The colour of a bar tells how the span ended", "statement": "In the picture of a trace every span gets one colour, and it tells how the span ended: red for a panic, yellow for an error that comes from a cancelled context however it was wrapped, orange for any other error, blue for success; choosing it ends for every error.", "quantifier": "all ways in which errors wrap each other, of any depth, all outcomes of spans", "why_tests_cant": "unbounded chains of wrapped errors; errors that wrap each other in a circle", "anchors": ["present/trace.go: SpansToSVG, unwrapError"]}
{"id": "C97", "title": "Listing spans while they come and go", "statement": "RootSpans and AllSpans may be called while spans start and finish. No span is passed to the callback that had finished before the call or had not been started when it returned; RootSpans lists no span twice and every span that runs during the whole call without a live parent; AllSpans visits every span that runs during the whole call exactly once.", "quantifier": "all trees of spans, all interleavings of starts and exits with the readings of the call, all map orders", "why_tests_cant": "the readings of one call interleave with unboundedly many starts and exits", "anchors": ["registry.go: RootSpans, AllSpans, walkSpan", "span.go: Children, addChild, removeChild, orphan", "ctx.go: newSpan"]}
{"id": "C98", "title": "Function reports while calls come and go", "statement": "A function's Stats may be called while monitored calls start and end and others call Reset or Stats. The order in which the ends and Resets take effect agrees with the order of calls and returns. A report is right for the ends and Resets that took effect before it, a set with all that returned before the report was called and none called after it returned: successes, errors by name, panics, failures, total and the times are those of the calls ended since the last Reset in it. As long as no Reset is called, current lies between the number of calls running during the whole report and the number that may have run at some time of it, and current is at most highwater. No call waits for ever.", "quantifier": "all interleavings of any number of calls, Resets and reports; all outcomes and durations", "why_tests_cant": "torn reports need one schedule among unboundedly many", "anchors": ["funcstats.go: start, end, Reset, Stats"]}
{"id": "C99", "title": "A traced handler", "statement": "TraceHandler calls the handler it wraps exactly once per request, while a span of the request's own runs. The handler's context is that span's, with the values, deadline and cancellation of the request's context and whatever observers added; its writer can do what the given writer can, and what it does to status and body is done to the given writer, in order. The span belongs to the trace and parent that a valid traceparent names, otherwise to a new trace. Before the handler runs the span is annotated with the allowed baggage and the URI, afterwards with the status code, and with nothing else. The response tells the ids of trace and span exactly if the request asked for sampling without naming a trace. A callback left with the trace is called once. The span finishes last; a panic of the handler is recorded and goes on to the server. If the callback panics, the handler is not called, nothing is done to the response, and the span is finished as one that panicked.", "quantifier": "all headers, allowed keys, ids, trace watchers, span observers that keep the current span, handlers, writers and orders of the map of baggage", "why_tests_cant": "headers, observers and handlers can be anything", "anchors": ["http/server.go: TraceHandler, ServeHTTP", "http/http.go: Wrap", "http/info.go: TraceInfoFromHeader"]}
{"id": "C100", "title": "A traced request", "statement": "TraceRequest sends the request exactly once, within a span of its own, and returns what the client answers, be it a response, an error or a panic. The span is annotated with the URL before and with the status code after, if there is a response, and finishes last with the error or panic. The request's tracestate and baggage are sent as given; the traceparent is added in a sampled trace and untouched in others. A traced handler that gets the request of a sampled trace works in that trace.", "quantifier": "all requests, headers, ids, clients and traced handlers", "why_tests_cant": "clients and headers can be anything", "anchors": ["http/client.go: TraceRequest", "http/info.go: TraceInfoFromSpan, SetHeader", "http/server.go: ServeHTTP"]}
{"id": "C101", "title": "Tag sets shared by goroutines", "statement": "Tag sets are immutable, so goroutines may share one: however their calls of String on it overlap, each returns the string of its pairs.", "quantifier": "all tag sets; all interleavings of any number of calls, by single word accesses; both orders of writing the two words of a string", "why_tests_cant": "the torn read needs one schedule, and an order of writes the compiler may choose; -race reports it only on a schedule that meets it", "anchors": ["tags.go: TagSet, String, writeTags"]}
{"id": "C102", "title": "A report contains what was recorded before it", "statement": "Goroutines get scopes by name from a registry and sources by name from scopes, record in them and call Stats on the registry, all at once. A report has exactly one entry for every source somebody was given before Stats was called, with every record that had returned by then; no source twice, none that nobody asked for; an entry holds only records made in the source of its names and called before Stats returned, each once; scopes in order of names. The same names always give the same source, so nothing recorded is lost because two goroutines asked for it first at the same time.", "quantifier": "all interleavings of any number of ScopeNamed, accessor, record and Stats calls; all names and values", "why_tests_cant": "a lost record needs one schedule of creation, recording and reporting among unboundedly many", "anchors": ["registry.go: ScopeNamed, Scopes, Stats", "scope.go: newSource, allNamedSources, Stats"]}
{"id": "C103", "title": "A DiffMeter reports a difference there was", "statement": "While goroutines mark, reset and tick the two meters of a DiffMeter, every report of the DiffMeter gives the difference of what the two meters count at one moment between the call and the return of Stats, its total exact modulo 2^64. (False: the meters are read one after the other, so the report may be of a difference there never was, such as -1 where the first meter always counts at least as much as the second. It holds if one of the two is not changed meanwhile; else each meter's part is what that meter counted at a moment of its own between call and return, the first meter's not the later one.)", "quantifier": "all interleavings of any number of changes of any meters and of reports of any DiffMeters on them; all amounts, times and clock readings", "why_tests_cant": "a wrong difference needs a change of both meters between two critical sections of one report", "anchors": ["meter.go: DiffMeter, NewDiffMeter, DiffMeter.Stats, Meter.stats"]}
{"id": "C104", "title": "A remote trace query never blocks the program", "statement": "While a /trace/remote query waits for a matching span, every start of a span returns, whatever the sampling callbacks that traces carry do with the library. (False: the callback is called with a mutex held that every matching span takes when it starts, so a callback that starts a span matching the query waits for itself for ever, and so does everybody else who starts a matching span, even when the client has gone away. It holds if the spans callbacks start do not match, and spans that do not match never wait.)", "quantifier": "all schedules of any number of goroutines starting spans, all queries, traces and callbacks that start any number of spans, clients going away at any time", "why_tests_cant": "the deadlock needs a callback that uses the library and a query that matches what it uses", "anchors": ["present/path.go: FromRequest (trace/remote)", "collect/collect.go: spanFinder.Start, Stop", "collect/ctx.go: FindSpan"]}
{"id": "C105", "title": "Asking a value for a quantile never blocks it", "statement": "Whatever is observed and whatever quantile is asked for, in whatever order and from however many goroutines, every call on an IntVal, DurationVal or FloatVal returns or panics without hindering the others. (False: Quantile(NaN) on a value holding two or more observations panics on amd64 with the value's mutex held, and from then on no call on the value returns, nor any report that includes it. It holds for every quantile that is a number, also one outside 0 to 1, and for NaN on machines where its conversion to an integer gives zero.)", "quantifier": "all schedules of any number of goroutines, all histories of fewer than 2^63 calls, all values and quantiles, NaN included, all reservoirs", "why_tests_cant": "needs NaN, an unusual machine-dependent conversion and the recovery of a panic", "anchors": ["val.go: IntVal.Quantile, Observe, Stats; DurationVal, FloatVal", "intdist.go: Query"]}
{"id": "C106", "title": "Concurrent reports of the runtime statistics", "statement": "Reports of the runtime source asked for from several goroutines say what the same reports would say if made one after the other. (False of reports that overlap: the source keeps its distribution of pauses without a lock. Two overlapping reports can lose a pause for good, so that the count is 1 while the sum is that of two pauses; or leave a slot of the reservoir empty, so that the least pause remembered is zero though none was. It holds of reports that do not overlap, from whatever goroutines, and none of them panics.)", "quantifier": "all histories of reports that do not overlap, from any goroutines, for all readings of the runtime; two schedules of overlapping reports for the negation", "why_tests_cant": "the race needs two reports inside a few instructions of each other", "anchors": ["environment/runtime.go: Runtime", "durdist.go: Insert, Stats"]}
{"id": "C107", "title": "Functions that end the goroutine", "statement": "A monitored function that ends by runtime.Goexit (testing's FailNow and Fatal do) did not return: it and its callers are not counted as successes, the Goexit goes on, and all their spans are finished. (The first is false: recover gives nil during a Goexit, so the calls are counted by what their error variables hold, which is normally nil. The rest holds, from any depth, deferred functions making monitored calls, panicking and recovering meanwhile.)", "quantifier": "all trees of monitored calls that end in a Goexit, deferred calls included", "why_tests_cant": "depends on what recover gives during Goexit", "anchors": ["ctx.go: newSpan exit closure", "funcstats.go: end"]}
{"id": "C108", "title": "What environment.Register adds", "statement": "Register attaches the sources of the environment package to the registry given, or the default one for nil, and to no other: every report then has what each says once, under one scope called env as documented, along with whatever else was attached to any scope. (False in two points: the scope is named by the package's import path, and each further Register makes every report contain everything once more. The rest holds: reports list the scopes in order of name and under each exactly the sources attached to it, in order.)", "quantifier": "all sequences of Register and Chain calls on any registries and scopes, all contents of sources", "why_tests_cant": "all histories", "anchors": ["environment/env.go: Register", "registry.go: Package, ScopeNamed, Scopes, Stats", "scope.go: Chain, Stats"]}
{"id": "C109", "title": "Calls return", "statement": "Whatever goroutines do at the same time, no call of these hangs: getting scopes and sources, Gauge, Chain and Stats of a scope, reporting a registry, counting parents, values guarded by one mutex, BoolVal, the delta transformer, DiffMeter, tags, annotations of spans, observing and announcing traces, observing spans and cancelling that, ObserveAllTraces and its cancel functions, the span collector, Task, and the counters of running and most instances. Once no new calls are made, the calls under way take only so many further steps, whichever goroutine runs when; and while one is under way, one can go on. (Callbacks are taken to return. Calls that can hang have claims of their own: C71, C89, C104 and C105.)", "quantifier": "all histories, schedules and numbers of goroutines", "why_tests_cant": "all interleavings", "anchors": ["scope.go", "registry.go", "trace.go: ObserveSpansCtx, removeObserverFrom, getObserver", "funcstats.go: start, end, Reset", "funcset.go: Add, Len, Iterate", "val.go", "transform.go", "span.go: Annotate, Annotations", "task.go", "collect/collector.go"]}
{"id": "C110", "title": "The arguments of a span can be read back", "statement": "If the arguments given to a Task are strings, byte slices or lists of these, then what listings and JSON documents show as the span's arguments determines them exactly, byte for byte, also where they are not UTF-8, contain quotes, commas, braces or line breaks; and they cannot add lines to a listing.", "quantifier": "all lists of such arguments, of any length and contents", "why_tests_cant": "infinitely many strings; escaping must be right for every byte sequence", "anchors": ["span.go: Args, interfacesToString", "present/spans.go: outputTextSpan", "present/json.go: formatSpan, formatFinishedSpan", "present/trace.go: SpansToSVG"]}
{"id": "C111", "title": "The sample of a distribution is fair", "statement": "If the random numbers are independent and all remainders equally likely, then, as long as Window is not exceeded, each of n >= 64 values inserted since the last Reset is kept with probability 64/n, and the average of any quantity over the kept sample is, on average, its average over all values. Beyond a constant Window of w >= 64 the newest value has weight 1/w and each older one 1 - 1/w times the weight of its successor. Queries and reports, which reorder the sample, do not disturb this.", "quantifier": "all histories of inserts, queries, reports and resets; all values of Window that are not positive or at least the sample size; all outcomes of the random draws", "why_tests_cant": "a statement about averages over all outcomes of the generator, for any number of insertions", "anchors": ["intdist.go: Insert, Query, Stats, Reset", "floatdist.go: Insert", "durdist.go: Insert", "dist.go: Window, ReservoirSize"]}
{"id": "C112", "title": "Quantiles split the sample as asked", "statement": "For every quantile q from 0 to 1, more than q*(n-1) of the n sampled values are at most Query(q), and at least (1-q)*(n-1) of them are at least Query(q). For IntDist and DurationDist, Query(q) is the value at position q*(n-1) of the sorted sample, on the line between its neighbours, up to a fraction that is cut off and a relative rounding error of 2^-45. Reports give the quantiles 0, 0.1, 0.5, 0.9, 0.99 and 1 under rmin, r10, r50, r90, r99 and rmax. With at most 64 values of at most 2^24, all this is about the inserted values themselves. (Values below 2^63 - 2^38, or fitting a float32; see C06 and C67 for others.)", "quantifier": "all histories of inserts, queries, reports and resets; all values in the ranges named; all quantiles from 0 to 1", "why_tests_cant": "a counting statement for all samples and quantiles, with rounding errors for all values", "anchors": ["intdist.go: Query, Stats", "floatdist.go: Query", "durdist.go: Query, Stats"]}
{"id": "C113", "title": "Averages are averages", "statement": "FullAverage of an IntDist or DurationDist is the sum of the values since the last Reset divided by their number, with the fraction cut off. Of a FloatDist with n <= 2^50 values of magnitude at most m <= 2^960 it is within (n+1)*m/2^52 of their mean. ReservoirAverage, also as reported under ravg, is within one part in 2^17 of the largest magnitude of the mean of the sample. Without values both are 0.", "quantifier": "all histories of inserts, queries, reports and resets; all values in the ranges named", "why_tests_cant": "rounding errors of sums of arbitrarily many arbitrary values", "anchors": ["intdist.go: FullAverage, ReservoirAverage, Stats", "floatdist.go: FullAverage, ReservoirAverage, Stats", "durdist.go: FullAverage, ReservoirAverage, Stats"]}
{"id": "C114", "title": "The JSON of the statistics can be read back exactly", "statement": "If all statistics are finite, StatsJSON writes a JSON text in UTF-8 from which a JSON reader gets, in the order of the report, for each statistic its measurement, its tags, its field and a number that is read as exactly the float64 that was reported, to the last bit; bytes of names that are not UTF-8 are replaced. Statistics whose names are UTF-8 can be told apart by it. Integers and durations are always finite.", "quantifier": "all reports: any keys, tags, fields and finite float64 values; any choice of digits by strconv that is rounded back to the number", "why_tests_cant": "float64s range over 2^64 values in two notations, and names over all byte strings", "anchors": ["present/stats.go: StatsJSON", "present/json.go: listWriter", "tags.go: All"]}
{"id": "C115", "title": "Spans, parents and statistics of concurrent calls agree", "statement": "Whatever goroutines do at the same time: a span that is listed by a registry has been counted by its function, which from then on lists the function of the span's parent among its parents. The parents of a function are exactly the callers of its calls. With no start or exit half way through and no Reset, Current of a function is the number of its running calls, and in a program with one registry AllSpans lists that many spans of it. A Stats counts every call whose exit had returned when it was called, and none whose exit had not been called when it returned, by outcome and error name. When all calls have returned, successes, panics, errors by name, durations and parents of every function are those of the calls, Current is zero and no span is listed or counted in its trace. Some start, exit, Reset or Stats that is half way through can always go on.", "quantifier": "all programs of monitored calls, Resets and Stats on any number of functions, and all interleavings", "why_tests_cant": "the guarantees join six locks and counters touched at different moments of the same call, and schedules are unbounded", "anchors": ["ctx.go: newSpan", "ctx.go: Task", "funcstats.go: start", "funcstats.go: end", "funcstats.go: Stats", "funcset.go: Add", "span.go: orphan"]}
{"id": "C116", "title": "Durations are those of the clock", "statement": "The duration recorded for a call, what RunningTimer.Elapsed and Stop return and what Span.Duration says are the time that passed by the monotonic clock, and never negative. The durations recorded for the calls that a call makes one after the other add up to at most the duration recorded for it, and a span that exits before its parent is recorded with at most its parent's duration, whatever the goroutines do.", "quantifier": "all clocks that do not go backwards, all trees of calls, delays and schedules", "why_tests_cant": "clocks with other resolutions, and every delay at every point, cannot be arranged in a test", "anchors": ["timer.go: Elapsed", "timer.go: Stop", "span.go: Duration", "ctx.go: newSpan", "funcstats.go: Observe", "monotime/monotime.go: Now", "monotime/monotime_windows.go: elapsed"]}
{"id": "C117", "title": "No trace escapes ObserveAllTraces", "statement": "When ObserveAllTraces has returned, its collector is attached to every trace that has a running span, and to every trace that begins later before its first span exists; attached to a trace it stays so until it is cancelled.", "quantifier": "all trees of spans, all schedules of starts and exits before, during and after the call", "why_tests_cant": "the window in which a starting trace is missed is a few instructions wide", "anchors": ["collect/trace.go: ObserveAllTraces", "registry.go: ObserveTraces", "registry.go: observeTrace", "registry.go: RootSpans", "ctx.go: newSpan", "span.go: addChild"]}
{"id": "C118", "title": "A name clash is a panic and nothing worse", "statement": "Asking a scope for a name that is taken by a source of another kind panics in the goroutine that asks; the goroutines that use the source go on, the message shows the source as it was at some moment, and neither this nor a later call of a Task with such a name is counted as a running span.", "quantifier": "all kinds of sources, all schedules of uses of the source and of accessors", "why_tests_cant": "the panic's message is made by reading the source without its lock; what that meets depends on the schedule", "anchors": ["scope.go: FuncNamed", "scope.go: Meter", "funcstats.go: end", "val.go: Observe"]}
{"id": "C119", "title": "Observers that panic upset nothing else", "statement": "A span observer or trace watcher that panics ends the function it was told about, and nothing else: every call that ran is counted as its function ended, no span is listed that is not running, Current and Trace.Spans are the numbers of running calls and spans, the other observers are told of every start and end, and a panic of the function itself reaches its callers.", "quantifier": "all programs of monitored calls on a goroutine, all sets of observers, all their panics", "why_tests_cant": "the damage shows only later, as listed spans and counts that never go away, and depends on which notification panics", "anchors": ["ctx.go: newSpan", "ctx.go: spanObserverTuple", "trace.go: ObserveSpansCtx", "registry.go: observeTrace", "ctx.go: Task"]}
{"id": "C120", "title": "Calls that have ended leave nothing behind", "statement": "When every monitored call that was made has ended, no span is listed anywhere, no finished span has children, Trace.Spans of every trace and Current of every function are 0, and no lock is held; at any time what registries and spans hold on to is calls under way, each at most once, so that the memory for spans is proportional to the calls under way.", "quantifier": "all programs of concurrent monitored calls, all schedules", "why_tests_cant": "a leak shows only after many calls, and in few schedules", "anchors": ["ctx.go: newSpan", "span.go: addChild, removeChild, orphan", "spanbag.go: spanBag", "registry.go: rootSpanStart, rootSpanEnd, orphanedSpan, orphanEnd", "trace.go: incrementSpans, decrementSpans", "funcstats.go: FuncStats.start, end"]}
{"id": "C121", "title": "A span shows the arguments that were given to the call", "statement": "Args, and every listing of spans, shows the arguments that were given to the Task, in their order and as they were given; and to look at the arguments of a span changes nothing for the function that was called with them.", "quantifier": "all arguments that are strings, slices of bytes or maps, all functions that write to them, any number of goroutines that look at the spans, all schedules", "why_tests_cant": "races between a listing and the functions that run", "anchors": ["span.go: Args", "ctx.go: newSpan", "present/spans.go: outputTextSpan, outputDotSpan", "present/json.go: formatSpan, formatFinishedSpan", "present/trace.go: SpansToSVG"]}
{"id": "C122", "title": "Deltas of growing totals are what they have grown by", "statement": "When reports of a source whose total only grows go through one DeltaTransformer, the delta in a report is what has been recorded since the report before it, and is never negative.", "quantifier": "any number of concurrent reports, all histories of recording, all schedules", "why_tests_cant": "needs a second report between two steps of the first", "anchors": ["transform.go: DeltaTransformer.Transform", "meter.go: Meter.Stats"]}
{"id": "C123", "title": "Reports of a registry at rest say the same", "statement": "While nothing is recorded, registered or reset, any two reports of a registry list the same statistics with the same values, each as often, scopes in the same order; as text they are the same.", "quantifier": "all registries of functions, distributions and other sources, all orders in which Go may visit a map", "why_tests_cant": "the order in which Go visits a map is different each time, and there are many", "anchors": ["registry.go: Registry.Stats, Registry.Scopes", "scope.go: Scope.Stats, allNamedSources", "funcstats.go: FuncStats.Stats"]}
{"id": "C124", "title": "Text lists can be read in only one way", "statement": "The text SpansText writes determines the running spans: how many trees there are and their shape, and for each span its number, trace, call, time, orphan mark and annotations; the text FuncsText writes determines the functions, their callers, counters, errors and times. No name, argument or annotation can make up a span or a function that does not exist.", "quantifier": "all lists of span trees and of functions, with arbitrary names, arguments, annotations and error names", "why_tests_cant": "needs all texts that names and annotations can contain, in trees of any shape", "anchors": ["present/spans.go: SpansText, outputTextSpan", "present/funcs.go: FuncsText"]}
{"id": "C125", "title": "Ending a call again changes nothing", "statement": "The function a Task returns may be called again after it has returned, any number of times and on any goroutine, for instance explicitly and then by defer. That changes nothing: RootSpans and AllSpans list exactly the running spans, finished spans stay unlisted, Trace.Spans is the number of running spans, and the call is counted once in the statistics of its function.", "quantifier": "all numbers of spans and of further calls, all schedules of starting and ending spans and of further calls", "why_tests_cant": "unbounded interleavings of repeated ends with spans that start and end on other goroutines", "anchors": ["ctx.go: newSpan exit closure", "span.go: addChild, removeChild, orphan", "registry.go: rootSpanEnd, orphanEnd", "funcstats.go: end"]}
{"id": "C126", "title": "Times shown as text are exact", "statement": "The text of a duration, as SpansText and FuncsText show it, stands for exactly its number of nanoseconds, for every duration including negative ones and the least one, so no two durations have the same text. The times of a function are shown in twelve labelled lines, the eight quantiles, both averages, the most recent time and the sum in this order, and two texts of times are equal only if all twelve values are. So two lists of functions, or of running spans, with the same text agree in everything shown, times included, if names, arguments and annotations have no line breaks.", "quantifier": "all durations, distributions, indentations, lists of functions and trees of spans", "why_tests_cant": "2^64 durations with six units and a fraction without trailing zeros; unbounded lists", "anchors": ["present/funcs.go: formatDist, FuncsText", "present/spans.go: outputTextSpan, SpansText", "dist.go: ObservedQuantiles"]}
{"id": "C127", "title": "No data races, apart from four places", "statement": "However many goroutines call the functions of the library, in whatever order and on whatever objects, no two of them are ever about to access the same variable of it at the same time unless both read or both use atomic operations. This covers counters, values, timers, meters, functions, spans, traces, registries, scopes, transformers, collectors and error name handlers.", "quantifier": "all numbers of goroutines, all sequences of calls on all objects, all schedules, all outcomes of the tests inside the functions", "why_tests_cant": "the race detector only sees the schedules of its run; the claim is about all of them", "anchors": ["counter.go", "val.go", "timer.go", "meter.go: Meter, ticker", "funcset.go", "funcstats.go", "span.go", "ctx.go: newSpan, Task", "trace.go", "registry.go", "scope.go", "transform.go: DeltaTransformer", "error_names.go", "tags.go: String", "collect/collect.go", "collect/trace.go", "present/utils.go: keepAlive", "environment/process.go: processCRC", "environment/runtime.go: Runtime"]}
{"id": "C128", "title": "The locks of the library cannot deadlock", "statement": "However many goroutines call the functions of the library, in whatever order and on whatever objects: at every moment each of them can go on, or waits for one that can, perhaps through others that wait in turn. So goroutines never wait for each other in a circle, through any of the library's mutexes, spin locks, the read-write lock of scopes, where waiting writers go before readers, and the Once of a task.", "quantifier": "all numbers of goroutines, all sequences of calls on all objects, all schedules, all outcomes of the tests inside the functions", "why_tests_cant": "a deadlock needs a rare schedule of several goroutines and locks; the claim is about all of them", "anchors": ["counter.go", "val.go", "timer.go", "meter.go: NewMeter, ticker", "funcset.go", "funcstats.go", "span.go: orphan, addChild", "ctx.go: newSpan, Task", "trace.go", "registry.go", "scope.go: newSource", "collect/collect.go", "collect/trace.go: ObserveAllTraces", "present/utils.go: keepAlive", "present/path.go"]}
{"id": "C129", "title": "The functions of CollectSpans", "statement": "CollectSpans makes a call of a function of its own, in the scope of the function it is called in: its name is that function's, followed by -TRACED. However often and by however many goroutines it is called, there is one such function for each function; two functions do not share it, the program's own calls are not counted in it, and each CollectSpans called directly in the work of another has another one.", "quantifier": "all names and tags of functions, all numbers of goroutines, all schedules of calls on the scope, all depths of nesting", "why_tests_cant": "names and tags can be anything, and the functions are made under any schedule", "anchors": ["collect/ctx.go: CollectSpans", "func.go: ShortName", "scope.go: FuncNamed, sourceName", "tags.go: SetTags, Get"]}
{"id": "C130", "title": "Different sources report different series", "statement": "No two sources that the accessors of scopes have made, and no two gauges of different names, report under the same series: the measurement or the value of some tag differs, for every part of what they report. So what Stats gives for a series comes from one source.", "quantifier": "all names and tags, all kinds of sources, all numbers of goroutines, all schedules of calls on the scope", "why_tests_cant": "names and tags can be anything, and sources are made under any schedule", "anchors": ["scope.go: FuncNamed, Meter, DiffMeter, IntVal, FloatVal, BoolVal, StructVal, DurationVal, Timer, Counter, Gauge, Stats, sourceName", "stats.go: WithTag, WithTags", "tags.go: Set, SetTags", "funcstats.go: initFuncStats, Stats"]}
