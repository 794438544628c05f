# Formal model of spacemonkeygo/monkit in Lean 4

## Layout

* `lean/Verif/Go/*`      – the parts of Go and its library that the code uses: byte strings and their order, UTF-8, maps with arbitrary
  iteration order, slices as views of arrays, sorting, IEEE rounding, mutexes, interleaved executions.
* `lean/Verif/Model/*`   – the code, function by function, each definition citing file and lines.
* `lean/Verif/Spec/*`    – small specifications, independent of the model.
* `lean/Verif/Proofs/*`  – helper lemmas and invariants.
* `lean/Verif/Props/*`   – the property theorems (`C01_…`), each followed by an `example` showing
  that a concrete non-trivial case meets its hypotheses.
* `lean/Verif/Audit.lean` – `#print axioms` of every property theorem.
* `properties.jsonl` – the properties in English. `MANIFEST.json` – their status and theorems. `seeded/LOG.jsonl` – wrong programs
  tried against the theorems: the edited definition, the edit, the claim it breaks, the theorems that failed and those tightened.
  How it was made: after each edit the modules with the theorems are rebuilt; a proof that no longer checks is replaced by `sorry` in the scratch
  copy, and a theorem counts as failed if it then rests on `sorryAx`. So "caught" means that the proof in this repository no longer holds for the
  edited program; it does not by itself show that the statement has become false (harmless edits that only break a proof are noted as such where
  they were recognised). "caught by other claims only": a proof failed, but of no theorem of the claim named. "inconclusive": a proof failed that could
  not be cut out, so the theorems were not looked at. Edits after which the model itself does not compile are left out. Most edits were
  tried against a subset of the modules and against the state of the model at that time (`batch`); ids are unique only within a batch.
  Entries `a1-…` are edits of random lines.

## Modelling decisions

* **Integers.** `int64`/`uint64` are Lean core `Int64`/`UInt64`/`BitVec 64` (two's complement,
  wrap-around as in Go). Specifications use `.toInt`.
* **Strings** are lists of bytes, valid UTF-8 or not. **Maps** are functions or duplicate-free association lists; every
  `range` over a map is modelled by an arbitrary permutation of the entries, quantified in the theorem.
* **Slices** are lists where only their owner sees them. Where two slices share an array (span annotations,
  the ticker's meters) they are views of arrays in a heap (`Go/Slice`).
* **Floats.** A finite float is a rational; each arithmetic operation is the exact operation followed
  by round-to-nearest-even to 24 (float32) or 53 (float64) bits.
  Arithmetic on integers, durations and rates has unbounded exponents, as neither subnormal numbers nor overflow can occur there; FloatDist has float64 and float32 with subnormal numbers,
  overflow, infinities and NaN (`Go/Ieee.lean`; the two zeros are one, and sorting puts NaN first where Go leaves the order unspecified). Go may fuse a multiplication and an addition; where that matters (the interpolation in
  `Query`) both ways are modelled and the theorems quantify over the choice. NaN is an explicit
  constructor where it can arise. Where only the identity of a reported number matters (`Stats`
  callbacks) the value is kept symbolic; `Model/Units` says which float64 it stands for (C80).
* **Panics** are `none`, or explicit outcomes where deferred functions and `recover` matter (C30, C58, C64).
* **Concurrency.** Goroutines are threads with program counters; one step is one atomic operation
  or one critical section of a mutex (the reduction of a critical section to one step is itself
  proved, for a generic mutex-protected object, as property C03). Schedules are arbitrary lists of steps:
  every theorem about a reachable state quantifies over all of them. Go's memory model is taken as
  sequentially consistent for `sync/atomic` and `sync.Mutex` (as Go documents).
* **Clock** readings, random bytes, results of callbacks and of the operating system are inputs of the operation that takes them.
* **Writers** are given by what they do at each call: take everything, or take some bytes and fail.
* Where a property is false of the code, the negation is proved on a concrete witness
  (`…_violated`), and what does hold is kept as `…_partial` with the full statement in the comment.

## Trusted base

Lean's kernel; the axioms `propext`, `Classical.choice`, `Quot.sound` (listed per theorem below and by
`Verif/Audit.lean`); the correspondence between the model definitions and the cited Go lines, which
was established by reading; Go's documented semantics of maps, slices, defer/recover, atomics and mutexes, and the
contracts of the library functions named in the model (`sync.Once`, `sort`, `bufio.Writer`, `xml.EscapeText`, `net/http` response writers,
`strconv`, `bytes.Buffer`). No axioms are added; there is no `sorry`, `admit`, `native_decide` or `bv_decide`.

## Plan per property

`proved`: the full statement of `properties.jsonl` holds of the model. `partial`: part of the statement is proved; where the rest is
false of the code there is a theorem `…_violated` with a witness.

| id | property | status | model | proof |
|----|----------|--------|-------|-------|
| C01 | Counter tracks value, high and low exactly | proved | Counter | invariant by induction over the operations, relating the object to the values since the last Reset |
| C02 | Counter statistics are consistent | proved | Counter | the same invariant, read at `Stats` |
| C03 | Lock-protected objects are linearizable | proved | Go/Mutex, CounterConc | simulation: the shared state is that of the sequential run of the completed critical sections; instantiated to Counter at single field accesses |
| C04 | Distribution aggregates are exact | proved | Dist | invariant over histories, generic in the value type |
| C05 | The reservoir contains only real observations | proved | Dist | invariant over histories and random streams: every slot holds an inserted value |
| C06 | Quantile estimates are bounded and monotone | partial | Dist, Go/Float | monotonicity of rounding; `rn ((1-2^-53) d) < d`; bounds of the interpolation, fused or not |
| C07 | Query never indexes out of range | proved | Dist | index bounds; Query permutes the reservoir only |
| C08 | Reset empties a distribution | partial | Dist | induction over histories; witness |
| C09 | Sampling index and replacement rate | proved | Dist | counting residues |
| C10 | Random generators do not degenerate | proved | Rng | explicit inverses of the generators on bit vectors |
| C11 | Seeding yields a live sampler | partial | Rng | inverse of the seeding step; witness |
| C12 | Meters never lose events | proved | Meter | induction over histories; conservation of the sum of the buckets |
| C13 | Meter rate window | proved | Meter | window lemma over histories of ticks |
| C14 | DiffMeter reports differences | proved | Meter | induction over histories of both meters |
| C15 | A running timer is counted at most once | proved | Val (Timer) | linearization of the mutex object, then induction over the calls |
| C16 | BoolVal counts under concurrency | proved | BoolVal | interleaving of atomics; ghost counts |
| C17 | FuncStats accounting identity | proved | FuncStats | induction over outcomes |
| C18 | Current and Highwater under concurrency | proved | Highwater | interleaving of atomics; inductive invariant |
| C19 | Current is never negative | partial | Highwater | inductive invariant; witness |
| C20 | Func.Parents lists exactly the callers | proved | FuncSet | interleaved; inductive invariant |
| C21 | Child bag is a multiset | proved | SpanBag | refinement to the multiplicity function |
| C22 | RootSpans is exactly the running spans without a live parent | proved | Spans | one big inductive invariant over the span system |
| C23 | AllSpans visits every running span exactly once | proved | Spans | the same invariant; enumeration by forest recursion |
| C24 | Finished spans are never listed again | proved | Spans | the same invariant |
| C25 | Running spans are always visible | partial | Spans | the same invariant; witness |
| C26 | Orphaned means the parent finished first | proved | Spans | the same invariant |
| C27 | Trace.Spans counts running spans | proved | Spans | the same invariant |
| C28 | Tasks preserve context values | proved | Ctx | structural induction on the chain of contexts |
| C29 | Trace and parent assignment | proved | Tasks | case analysis; induction over histories of starts |
| C30 | Panics are recorded and re-raised | partial | Calls | case analysis of the exit function; witness |
| C31 | Span observers: exactly the registered ones, exactly once | proved | Observers | list with CAS push and locked removal, interleaved; inductive invariant |
| C32 | Trace watchers | proved | Watchers | interleaved; inductive invariant |
| C33 | ObserveAllTraces attaches once and detaches fully | proved | AllTraces | interleaved; inductive invariant |
| C34 | Span collector life cycle | proved | Collector | interleaved; inductive invariant |
| C35 | Collected spans form the subtree of the matched span | proved | Collector, CollectorSpans | invariant, then induction on the forest |
| C36 | Spans() terminates | partial | CollectorSpans | termination measure; witness |
| C37 | NewId values are non-negative and distinct | partial | Id | bit-vector arithmetic; witness |
| C38 | Tag sets behave as immutable maps | proved | Tags | heap of tag sets; induction over histories |
| C39 | Series names are deterministic | proved | Tags | sortedness determines the order |
| C40 | Series names are unambiguous | partial | Tags | parsing inverse; witness |
| C41 | Scope hands out one source per name and kind | proved | Scope | interleaved; inductive invariant |
| C42 | Different names or tags give different sources | partial | Scope | parsing inverse; witness |
| C43 | Gauges overwrite, chains accumulate, Stats tags everything | proved | Scope | interleaved; inductive invariant |
| C44 | Registry scopes are unique and enumerated in order | proved | RegScopes | interleaved; inductive invariant |
| C45 | Transformers compose and do not leak | proved | Transform | equations of stream functions |
| C46 | Delta transformer telescopes | proved | Delta | induction over streams; interleaved with an atomic exchange |
| C47 | Struct statistics | partial | Struct | structural induction; witness |
| C48 | Error naming precedence | proved | ErrorNames | interleaved; induction over the handler list |
| C49 | Function and package names | partial | Callers | lemmas on lastIndex/indexByte; witness |
| C50 | Trace headers round-trip | partial | Headers | parse/print round trip; witness |
| C51 | Malformed trace headers are rejected safely | proved | Headers | case analysis of the parser |
| C52 | Baggage is filtered and round-trips | partial | Headers | parse/print round trip; witness |
| C53 | Reported response code is the one sent | partial | Wrap | induction over the history of the response writer; witness |
| C54 | Dot labels are safe and lossless | proved | Dot | decoder round trip |
| C55 | JSON lists are well-formed or reported as errors | proved | ListWriter | induction over elements and failure points |
| C56 | StatsJSON succeeds for every registry | partial | ListWriter, Basic | induction; witness |
| C57 | Request routing | proved | Path | case analysis; induction over segments |
| C58 | Keep-alive pings stop | proved | KeepAlive | interleaved; inductive invariant |
| C59 | Span picture geometry | partial | Svg | integer arithmetic; witness |
| C60 | GC pause statistics count each collection once | partial | Runtime | induction over readings; witness |
| C61 | monotime never goes backwards | partial | Monotime | integer arithmetic; witness |
| C62 | Spin lock mutual exclusion | proved | SpinLock | interleaved; simulation by the mutex of C03 |
| C63 | Task.Func returns the task's Func | partial | TaskFunc | interleaved; invariant; witness |
| C64 | End-to-end call accounting | partial | Calls | interpreter of call trees; structural induction; witness |
| C65 | No lock-order deadlock among spans | proved | Locks, Spans | lock ranking; progress of the span system |
| C66 | Averages lie within the data | partial | Dist | error analysis of the float32 sum; witness |
| C67 | FloatDist aggregates and quantiles | partial | Dist | instance of the generic model; witness |
| C68 | Value distributions under concurrent use | proved | Val | linearization, then the sequential theorems |
| C69 | A traced request links server to client | partial | Headers, Tasks | composition of C29 and C50; induction over chains of requests; witness |
| C70 | Overlapping spans get different rows in the SVG | partial | Svg | induction over the packing; witness |
| C71 | Trace values | partial | TraceVals | interleaved; refinement to an abstract map; witness |
| C72 | Span annotations | proved | Annotations, Go/Slice | interleaved; shared arrays; inductive invariant |
| C73 | Span listings are complete | proved | Present | induction on the forest; prefix-freeness |
| C74 | Function listings are complete | proved | Present | induction over the list of functions |
| C75 | Write errors are not lost | partial | Present | failure points; induction; witness |
| C76 | Results arrive completely | proved | Buffered | bufio contract; induction over writes |
| C77 | Keep-alive bytes reach the client | partial | Buffered | induction over pings; witness |
| C78 | Texts in the SVG are only texts | partial | SvgText, SvgBar, Go/Utf8, Go/DurText | decoder round trip; induction over bytes; witness |
| C79 | Copies of distributions are faithful | proved | Dist | equations; induction over later operations |
| C80 | Reported numbers have the right unit and precision | proved | Units, Dist, Counter, Meter, FuncStats | exactness and rounding of the conversions |
| C81 | Every meter is ticked, by one goroutine | proved | Ticker | invariant over all schedules |
| C82 | Meters under concurrent use | proved | MeterConc, Meter | mutual exclusion (C03), then the sequential invariant |
| C83 | The mutex-based atomics are atomic | proved | CasSafe | refinement to indivisible operations (C03) |
| C84 | StructVal reports the latest struct | proved | StructVal, Struct | mutual exclusion (C03), then C47 |
| C85 | FindSpan finds a span | proved | FindSpan | invariants over all schedules; an explicit run for progress |
| C86 | /trace/remote picks one trace | proved | Remote: the product of KeepAlive (C58), FindSpan (C85) and the matcher | projections onto both parts, then an invariant; returns: a rank of each goroutine falls, and who waits for a lock waits for one that can go on; panics: an invariant on the one call of the callback, and a state no step of which wakes the request |
| C87 | WatchForSpans returns the tree of a matching span | proved | WatchSpans: the product of Collector (C34-C37), AllTraces (C33) and the calling goroutine | projections onto the parts, invariant, then the theorems of the parts |
| C88 | CollectSpans returns the spans of its work and leaves nothing behind | partial | CollectSpans: Collector with a forced span and the trace's observers | projection onto Collector, invariant; witness |
| C89 | Naming an error never blocks a function's statistics | partial | EndLock | invariants over all schedules; an explicit run for progress; witnesses |
| C90 | The JSON documents say what was observed | proved | JsonDocs with Go/JsonEnc; a reader of RFC 8259 as the specification (Spec/Json) | structural induction over values and strings: the reader inverts the writer |
| C91 | Statistics as text can be read back | partial | StatsText | the rounding error of %f, lines and entries split uniquely; witness |
| C92 | HTTP clients get the document or an error status | partial | Http: Path (C57) and Buffered (C76) behind the handler | case analysis over C57's characterisation; witnesses; a scan for links proved complete |
| C93 | A trace query writes newlines and then one document | proved | TraceQuery: the product of KeepAlive (C58), WatchSpans (C87) and the goroutine of the request | projections, invariant, then the theorems of the parts |
| C94 | Process statistics are those of the kernel | partial | ProcFs: fmt.Sscanf for these formats, the two structs, Struct (C47) | a parenthesis among numbers is never passed: induction over the verbs |
| C95 | Process checksum and descriptor count | proved | ProcStats: goroutines around a sync.Once; the loop over Readdirnames | invariant; induction over the parts of the directory |
| C96 | The colour of a bar tells how the span ended | partial | Colour: the loop of unwrapError with a number of rounds, the switch of SpansToSVG | induction over the rounds and over the chain |
| C97 | Listing spans while they come and go | partial | Listing: a call as a process that reads roots, orphans and bags one after the other, beside Spans | invariant: every anchored span is listed once or its parent is still to come |
| C98 | Function reports while calls come and go | partial | FuncConc: every call, Reset and Stats a process; atomics and mutex as steps | refinement: what the mutex protects is that of the sequential history in the order of the mutex; invariants count the calls inside |
| C99 | A traced handler | partial | TraceHttp, TraceHttpCb: ServeHTTP as a log of what it does; the handler any function from what it is given to what it does | the log is computed once, the statements are read off it; the handler's call occurs once and so splits the log uniquely |
| C100 | A traced request | partial | TraceHttp: TraceRequest as a log; the client any function from headers to answers | cases on the header and the answer; composition with C99 through the headers |
| C101 | Tag sets shared by goroutines | partial | TagsConc: String on one shared set, each word of the cached string read and written in its own step | invariants: both words are those of the one right string or zero; once filled, filled for ever |
| C102 | A report contains what was recorded before it | proved | Report: ScopeNamed, accessors, records and Stats together, critical sections as steps | invariants on tables and numbered records; a second induction from the call of Stats to its return |
| C103 | A DiffMeter reports a difference there was | partial | DiffConc: changes of meters and DiffMeter.Stats, one critical section per step | invariant relating what took effect to calls and returns; the moments of a report kept along the execution |
| C104 | A remote trace query never blocks the program | partial | RemoteCb: the matcher of /trace/remote with its mutex, in goroutines that start spans, and callbacks that start more | invariant on who holds the mutex, a measure that every step lowers; a reachable state that stays stuck |
| C105 | Asking a value for a quantile never blocks it | partial | QuantileLock: val.go with quantiles that may be NaN; a panic leaves the mutex locked | C07 for numbers, invariant on the mutex and the distribution with a census of the calls not yet through; a stuck state that stays |
| C106 | Concurrent reports of the runtime statistics | partial | RuntimeConc: the accesses of Insert one by one, reports as interleaved programs | refinement: uninterrupted accesses are C60s Insert; invariant over executions; two concrete schedules for the negation |
| C107 | Functions that end the goroutine | partial | Calls, with bodies that end by Goexit | corollary of C64; witness |
| C108 | What environment.Register adds | partial | Env: registries as maps from scope names to chained sources; callerPackage of C49 for the name | induction over the calls; sorting contract; two witnesses |
| C109 | Calls return | proved | the concurrent models of C18, C41, C42, C45, C52 and others, as they are | AllReturn in Spec/Returns; potentials summed over the goroutines that ever ran; lock ownership invariants |
| C110 | The arguments of a span can be read back | proved | span.go Args and interfacesToString with strconv.Quote and hex.EncodeToString | round trip with a reader for Go string literals, hexadecimal digits and lists (Spec/Args) |
| C111 | The sample of a distribution is fair | proved | Insert of all three kinds, with a tape of random numbers | mean over all tapes (Spec/Fair); induction over the history: an insertion moves the expected mean by one part in the width |
| C112 | Quantiles split the sample as asked | proved | Query and Stats of all three kinds | rank and interpolation of the sorted sample (Spec/Quantile); the rounded position can only move up to the next whole one; error bounds of the float operations |
| C113 | Averages are averages | proved | FullAverage, ReservoirAverage and Stats of all three kinds | exact integer quotient; induction over the summands with the error of each rounding (Proofs/Average) |
| C114 | The JSON of the statistics can be read back exactly | proved | StatsJSON with json.Marshal, its float encoder and strconv fmtE and fmtF | an RFC 8259 reader with fractions and exponents applied to the text; values of digit strings by induction (Proofs/Json) |
| C115 | Spans, parents and statistics of concurrent calls agree | proved | newSpan and the exit function as a whole: Model/Whole puts Model/Spans and Model/FuncConc together in the order of ctx.go:59-158 | projections onto the two systems, and an invariant that ties the place of a call in one to its place in the other; progress from C65 and C98 |
| C116 | Durations are those of the clock | partial | monotime.Now with time.Add, Sub and Since; timers, spans and recorded durations; trees of calls with delays; spans of many goroutines with a clock | arithmetic on readings; structural induction on the tree with additivity of durations; an invariant on the moments of readings |
| C117 | No trace escapes ObserveAllTraces | partial | ObserveAllTraces, statement by statement, with the spans of the registry and the announcement of new traces | invariants on listed roots and on what is still to be scanned, with C25; two concrete executions for the negations |
| C118 | A name clash is a panic and nothing worse | partial | the map of error counts with the runtime's check for concurrent writers, the two words of an interface, accessors that format them | invariant on who is inside an assignment; two concrete executions for the negations |
| C119 | Observers that panic upset nothing else | partial | calls, the exit function and the chain of observers, every notification of which may panic | induction over the program, with what each call leaves behind; three concrete programs for the negations |
| C120 | Calls that have ended leave nothing behind | partial | Spans, Whole | invariants of C22-C27 and C115, counted; a program of any length for the negation |
| C121 | A span shows the arguments that were given to the call | partial | LiveArgs | invariant by induction over schedules, relating what has been read to the events; concrete schedules for the negations |
| C122 | Deltas of growing totals are what they have grown by | partial | DeltaReports | invariants by induction over schedules; a concrete schedule for the negation |
| C123 | Reports of a registry at rest say the same | partial | Quiet | reports as a relation over all orders of maps; permutations |
| C124 | Text lists can be read in only one way | partial | TextRead | unique decoding of indented lines, by induction over trees |
| C125 | Ending a call again changes nothing | partial | ReExit | simulation by the model without further calls; census of the further calls |
| C126 | Times shown as text are exact | proved | Times | round trip: a reader of durations in Spec/Times.lean reads what Duration.String writes; induction over the digits of the fraction |
| C127 | No data races, apart from four places | partial | Races | invariant over all executions of any number of goroutines: every goroutine holds exactly the locks that a checker computes for what it has yet to do, locks exclude each other, and a guarded variable is accessed only with its lock; the table of functions is then checked by evaluation |
| C128 | The locks of the library cannot deadlock | proved | Deadlock | invariant over all executions: who waits for a lock holds only locks of lower rank, and what a lock records as its holder does hold it; chains of waiting climb the ranks and end |
| C129 | The functions of CollectSpans | partial | Traced, on the Scope of C41 | the name is computed through the tag set; then the results on the scope of C41 and C42, and the length of the names for nested calls |
| C130 | Different sources report different series | partial | Series, on the Scope of C41 | every tag of the reported key is computed through the tag sets; name, tags and part are read off it; then the results on the scope of C41 |

## Disagreements between the code and what a user would expect

Each is proved on the model with a concrete witness; the statement that does hold is kept as `…_partial`. The notes are those of `MANIFEST.json`.

* **C06** Quantile estimates are bounded and monotone: proved for reservoir values whose float32 rounding is back in int64 range; false for MaxInt64 on amd64, where int64(float32) overflows: witness C06_quantile_bounds_violated (`C06_quantile_bounds_violated`)
* **C08** Reset empties a distribution: aggregates and later quantiles proved; the clause 'quantiles report zero' is false of the code: Query right after Reset returns a stale sample (`C08_reset_violated`)
* **C11** Seeding yields a live sampler: proved for every non-zero seed; seed 0 gives the all-zero generator, witness given (`C11_seed_zero_violated`)
* **C19** Current is never negative: proved when every Reset happens while nothing is being observed; false otherwise, witness given (`C19_nonneg_violated`)
* **C25** Running spans are always visible: false of the code at instants when an ancestor has marked itself done and not yet orphaned its children; witness given; proved at all other instants, except when an ancestor is itself being started under a finished parent and not yet among the orphans (`C25_always_visible_violated`)
* **C30** Panics are recorded and re-raised: proved except for panic(nil) under the Go version of go.mod (1.19), which is recorded as success and swallowed, and for exit functions called from within a deferred closure instead of being deferred, which cannot see panics; both shown (`C30_panic_nil_violated`, `C30_nested_violated`)
* **C36** Spans() terminates: proved when the collected spans have distinct ids; false otherwise (a recorded child with the matched span's id makes Spans recurse for ever), witness given (`C36_spans_terminates_violated`)
* **C37** NewId values are non-negative and distinct: ids are non-negative, any five in a row differ and no id is given more than twice in a full period; 'all distinct' is false: two ids of one process can collide for some seeds (witness given); proved for all other seeds (`C37_distinct_violated`)
* **C40** Series names are unambiguous: proved when no backslash stands right before a comma, an equals sign, a space or the end of a name; false otherwise (backslashes are not escaped), witness given (`C40_injective_violated`)
* **C42** Different names or tags give different sources: proved when names and tags do not contain the separators ',' and (in keys) '='; false otherwise, witnesses given; FuncNamed is disturbed only by sources of other kinds registered under a string that begins with func: (`C42_distinct_violated`, `C42_func_prefix_violated`)
* **C47** Struct statistics: proved when no nil pointer is met; the report panics exactly if one is, even in a field tagged ignore (witness given); structs in unexported fields are not entered; fields have names of their own unless a struct has several called _, which are all reported (C47_blank_violated) (`C47_nil_ignored_violated`, `C47_blank_violated`)
* **C49** Function and package names: function names proved; the package name is the import path if that has a slash and appears unescaped in symbol names; false otherwise ('main' gives '/main', 'gopkg.in/yaml.v2' gives 'gopkg.in/yaml%2ev2') (`C49_package_slash_violated`, `C49_package_dot_violated`)
* **C50** Trace headers round-trip: proved for non-negative ids, which is all that monkit makes itself; false for negative ids, witness given (`C50_negative_violated`)
* **C52** Baggage is filtered and round-trips: proved for requests that carry trace ids; baggage of a request without them is dropped, witness given (`C52_without_ids_violated`)
* **C53** Reported response code is the one sent: proved when the handler calls WriteHeader at most once, with a final code, and before any body; false otherwise, witnesses given (`C53_twice_violated`, `C53_flush_violated`, `C53_informational_violated`)
* **C56** StatsJSON succeeds for every registry: proved when every statistic is a number; false otherwise: the document stops at the first NaN or infinity, and every unused Counter reports NaN (`C56_nan_violated`, `C56_unused_counter_violated`)
* **C59** Span picture geometry: proved for spans that together take some time and less than 88 days; drawing panics if they take no time and bars leave the picture beyond 88 days, and it never ends for a span whose id and remote parent are both 0, witnesses given (`C59_instant_violated`, `C59_long_violated`, `C59_zero_violated`)
* **C60** GC pause statistics count each collection once: proved if a garbage collection happens between any two readings; false otherwise: the last number of collections is never remembered, so every reading enters the latest pause again, witness given (`C60_same_violated`)
* **C61** monotime never goes backwards: proved until the counter difference times 10^9 exceeds 2^63, which is after 922 s at 10 MHz; false afterwards, witness given (`C61_overflow_violated`)
* **C63** Task.Func returns the task's Func: proved for Func.Task, TaskNamed and ResetTrace, and for Scope.Task once it has run; Func() on a Scope.Task that has not run panics, witness given (`C63_fresh_violated`)
* **C64** End-to-end call accounting: proved for all programs of monitored calls without panic(nil) (or with its meaning since Go 1.21); false with it, witness given (`C64_panic_nil_violated`)
* **C66** Averages lie within the data: IntDist and DurationDist: FullAverage proved; the ReservoirAverage clause is false of the code (float32 accumulation), witness given; proved while the float32 sums are exact, and with an error bound otherwise. FloatDist: both averages are false of the code (rounding, overflow to infinity), witnesses given; proved while the sums are exact (`C66_reservoir_average_violated`, `C66_float_average_violated`, `C66_float_reservoir_average_violated`)
* **C67** FloatDist aggregates and quantiles: false of the code in two ways: Low and High stay NaN if the first value is NaN (C67_nan_violated), and values beyond the range of float32 make quantiles infinite or NaN (C67_large_violated). Proved for all float64 values, infinities and NaN included: Count, Sum, Recent and the report; Low and High unless the first value is NaN; quantiles when all values fit a float32, and otherwise, without NaN, that a quantile is NaN or within bounds (`C67_nan_violated`, `C67_large_violated`)
* **C69** A traced request links server to client: proved when the client's request span has no parent; otherwise the id of its parent is sent and the server's span becomes its sibling, witness given (`C69_linked_violated`)
* **C70** Overlapping spans get different rows in the SVG: proved for spans that run within their parents; false otherwise, witness given (`C70_rows_violated`)
* **C71** Trace values: values are exact for every history; calls always return only as long as no unhashable key is given: Get or Set with such a key panics with the mutex held, and every later Get, Set, GetAll and observer cancel blocks, witness given (`C71_blocks_violated`)
* **C75** Write errors are not lost: proved for SpansText, SpansDot and FuncsDot with every writer; FuncsText forgets an error that happens while it lists callers, witness given; proved for writers that stay broken, as the one FromRequest uses (`C75_funcs_text_violated`)
* **C77** Keep-alive bytes reach the client: false through FromRequest: the newlines go into a buffer of 4096 bytes, so a client gets nothing for the first 34 hours; proved: the client lags at most 4096 newlines behind (`C77_pings_violated`)
* **C78** Texts in the SVG are only texts: no markup can be injected (proved for all byte strings), but an apostrophe ends the string literal in the mouse handler, so names and arguments can run script, witness given; the XML declaration is misplaced once a keep-alive newline was written (`C78_script_violated`)
* **C88** CollectSpans returns the spans of its work and leaves nothing behind: false as stated: CollectSpans never cancels its ObserveSpans, so every call leaves one more collector registered with the trace (violated); proved: the result is right, and the collector left behind is inert (`C88_detached_violated`)
* **C89** Naming an error never blocks a function's statistics: false as stated: end() calls the handlers with the mutex held and without defer, so a panicking handler leaves it locked for ever and a handler reading the Func's statistics waits for itself (violated); proved for handlers that return and do not use the Func (`C89_panicking_handler_violated`, `C89_reading_handler_violated`)
* **C91** Statistics as text can be read back: false as stated: newlines in names are not escaped, so one statistic can be presented as two (violated); proved for names without newlines; negative zero is not in the model (`C91_newline_violated`)
* **C92** HTTP clients get the document or an error status: false as stated: the error of the presenter is ignored, so a failed document (statistics with NaN as JSON) is answered with status 200 and an empty or truncated body, and the index page links to /stats/svg, which is answered with 404 (violated); proved for presenters that succeed and the other links (`C92_failure_violated`, `C92_index_violated`)
* **C94** Process statistics are those of the kernel: false as stated: a process whose name has white space in it gets no proc_stat statistics at all, because Sscanf reads the name up to the space (violated); proved for other names, and that never a wrong value is reported for names of at most 64 characters (`C94_name_violated`)
* **C96** The colour of a bar tells how the span ended: false as stated: errors whose WrappedErr methods form a circle are unwrapped for ever and the picture is never drawn (violated), and a cancelled context wrapped by fmt.Errorf's %w is shown as any other error (violated); proved for chains of WrappedErr that end (`C96_cycle_violated`, `C96_standard_wrapping_violated`)
* **C97** Listing spans while they come and go: false as stated: AllSpans misses a span whose parent finishes after the orphans were read, and visits a span twice whose parent finishes between the readings of roots and orphans (violated); proved for spans whose ancestors, up to one whose parent had finished before, also run during the whole call; RootSpans proved (`C97_missed_violated`, `C97_twice_violated`)
* **C98** Function reports while calls come and go: false in one part: a report that reads both numbers while a start has added to current and not yet raised highwater has current 1 and highwater 0 (violated); current at most highwater is proved for reports during which no start is in progress; the rest is proved in full (`C98_highwater_violated`)
* **C99** A traced handler: false in six parts: a callback that panics while someone is waiting at /trace/remote leaves a span that never finishes; values that span observers add to the context do not reach the handler, which gets the span itself as its context; the handler's writer cannot be hijacked even if the given one can; the status code is not recorded if the handler panics; with someone waiting at /trace/remote the callback is called twice for one trace, and it is called for traces that are not sampled; panic(nil) is swallowed in modules of before Go 1.21 (all violated); the rest is proved in full (`C99_panic_nil_violated`, `C99_panic_code_violated`, `C99_observer_value_violated`, `C99_hijack_violated`, `C99_callback_violated`, `C99_callback_panic_violated`)
* **C100** A traced request: false for a request with a nil Header in a sampled trace, which panics before it is sent, and for panic(nil) of the client in modules of before Go 1.21 (both violated); C100_served has the ids not negative (see C50) and the parent that the client's headers name (see C69) (`C100_nil_header_violated`, `C100_panic_nil_violated`)
* **C101** Tag sets shared by goroutines: false: String fills its cache without synchronisation; if the length of the cached string is written before its pointer, a concurrent call returns a string with a length and no bytes (violated, for every set with a tag). Proved: every call after one that returned the right string is right; all are right if the first call returned before the others were made; all are right where the pointer is always written first. Word accesses are taken to be sequentially consistent (`C101_violated`)
* **C103** A DiffMeter reports a difference there was: false of the code: DiffMeter.Stats locks one meter after the other (meter.go:177-178), so the difference may be one there never was: C103_violated. Proved: what holds of every report, and the claim for reports during which one of the two meters is left alone (`C103_violated`)
* **C104** A remote trace query never blocks the program: false of the code: present/path.go:239-246 calls the callback stored in the trace with traceMtx held, and every matching span locks traceMtx when it starts: C104_violated. Proved: the claim for callbacks that start only spans that do not match, and for spans that do not match. Callbacks are sequences of span starts; panics in them are not modelled (`C104_violated`)
* **C105** Asking a value for a quantile never blocks it: false of the code: val.go:63-68 unlocks without defer, and intdist.go:148-151 indexes with int(NaN): C105_nan_violated (amd64, where that is the smallest integer), and C105_panic_violated: after any panic no call returns. Proved: no panic and every call can return when every quantile is a float64 number or NaN converts to zero. (`C105_panic_violated`, `C105_nan_violated`)
* **C106** Concurrent reports of the runtime statistics: false of the code: environment/runtime.go:31-53 shares durDist between reports without a lock: C106_count_violated (Count read once by the compiler: a pause is lost) and C106_rmin_violated (read twice: an empty slot is counted). Proved for reports that do not overlap. Accesses are atomic and seen in one order; durDist.Stats is one step (`C106_count_violated`, `C106_rmin_violated`)
* **C107** Functions that end the goroutine: false of the code: ctx.go:114 tells a panic by recover, which gives nil during runtime.Goexit: C107_success_violated. Proved: the Goexit goes on, all spans finish, no orphans, current 0, span counts 0. panic(nil) under its old meaning excluded as in C64 (`C107_success_violated`)
* **C108** What environment.Register adds: false of the code: environment/env.go:25-31 documents the scope env but uses registry.Package(), the import path (C108_env_violated), and nothing keeps Register from attaching all again (C108_twice_violated). Proved: what a report contains after any calls. Chained sources only; one goroutine (`C108_env_violated`, `C108_twice_violated`)
* **C116** Durations are those of the clock: false on Windows: timer.go:65 and span.go:65 take the end from time.Since, Go's own clock, and the start from monotime.Now, the performance counter, so a timer can say that less than nothing has passed (C116_windows_violated). Proved: everything elsewhere; on Windows the clauses about recorded durations until the overflow of C61, and that timers and spans are off by at most twice what the clocks are off. Times have their monotonic reading; the wall clock is not in the model (`C116_windows_violated`)
* **C117** No trace escapes ObserveAllTraces: false of the code: a trace whose first span is being started during the call can look for watchers before the callback is published and be listed after the root spans were copied; the collector is then never attached (C117_starting_violated). A span that runs throughout the call is missed if an ancestor is half way through its exit (C117_running_violated, the gap of C25). Proved: traces that begin after the callback is published, and spans that run throughout the call with no ancestor half way through its start or exit at the moment the orphans are copied (`C117_starting_violated`, `C117_running_violated`)
* **C118** A name clash is a panic and nothing worse: false of the code: the message is made with %#v from the source, without its lock. If the source is a Func and a call of it ends with an error meanwhile, Go's runtime ends the whole program (concurrent map iteration and map write), which no recover stops (C118_crash_violated). If it is a StructVal being observed meanwhile, the data of one value is formatted as if of the type of another (C118_torn_violated). And if a Task finds its name taken, each of its later calls by a function that has a span adds one to Trace.Spans for good (C118_task_violated). Proved: these are the only moments in which it happens. The other kinds of sources hold only numbers, which a race can make inconsistent but not more; they are not modelled here (`C118_crash_violated`, `C118_torn_violated`, `C118_task_violated`)
* **C119** Observers that panic upset nothing else: false of the code in three ways: a Start that panics leaves its span listed for ever, with Current and Trace.Spans one too high, and observers told of a start without end (C119_start_violated); a Finish that panics keeps the end from the observers after it and replaces the panic of the function (C119_finish_violated); a Task whose name clashed at its first call adds one to Trace.Spans each time it is called again (C119_broken_violated). C119_calls says exactly what is left in every case; with no Start that panics, nothing is (C119_finish_partial), and observers are told of everything if no other Finish panics (C119_told_partial) (`C119_start_violated`, `C119_finish_violated`, `C119_broken_violated`)
* **C120** Calls that have ended leave nothing behind: proved, for functions that are not reset and for fewer than 2^63 calls, but for the last part: a span points to its parent, so that one running call keeps all its finished ancestors, and there is no bound on how many they are (C120_ancestors_violated). Go's maps do not give back memory when they shrink; that is not modelled (`C120_ancestors_violated`)
* **C121** A span shows the arguments that were given to the call: proved for arguments that are not written to after they have been given; strings are shown as given in any case. False of the code for others: a span keeps references, and Args formats what they refer to when it is called, without any lock. So a slice that the function changes is shown as it is later (C121_later_violated) or as it never was (C121_torn_violated), and a listing that meets an assignment to a map ends the program (C121_map_violated) (`C121_later_violated`, `C121_torn_violated`, `C121_map_violated`)
* **C122** Deltas of growing totals are what they have grown by: proved for reports that do not overlap; false of the code otherwise: a total is read under one lock and exchanged under another, so that a report that reads first and exchanges last has a negative delta (C122_negative_violated). In any schedule a delta is the difference of two totals there were, and negative only if another report read during this one. One series; totals below 2^52 (`C122_negative_violated`)
* **C123** Reports of a registry at rest say the same: proved but for the order within a scope: the sources of a scope and the errors of a function are visited in Go's order of maps, so that two reports, and their texts, differ in order (C123_order_violated). Without transformers; meters and runtime sources, whose rates depend on the time, are not at rest (`C123_order_violated`)
* **C124** Text lists can be read in only one way: proved when no name, argument, annotation or name of an error has a line break, even if it looks like a line of the list. It fails otherwise: nothing is escaped in text, so the value of an annotation (often data from outside) with a line break writes a span that does not exist, and a name a function (C124_text_violated, C124_funcs_violated). A call is read as a whole: where a name with parentheses ends and whether a comma belongs to an argument is C110's concern. The hypotheses that times have no comma, parenthesis or line break and that the lines of distributions are indented are facts about time.Duration's String and formatDist (funcs.go:25-34) (`C124_text_violated`, `C124_funcs_violated`)
* **C125** Ending a call again changes nothing: proved for the lists of spans, although a further call can enter in the orphans a span that is just being started. False for the numbers, because only Timer's Stop guards against being called again: every further call lowers Trace.Spans by one (C125_span_count_partial says exactly that), so it can be 0 while a span runs (C125_span_count_violated), and Current by one, and counts as one more success or failure, so Current can be -1 (C125_current_violated) and later overlapping calls are missing in Highwater (C125_highwater_violated). Further calls start after the first has returned (`C125_span_count_violated`, `C125_current_violated`, `C125_highwater_violated`)
* **C127** No data races, apart from four places: false in four places: Func() of a task made by Scope.Task reads the function that the first call sets; String of a TagSet stores its cached text without a lock; so do two reports of environment.Runtime with its distribution; and the message that a name is taken reads the source without its lock. Apart from these there is no race, for all programs. The functions are modelled by their lock operations and accesses, values left out, so every test may turn out either way; user code called with a lock held (a ping, an error name handler) is taken not to call the library (`C127_task_violated`, `C127_tags_violated`, `C127_runtime_violated`, `C127_clash_violated`)
* **C129** The functions of CollectSpans: false in two parts: the tags of the function are dropped, so that functions that differ by their tags only share one (C129_own_violated; a tag called name even changes the name it goes by, C129_name), and a function that the program itself calls f-TRACED is the one of f (C129_apart_violated). Exactly who shares is proved for all functions (C129_shared), and one each for functions without tags (`C129_own_violated`, `C129_apart_violated`)
* **C130** Different sources report different series: false in six parts: the same tags in another order make another source that reports under the same series, which the documentation of FuncNamed hints at (C130_order_violated; Collect then loses one of the two values, C130_lost_violated); a tag called scope is overwritten by the scope (C130_scope_violated); a tag called name takes the place of a function's name (C130_name_violated); a tag of a function called kind is overwritten in its times, and one called error_name in its counts of errors, so that functions that differ by it only share these (C130_kind_violated, C130_error_violated); and other sources may go by function (C130_function_violated). Proved: apart from these, sources called function_times and tags given twice, for all sources; and for scopes of different names without exception. Gauges are included; chained sources report what they like (`C130_order_violated`, `C130_lost_violated`, `C130_scope_violated`, `C130_name_violated`, `C130_kind_violated`, `C130_error_violated`, `C130_function_violated`)

Further findings that are not properties of their own: `NewId` derives its increment from the same eight random bytes as its start
(C37); `CollectSpans` never removes its observer from the trace; the registry's `/stats/svg` and similar links in the index are not routes.

## What is modelled and what is not

| file in /repo | modelled in `Model/` | not modelled |
|---------------|----------------------|--------------|
| callers.go | Callers | `runtime.Callers` itself (a parameter) |
| cas_safe.go, cas_unsafe.go, collect/cas_* | CasSafe (the mutex variant); otherwise as one indivisible compare-and-swap, load or store, in Observers, Watchers, FuncSet, Collector | the `unsafe.Pointer` casts |
| collect/collect.go | Collector, CollectorSpans, FindSpan | `StartTimeSorter` (contract of `sort.Sort`) |
| collect/ctx.go, collect/trace.go | AllTraces, Attach, Collector, FindSpan, WatchSpans, CollectSpans | – |
| counter.go | Counter, CounterConc | – |
| ctx.go | Ctx, Tasks, Calls, ObsPanic, Observers, Spans, TaskFunc, Whole | – |
| dist.go, intdist.go, durdist.go, floatdist.go, distgen.go.m4 | Dist, Units | – |
| environment/runtime.go | Runtime (garbage-collection logic), RuntimeConc | the other numbers of `runtime.MemStats` (passed through StatSourceFromStruct, see Struct) |
| environment/os*.go, proc*.go, process*.go, rusage.go, env.go | ProcFs, ProcStats, Rusage, Env | the operating system's answers (parameters), hash/crc32 (parameter), Windows and Darwin variants |
| error_names*.go | ErrorNames, ErrorBuilds | – |
| func.go, funcset.go, funcstats.go | FuncSet, FuncStats, FuncConc, Highwater, TaskFunc, Present, EndLock | – |
| http/*.go | Headers, Wrap, TraceHttp, Tasks | `net/http` itself; `Client` as an interface |
| id.go, rng.go | Id, Rng | `crypto/rand` (a parameter) |
| meter.go | Meter, MeterConc, DiffConc, Ticker | – |
| monotime/*.go | Monotime (Windows), Clock | the wall clock |
| present/dot.go, spans.go, funcs.go | Dot, Present | `fmt` verbs are functions of their arguments |
| present/json.go, stats.go | ListWriter, JsonDocs and StatsJson (with Go/JsonEnc), StatsText | the digits that strconv chooses for a float64 (parameter with its contract) |
| present/path.go, http.go, errs.go | Path, Buffered, Remote, RemoteCb, Http | `net/http`, `regexp` (parameters) |
| present/trace.go | Svg, SvgText, TraceQuery, Colour | template texts other than those cited |
| present/utils.go | KeepAlive | – |
| registry.go, scope.go | RegScopes, Report, Scope, Clash, ObsPanic, Watchers, Spans, Listing, SpanBag, Transform, Locks | – |
| span.go, spanbag.go, spinlock.go, trace.go | Spans, SpanBag, SpinLock, Annotations, Args, TraceVals, Observers, Locks | `fmt` and `time` texts of other arguments (parameters) |
| stats.go, tags.go, transform.go, struct.go | Basic, Tags, Series, TagsConc, Transform, Delta, Struct, Units | reflection itself (Struct models the kinds of values it distinguishes) |
| task.go, timer.go, val.go | TaskFunc, Val, QuantileLock, BoolVal, StructVal, Clock | – |
| examples/, internal/, *_test.go | – | not part of the library |

## Axioms of each theorem

As printed by `lean/Verif/Audit.lean`, which is part of the build. P = `propext`, C = `Classical.choice`, Q = `Quot.sound`; there are no others.

* P: `C18_start_returns`, `C19_nonneg_violated`, `C28_task_context`, `C28_reset`, `C30_nested_violated`, `C40_injective_violated`, `C43_chain_accumulates`, `C46_stream`, `C46_passes_through`, `C47_blank_violated`, `C48_newest_wins`, `C49_package_dot_violated`, `C61_overflow_violated`, `C63_func_task`, `C63_users_not_dispatched`, `C63_no_side_effects`, `C64_panic_nil_violated`, `C73_walk`, `C76_error_drops_buffer`, `C76_listing`, `C92_error_text`, `C92_index_violated`, `C94_rusage`, `C96_cycle_violated`, `C96_standard_wrapping_violated`, `C107_success_violated`, `C116_log`, `C118_torn_violated`, `C119_start_violated`, `C119_finish_violated`, `C119_broken_violated`, `C127_task_violated`, `C127_tags_violated`, `C127_runtime_violated`, `C127_clash_violated`, `C130_lost_violated`
* P,C,Q: `C04_dist_aggregates`, `C05_reservoir_real`, `C06_quantile_bounds_partial`, `C06_quantile_monotone_partial`, `C06_stats_report_partial`, `C06_quantile_bounds_violated`, `C07_query_safe_and_stable`, `C07_query_index_in_range`, `C08_reset_aggregates`, `C08_quantiles_depend_only_on_values_partial`, `C08_reset_violated`, `C09_slot_choice`, `C09_slot_uniform`, `C09_replacement_rate`, `C10_never_dies`, `C11_seed_live_partial`, `C11_seed1024_live_partial`, `C12_total_since_new`, `C12_total_since_reset`, `C12_total_since_setTotal`, `C12_tick_keeps_total`, `C13_meter_report`, `C13_idle_tick`, `C13_rate_nonneg`, `C14_diff_meter`, `C15_timer_once`, `C16_report_bounds`, `C16_final_counts`, `C16_stored_once`, `C16_only_observe_stores`, `C17_accounting`, `C17_report`, `C17_times_report`, `C17_series_once`, `C18_current_count`, `C18_current_in_progress`, `C18_highwater_le`, `C18_started_le_highwater`, `C18_highwater_exact`, `C18_highwater_monotone`, `C19_nonneg_partial`, `C21_bag_iterate`, `C21_children`, `C22_root_spans`, `C23_all_spans`, `C23_all_spans_single`, `C24_finished_never_listed`, `C25_always_visible_partial`, `C25_always_visible_violated`, `C26_orphaned_iff_parent_finished`, `C26_orphaned_only_if_parent_exiting`, `C26_orphaned_stable`, `C27_span_count`, `C27_span_count_quiet`, `C31_observers`, `C32_watchers`, `C33_observe_all_traces`, `C34_life_cycle`, `C35_recorded`, `C35_spans`, `C36_spans_terminates_partial`, `C37_nonneg`, `C37_distinct_partial`, `C37_few_bad_seeds`, `C37_at_most_twice`, `C37_five_in_a_row`, `C38_set`, `C38_len`, `C38_immutable`, `C39_series_name`, `C39_deterministic`, `C40_injective_partial`, `C40_collect_partial`, `C41_history`, `C41_same_object`, `C41_constructed_once`, `C41_panic_keeps_source`, `C41_kind_fixed`, `C41_exclusive`, `C41_no_deadlock`, `C42_distinct_partial`, `C42_func_apart_partial`, `C43_gauge_replaces`, `C43_gauge_panics`, `C43_gauge_never_steals`, `C43_stats`, `C44_history`, `C44_scope_named`, `C44_scopes`, `C45_unaffected`, `C45_with`, `C45_new`, `C45_compose`, `C46_float_exact`, `C46_concurrent_telescopes`, `C47_reports_partial`, `C47_panics_iff`, `C48_precedence`, `C48_one_name`, `C48_rejecting_handlers`, `C48_no_panic`, `C48_naming_never_waits`, `C48_builds`, `C50_round_trip_partial`, `C50_negative_violated`, `C51_accepted`, `C51_rejected`, `C51_all_or_none`, `C52_imported`, `C52_round_trip_partial`, `C55_list_writer`, `C55_success`, `C55_succeeds`, `C56_stats_json_partial`, `C56_nan_violated`, `C56_unused_counter_violated`, `C56_marshal`, `C57_answer`, `C57_bad_request_iff`, `C58_no_ping_after_stop`, `C58_stop_result`, `C58_after_failure`, `C58_cancels`, `C58_cancelled_only_if_failed`, `C58_no_panic`, `C58_progress`, `C58_returns`, `C59_bars_partial`, `C60_exact`, `C60_report`, `C60_grows_partial`, `C60_same_violated`, `C61_exact_partial`, `C61_monotone_partial`, `C62_mutual_exclusion`, `C62_free_can_be_taken`, `C62_progress`, `C63_same_func`, `C63_looked_up_once`, `C63_after_run_partial`, `C63_fresh_violated`, `C63_failed_lookup`, `C64_accounting_partial`, `C65_locks_no_deadlock`, `C65_span_progress`, `C65_span_completion`, `C66_full_average_bounds`, `C66_reservoir_average_partial`, `C66_reservoir_average_error_partial`, `C66_report_partial`, `C66_reservoir_average_violated`, `C66_float_average_partial`, `C66_float_reservoir_average_partial`, `C66_float_average_violated`, `C66_float_reservoir_average_violated`, `C67_float_dist_partial`, `C67_quantiles_partial`, `C67_report`, `C67_nan_violated`, `C67_large_violated`, `C68_val_concurrent`, `C68_float_val_concurrent`, `C69_linked_partial`, `C69_linked_violated`, `C69_chain`, `C70_rows_partial`, `C70_rows_violated`, `C71_get`, `C71_calls`, `C71_get_all`, `C71_panic_blocks`, `C71_panics_only_unhashable`, `C71_progress_partial`, `C71_blocks_violated`, `C72_calls`, `C72_snapshot`, `C72_all_kept`, `C73_text`, `C73_dot`, `C73_unambiguous`, `C74_dot`, `C74_text`, `C75_spans_text`, `C75_funcs_dot`, `C75_funcs_text_partial`, `C76_complete`, `C76_prefix`, `C76_succeeds`, `C77_lag_partial`, `C78_no_markup`, `C78_lossless`, `C78_text`, `C78_script_partial`, `C78_script_violated`, `C78_drawn`, `C78_drawn_script_partial`, `C79_copy_same`, `C79_copy_continues`, `C80_int_exact`, `C80_seconds`, `C80_counter`, `C80_report`, `C81_one_goroutine`, `C81_round`, `C81_at_most_once`, `C81_progress`, `C82_meter_concurrent`, `C82_no_mark_lost`, `C84_latest`, `C85_returns_only`, `C85_asked`, `C85_asked_no_more`, `C85_returns`, `C86_no_crash`, `C86_one_trace`, `C86_trace`, `C86_matcher`, `C86_error`, `C86_returns`, `C86_wakes`, `C86_panic`, `C87_result`, `C87_error`, `C87_detached`, `C87_returns`, `C88_result`, `C88_inert_partial`, `C88_detached_violated`, `C89_panicking_handler_violated`, `C89_reading_handler_violated`, `C89_returns_partial`, `C90_spans`, `C90_finished`, `C90_funcs`, `C90_after_newlines`, `C91_lines_partial`, `C91_recover_partial`, `C91_write_errors`, `C91_newline_violated`, `C92_bad_request`, `C92_not_found`, `C92_result_partial`, `C92_trace_partial`, `C92_index_partial`, `C93_no_interleaving`, `C93_output`, `C93_spans`, `C93_error`, `C93_no_document_after_failure`, `C93_gives_up`, `C94_no_panic`, `C94_stat_partial`, `C94_right_or_absent`, `C94_statm`, `C94_name_violated`, `C95_read_once`, `C95_reports`, `C95_same_checksum`, `C95_fds`, `C95_fds_error`, `C97_root_spans`, `C97_all_spans_alive`, `C97_all_spans_partial`, `C98_order`, `C98_report`, `C98_progress`, `C98_current`, `C98_highwater_partial`, `C98_highwater_violated`, `C99_span`, `C99_annotations`, `C99_told`, `C100_once_partial`, `C100_headers`, `C100_served`, `C101_later_partial`, `C101_first_alone_partial`, `C101_pointer_first_partial`, `C101_violated`, `C102_report`, `C102_names`, `C103_two_moments_partial`, `C103_one_moment_partial`, `C103_violated`, `C104_starts_return_partial`, `C105_no_panic_partial`, `C105_returns_partial`, `C105_panic_violated`, `C105_nan_violated`, `C106_one_at_a_time_partial`, `C106_count_violated`, `C106_rmin_violated`, `C107_finished_partial`, `C108_report_partial`, `C108_env_violated`, `C109_returned`, `C109_scopes`, `C109_parents`, `C109_watchers`, `C109_all_traces`, `C109_collector`, `C109_mutex`, `C109_boolval`, `C109_delta`, `C109_diffmeter`, `C109_tags`, `C109_annotations`, `C109_scope`, `C109_report`, `C109_task`, `C109_counters`, `C109_observers`, `C110_listing`, `C110_svg`, `C110_json`, `C110_injective`, `C110_one_line`, `C111_fair`, `C111_kept`, `C111_recent`, `C111_moving`, `C111_float`, `C112_query`, `C112_report`, `C112_few`, `C112_float`, `C113_full_average`, `C113_empty`, `C113_float_full_average`, `C113_float_reservoir_average`, `C113_report`, `C113_float_report`, `C114_document`, `C114_apart`, `C114_integers`, `C115_listed`, `C115_parents`, `C115_report`, `C115_current`, `C115_all_spans`, `C115_accounting`, `C115_progress`, `C116_exact_partial`, `C116_nested`, `C116_concurrent`, `C116_windows_recorded_partial`, `C116_windows_measured_partial`, `C117_present_partial`, `C117_future`, `C117_starting_violated`, `C117_running_violated`, `C118_crash_partial`, `C118_no_clash_partial`, `C118_result`, `C118_struct_partial`, `C119_calls`, `C119_finish_partial`, `C119_told_partial`, `C120_spans`, `C120_held`, `C120_current`, `C120_ancestors_violated`, `C121_args_partial`, `C121_same_partial`, `C121_dead_partial`, `C121_alone`, `C122_delta_partial`, `C122_alone_partial`, `C123_same`, `C123_lines`, `C123_order_partial`, `C123_order_violated`, `C124_text_partial`, `C124_funcs_partial`, `C125_as_once_partial`, `C125_root_spans_partial`, `C125_all_spans_partial`, `C125_finished_partial`, `C125_span_count_partial`, `C125_span_count_violated`, `C125_current_violated`, `C125_highwater_violated`, `C126_duration`, `C126_equal`, `C126_lines`, `C126_times`, `C126_funcs`, `C126_spans`, `C127_only_partial`, `C127_none`, `C128_progress`, `C128_circle`, `C129_shared`, `C129_one`, `C129_own_partial`, `C129_nested`, `C129_own_violated`, `C129_apart_violated`, `C130_same_partial`, `C130_distinct_partial`, `C130_gauge_partial`
* P,Q: `C01_counter_history`, `C01_counter_results`, `C02_counter_stats`, `C03_mutex_linearizable`, `C03_mutual_exclusion`, `C03_no_deadlock`, `C03_no_lost_update`, `C03_counter_no_lost_update`, `C10_step_injective`, `C10_int63_nonneg`, `C11_seeds_differ`, `C11_seed_zero_violated`, `C11_dead_sampler`, `C20_parents`, `C28_layers_do_not_accumulate`, `C28_nested`, `C29_task_child`, `C29_task_root`, `C29_reset_trace`, `C29_remote_trace`, `C29_reachable`, `C36_spans_terminates_violated`, `C37_distinct_violated`, `C42_distinct_violated`, `C42_func_prefix_violated`, `C43_every_call`, `C45_order`, `C45_pipeline`, `C45_transform_stat_source`, `C46_telescopes`, `C46_series_independent`, `C46_concurrent_outputs`, `C46_concurrent_exchange`, `C47_not_struct`, `C47_nil_ignored_violated`, `C47_names_partial`, `C49_func_name`, `C49_func_name_general`, `C49_package_name`, `C49_package_is_import_path_partial`, `C49_package_slash_violated`, `C49_package_injective`, `C50_sampling_only`, `C51_absent`, `C52_without_ids_violated`, `C53_recorded_partial`, `C53_last_code`, `C53_first_code`, `C53_twice_violated`, `C54_alphabet`, `C54_no_quote`, `C54_backslash`, `C54_lossless`, `C54_injective`, `C57_segments`, `C57_only_two`, `C59_lines_partial`, `C59_instant_violated`, `C59_long_violated`, `C59_zero_violated`, `C62_is_mutex`, `C69_unsampled`, `C74_total`, `C75_spans_dot`, `C75_funcs_text_violated`, `C76_failure_reported`, `C77_pings_violated`, `C78_declaration`, `C83_atomic`, `C83_one_winner`, `C86_panic_waits`, `C90_text`, `C92_failure_violated`, `C96_right`, `C96_chosen_partial`, `C97_missed_violated`, `C97_twice_violated`, `C99_handler`, `C99_end_partial`, `C99_callback_partial`, `C99_panic_nil_violated`, `C99_panic_code_violated`, `C99_observer_value_violated`, `C99_hijack_violated`, `C99_callback_violated`, `C99_callback_returns`, `C99_callback_panic_partial`, `C99_callback_panic_violated`, `C100_nil_header_violated`, `C100_panic_nil_violated`, `C104_others_never_wait_partial`, `C104_violated`, `C108_twice_violated`, `C116_windows_violated`, `C117_published`, `C117_stays`, `C118_task_partial`, `C118_task_violated`, `C121_later_violated`, `C121_torn_violated`, `C121_map_violated`, `C124_text_violated`, `C124_funcs_violated`, `C129_name`, `C130_scopes`, `C130_order_violated`, `C130_scope_violated`, `C130_name_violated`, `C130_kind_violated`, `C130_error_violated`, `C130_function_violated`
* none: `C30_panic_partial`, `C30_return`, `C30_panic_nil_violated`, `C30_nested_partial`, `C49_inlined_unknown`, `C53_flush_violated`, `C53_informational_violated`, `C63_not_a_task`, `C89_panicking_handler_happens`, `C96_one_colour`, `C118_crash_violated`, `C122_negative_violated`
