import Verif.Go.Race

/-!
# Which variables the functions of the library access, and with which locks

Every function that shares variables between goroutines, as a sequence of lock operations and accesses (`Go/Race.lean`).  Values are left
out.  Accesses to a map or slice count as accesses to the field that holds it; fields that are always accessed together are one variable
(the fields of a distribution, the slices of a meter).  Where a function calls back into code of the user it is cut in two, because it holds no
lock then: a goroutine may call other functions of the list in between.  Fields that are set by constructors only are left out, except where a
listing reads them (`spanConst`).  The cells of slices that only grow by `append` (annotations, meters of the ticker, handlers)
are read without lock below a length that was read under it; that this is safe is C72, C81 and C48, here only the slice itself is a variable.
The mutex and the spin lock are locks (C62).
-/

namespace Monkit.Races
open Go.Race

/-- The locks: counter.go:34, val.go:34, 81, 173, 214 (of a value with a distribution, of a StructVal), timer.go:40, meter.go:53, 184, funcset.go:31, ctx.go:29, trace.go:47,
registry.go:30-40, scope.go:28, transform.go:50, error_names.go:27, collect.go:51, collect/trace.go:26, present/utils.go:45, present/path.go:233, ctx.go:207, environment/process.go:51. -/
inductive K where
  | counter | val | structVal | timer | meter | ticker | funcSet | span | trace | watcher | scopes | spans | orphans | scope | delta | handlers
  | collector | allTraces | keepAlive | remote | taskOnce | crcOnce
  deriving DecidableEq

/-- The variables, named after their fields (counter.go:33-38, val.go:33-36, 80-83, 127-133, 172-176, 213-216, timer.go:39-42, 57-61, meter.go:52-57, 183-187, funcstats.go:34-46, funcset.go:26-33,
ctx.go:27-46, trace.go:38-49, ctx.go:332-337, registry.go:26-42, scope.go:25-31, transform.go:49-52, error_names.go:26-29, id.go:26-29, collect.go:42-54, 158-162,
collect/trace.go:26-29, present/utils.go:46-47, present/path.go:234, ctx.go:208, environment/process.go:50-54, environment/runtime.go:32, tags.go:34-37). -/
inductive V where
  | counterVal | counterLow | counterHigh | counterNonempty
  | valDist | boolTrues | boolFalses | boolRecent | structRecent
  | timerTimes | timerStopped
  | meterTotal | meterSlices | tickerStarted | tickerMeters
  | current | highwater | first | rest | errors | panics | successTimes | failureTimes
  | spanConst | done | orphaned | children | annotations
  | spanCount | observers | vals
  | traceWatcher | watcherCounter | traceWatchers | regScopes | regSpans | regOrphans
  | sources | chains
  | lastTotals | handlers | idCounter
  | check | root | spansByParent | finderDone
  | cancelers | stopping | existingTraces
  | pingErr | stopped | remoteTrace
  | taskFunc | crc | gcDist | tagAll | tagStr
  deriving DecidableEq

/-- What a function does with locks and variables (counter.go:45-128 and all that follows). -/
abbrev C := Cmd K V

/-- One thing after the other (plumbing for counter.go:45-128 and all that follows). -/
def run : List C → C
  | [] => .skip
  | [a] => a
  | a :: b :: c => .seq a (run (b :: c))

/-- `Lock`, what is done with the lock held, `Unlock` (counter.go:59-65 and others). -/
def crit (k : K) (r : Nat) (body : List C) : C := run (.lock k r :: body ++ [.unlock k r])

/-- An `if` without `else` (counter.go:47-52 and others). -/
def opt (body : List C) : C := .choice (run body) .skip

/-! ## Counters and values -/

/-- counter.go:45-54 `set` -/
def counterSet' : C := run [.write .counterVal 0, .read .counterNonempty 0, opt [.read .counterLow 0], opt [.write .counterLow 0],
  .read .counterNonempty 0, opt [.read .counterHigh 0], opt [.write .counterHigh 0], .write .counterNonempty 0]
/-- counter.go:59-65 `Set` -/
def counterSet : C := crit .counter 0 [.read .counterVal 0, counterSet']
/-- counter.go:68-79 `Inc` and `Dec` -/
def counterInc : C := crit .counter 0 [.read .counterVal 0, counterSet', .read .counterVal 0]
/-- counter.go:82-87 `High` -/
def counterHigh : C := crit .counter 0 [.read .counterHigh 0]
/-- counter.go:90-95 `Low` -/
def counterLow : C := crit .counter 0 [.read .counterLow 0]
/-- counter.go:98-103 `Current` -/
def counterCurrent : C := crit .counter 0 [.read .counterVal 0]
/-- counter.go:107-113 `Reset` -/
def counterReset : C := crit .counter 0 [.read .counterVal 0, .read .counterLow 0, .read .counterHigh 0, .write .counterVal 0, .write .counterLow 0,
  .write .counterHigh 0, .write .counterNonempty 0]
/-- counter.go:116-128 `Stats`; the callbacks are called with copies. -/
def counterStats : C := crit .counter 0 [.read .counterVal 0, .read .counterLow 0, .read .counterHigh 0, .read .counterNonempty 0]

/-- val.go:46-50, 93-97, 226-230 `Observe` -/
def valObserve : C := crit .val 0 [.read .valDist 0, .write .valDist 0]
/-- val.go:53-59, 100-106, 233-239 `Stats`; the copy belongs to the caller. -/
def valStats : C := crit .val 0 [.read .valDist 0]
/-- val.go:63-68, 110-115, 243-248 `Quantile`; `Query` sorts the reservoir. -/
def valQuantile : C := crit .val 0 [.read .valDist 0, .write .valDist 0]

/-- val.go:141-149 `BoolVal.Observe` -/
def boolObserve : C := .choice (run [.atomic .boolTrues 0, .atomic .boolRecent 0]) (run [.atomic .boolFalses 0, .atomic .boolRecent 0])
/-- val.go:152-160 `BoolVal.Stats` -/
def boolStats : C := run [.atomic .boolTrues 0, .atomic .boolFalses 0, .atomic .boolRecent 0]

/-- val.go:186-190 `StructVal.Observe` -/
def structObserve : C := crit .structVal 0 [.write .structRecent 0]
/-- val.go:193-201 `StructVal.Stats` -/
def structStats : C := crit .structVal 0 [.read .structRecent 0]

/-! ## Timers and meters -/

/-- timer.go:70-79 `Stop`; the flags of all running timers of a timer are one variable. -/
def timerStop : C := crit .timer 0 [.read .timerStopped 0, opt [.read .timerTimes 0, .write .timerTimes 0, .write .timerStopped 0]]
/-- timer.go:82-96 `Values` and `Stats` -/
def timerValues : C := crit .timer 0 [.read .timerTimes 0]

/-- meter.go:73-82 `Reset` -/
def meterReset : C := crit .meter 0 [.write .meterTotal 0, .loop (.write .meterSlices 0)]
/-- meter.go:85-89 `SetTotal` -/
def meterSetTotal : C := crit .meter 0 [.write .meterTotal 0]
/-- meter.go:92-103 `Mark` and `Mark64` -/
def meterMark : C := crit .meter 0 [.read .meterSlices 0, .write .meterSlices 0]
/-- meter.go:105-115 `tick` -/
def meterTick : C := crit .meter 0 [.read .meterSlices 0, opt [.read .meterTotal 0, .read .meterSlices 0, .write .meterTotal 0, .read .meterSlices 0,
  .write .meterSlices 0]]
/-- meter.go:117-153 `stats`, of which `Rate`, `Total` and `Stats` consist -/
def meterStats : C := crit .meter 0 [.read .meterSlices 0, .loop (.read .meterSlices 0), .read .meterTotal 0]
/-- meter.go:175-181 `DiffMeter.Stats` -/
def diffStats : C := run [meterStats, .pick 0, meterStats]
/-- meter.go:189-197 `register` -/
def tickerRegister (r : Nat) : C := crit .ticker r [.read .tickerStarted r, opt [.write .tickerStarted r], .read .tickerMeters r, .write .tickerMeters r]
/-- meter.go:199-210: one round of `run`; the meters are ticked one after the other. -/
def tickerRound : C := run [crit .ticker 1 [.read .tickerMeters 1], .loop (run [.pick 0, meterTick])]

/-! ## Functions -/

/-- id.go:45-48 `NewId` -/
def newId : C := .atomic .idCounter 9
/-- error_names.go:49-97 `getErrorName`; handlers are the user's. -/
def getErrorName : C := .atomic .handlers 9
/-- error_names.go:38-45 `AddErrorNameHandler` -/
def addHandler : C := crit .handlers 9 [.atomic .handlers 9, .atomic .handlers 9]

/-- funcset.go:41-57 `Add` -/
def funcSetAdd (r : Nat) : C := run [.atomic .first r, opt [.atomic .first r, opt [crit .funcSet r [.read .rest r, opt [.write .rest r], .write .rest r]]]]
/-- funcset.go:60-78 `Iterate`; the callback runs after it. -/
def funcSetIterate : C := run [crit .funcSet 0 [.read .rest 0, .loop (.read .rest 0)], .atomic .first 0]

/-- funcstats.go:76-86 `start` -/
def funcStart (r : Nat) : C := run [funcSetAdd r, .atomic .current r, .loop (run [.atomic .highwater r, .atomic .highwater r]), .atomic .highwater r]
/-- funcstats.go:88-105 `end` -/
def funcEnd (r : Nat) : C := run [.atomic .current r, .lock .funcSet r,
  .choice (run [.read .panics r, .write .panics r, .read .failureTimes r, .write .failureTimes r, .unlock .funcSet r])
    (.choice (run [.read .successTimes r, .write .successTimes r, .unlock .funcSet r])
      (run [.read .failureTimes r, .write .failureTimes r, getErrorName, .read .errors r, .write .errors r, .unlock .funcSet r]))]
/-- funcstats.go:65-74 `Reset` -/
def funcReset : C := run [.atomic .current 0, .atomic .highwater 0, crit .funcSet 0 [.read .errors 0, .write .errors 0, .write .panics 0, .write .successTimes 0,
  .write .failureTimes 0]]
/-- funcstats.go:109 `Current` -/
def funcCurrent : C := .atomic .current 0
/-- funcstats.go:112 `Highwater` -/
def funcHighwater : C := .atomic .highwater 0
/-- funcstats.go:115-120, 178-183 `Success` and `SuccessTimes` -/
def funcSuccess : C := crit .funcSet 0 [.read .successTimes 0]
/-- funcstats.go:123-128 `Panics` -/
def funcPanics : C := crit .funcSet 0 [.read .panics 0]
/-- funcstats.go:133-141 `Errors` -/
def funcErrors : C := crit .funcSet 0 [.read .errors 0, .loop (.read .errors 0)]
/-- funcstats.go:186-191 `FailureTimes` -/
def funcFailure : C := crit .funcSet 0 [.read .failureTimes 0]
/-- funcstats.go:148-175 `Stats` -/
def funcStats : C := run [funcCurrent, funcHighwater, crit .funcSet 0 [.read .panics 0, .read .errors 0, .loop (.read .errors 0), .read .successTimes 0, .read .failureTimes 0]]

/-! ## Spans.  Roles: 0 the span, 1 its parent or child, 2 its trace, 3 its function, 4 the registry. -/

/-- registry.go:164-168 `orphanedSpan` -/
def orphanedSpan : C := crit .orphans 4 [.write .regOrphans 4]
/-- registry.go:170-174 `orphanEnd` -/
def orphanEnd : C := crit .orphans 4 [.write .regOrphans 4]
/-- registry.go:152-156 `rootSpanStart` -/
def rootSpanStart : C := crit .spans 4 [.write .regSpans 4]
/-- registry.go:158-162 `rootSpanEnd` -/
def rootSpanEnd : C := crit .spans 4 [.write .regSpans 4]
/-- span.go:54-61 `orphan` -/
def orphan (r : Nat) : C := crit .span r [.read .done r, opt [.read .orphaned r, opt [.write .orphaned r, .read .spanConst r, orphanedSpan]]]
/-- span.go:38-46 `addChild` of the parent `p` -/
def addChild (p child : Nat) : C := run [crit .span p [.read .children p, .write .children p, .read .done p], opt [orphan child]]
/-- span.go:48-52 `removeChild` -/
def removeChild (p : Nat) : C := crit .span p [.read .children p, .write .children p]
/-- trace.go:56-65 `getObserver`; the lists of observers of a trace are one variable. -/
def getObserver : C := run [.atomic .observers 2, opt [.atomic .observers 2]]
/-- registry.go:99-104 `observeTrace`; the watcher runs after it. -/
def observeTrace : C := .atomic .traceWatcher 4

/-- ctx.go:59-111 `newSpan`, up to the call of the observers -/
def newSpan : C := run [.read .spanConst 1, opt [newId, observeTrace], getObserver, newId, .atomic .spanCount 2,
  .choice (run [funcStart 3, addChild 1 0]) (run [funcStart 3, rootSpanStart])]
/-- ctx.go:113-150 the function that ends a span, up to the call of the observers -/
def exit : C := run [.read .spanConst 0, funcEnd 3, crit .span 0 [.write .done 0, .read .orphaned 0, .read .children 0, .loop (.read .children 0)],
  .loop (run [.pick 1, orphan 1]), .pick 1,
  .choice (run [removeChild 1, opt [orphanEnd]]) rootSpanEnd, .atomic .spanCount 2, getObserver]
/-- ctx.go:339-355: the next observer in the list -/
def nextObserver : C := .atomic .observers 2
/-- funcstats.go:201-203 `Observe` -/
def observe : C := funcStart 3
/-- funcstats.go:204-216: the function it returns -/
def observeEnd : C := funcEnd 3

/-- span.go:88-103 `Children`, with the comparisons of registry.go:265-269; the callback runs after it. -/
def spanChildren : C := run [crit .span 0 [.read .children 0, .loop (.read .children 0)], .loop (run [.pick 1, .read .spanConst 1])]
/-- span.go:64-71, 107-124, 153-169: `Duration`, `Start`, `Args`, `Id`, `ParentId`, `Func` and `Trace` (arguments that the user changes are C121) -/
def spanRead : C := run [.read .spanConst 0, opt [.read .spanConst 1]]
/-- span.go:173-178 `Annotations` -/
def spanAnnotations : C := crit .span 0 [.read .annotations 0]
/-- span.go:181-185 `Annotate` -/
def spanAnnotate : C := crit .span 0 [.read .annotations 0, .write .annotations 0]
/-- span.go:188-193 `Orphaned` -/
def spanOrphaned : C := crit .span 0 [.read .orphaned 0]

/-! ## Traces -/

/-- trace.go:69-83 `ObserveSpans` and `ObserveSpansCtx` -/
def observeSpans : C := .loop (run [.atomic .observers 2, .atomic .observers 2])
/-- trace.go:85-106 `removeObserver` -/
def removeObserver : C := crit .trace 2 [.loop (.atomic .observers 2)]
/-- trace.go:112-120 `GetAll` -/
def traceGetAll : C := crit .trace 2 [.read .vals 2, .loop (.read .vals 2)]
/-- trace.go:123-130 `Get` -/
def traceGet : C := crit .trace 2 [.read .vals 2, opt [.read .vals 2]]
/-- trace.go:133-141 `Set` -/
def traceSet : C := crit .trace 2 [.read .vals 2, .write .vals 2]
/-- trace.go:147 `Spans` -/
def traceSpans : C := .atomic .spanCount 2

/-! ## Registries and scopes -/

/-- registry.go:87-97 `ScopeNamed` -/
def scopeNamed : C := crit .scopes 4 [.read .regScopes 4, opt [.write .regScopes 4]]
/-- registry.go:106-125 `updateWatcher` -/
def updateWatcher : C := run [.read .traceWatchers 4, .loop (.read .traceWatchers 4), .atomic .traceWatcher 4]
/-- registry.go:132-143 `ObserveTraces` -/
def observeTraces : C := crit .watcher 4 [.read .watcherCounter 4, .write .watcherCounter 4, .write .traceWatchers 4, updateWatcher]
/-- registry.go:144-149: the function it returns -/
def observeTracesCancel : C := crit .watcher 4 [.write .traceWatchers 4, updateWatcher]
/-- registry.go:178-196 `RootSpans`, with the comparisons of registry.go:265-269; the callback runs after it. -/
def rootSpans : C := run [crit .spans 4 [.read .regSpans 4, .loop (.read .regSpans 4)], crit .orphans 4 [.read .regOrphans 4, .loop (.read .regOrphans 4)],
  .loop (run [.pick 0, .read .spanConst 0])]
/-- registry.go:211-222 `Scopes` -/
def scopes : C := crit .scopes 4 [.read .regScopes 4, .loop (.read .regScopes 4)]
/-- scope.go:46-68 `newSource`, with the constructors that share variables (meter.go:60-68 `NewMeter`, func.go:42-50 `newFunc`) -/
def newSource : C := run [.rlock .scope 0, .read .sources 0, .runlock .scope 0,
  opt [.lock .scope 0, .read .sources 0, opt [.choice (.choice (tickerRegister 1) newId) .skip, .write .sources 0], .unlock .scope 0]]
/-- scope.go:108-120, 295-303 `Funcs` and `allNamedSources` -/
def scopeSources : C := crit .scope 0 [.read .sources 0, .loop (.read .sources 0)]
/-- scope.go:264-283 `Gauge`, if the name is not taken by another kind of source -/
def scopeGauge : C := crit .scope 0 [.read .sources 0, .write .sources 0]
/-- scope.go:287-293 `Chain` -/
def scopeChain : C := crit .scope 0 [.read .chains 0, .write .chains 0]
/-- scope.go:306-322 `Stats`, without the sources and callbacks -/
def scopeStats : C := run [scopeSources, crit .scope 0 [.read .chains 0]]
/-- tags.go:98-108 `String` -/
def tagString (r : Nat) : C := run [.read .tagStr r, opt [.loop (.read .tagAll r), .write .tagStr r], .read .tagStr r]
/-- transform.go:61-80: a call of the callback of a `DeltaTransformer`; 5 is the set of tags of the key (stats.go:46-62). -/
def deltaCall : C := opt [tagString 5, crit .delta 0 [.read .lastTotals 0, .write .lastTotals 0]]

/-! ## Collectors -/

/-- collect.go:81-83 `ForceStart` -/
def forceStart : C := .atomic .check 0
/-- collect.go:87-92 `Start` -/
def collectorStart : C := run [.atomic .check 0, opt [.atomic .check 0]]
/-- collect.go:122-126 `Stop` -/
def collectorStop : C := .atomic .check 0
/-- collect.go:96-119 `Finish`; 1 and 3 are spans. -/
def collectorFinish : C := run [.atomic .check 0, opt [.read .spanConst 1, .read .spanConst 3, .lock .collector 0, .read .root 0,
  .choice (.unlock .collector 0)
    (.choice (run [.write .root 0, .unlock .collector 0, collectorStop])
      (run [.read .spanConst 1, .read .spansByParent 0, .write .spansByParent 0, .unlock .collector 0]))]]
/-- collect.go:130-144 `Spans` -/
def collectorSpans : C := crit .collector 0 [.read .root 0, opt [.loop (run [.pick 1, .read .spanConst 1, .read .spansByParent 0])]]
/-- collect.go:171-178 `spanFinder.Start` -/
def finderStart : C := run [.atomic .finderDone 0, opt [.atomic .finderDone 0]]
/-- collect.go:184-188 `spanFinder.Stop` -/
def finderStop : C := .atomic .finderDone 0
/-- collect/trace.go:31-51: the functions that `ObserveAllTraces` has called for traces and for spans -/
def allTracesSeen : C := run [.read .spanConst 1, crit .allTraces 0 [.read .existingTraces 0, .read .stopping 0, opt [.write .existingTraces 0, observeSpans, .read .cancelers 0,
  .write .cancelers 0]]]
/-- collect/trace.go:53-61: the function that `ObserveAllTraces` returns -/
def allTracesCancel : C := run [observeTracesCancel, crit .allTraces 0 [.write .stopping 0, .read .cancelers 0, .loop (run [.pick 2, removeObserver])]]

/-! ## Others -/

/-- present/utils.go:60-71: a ping of `keepAlive`; the ping is the user's and runs with the lock held. -/
def ping : C := crit .keepAlive 0 [.read .stopped 0, opt [.read .pingErr 0], opt [.write .pingErr 0]]
/-- present/utils.go:82-85: `stop` -/
def keepAliveStop : C := crit .keepAlive 0 [.write .stopped 0, .read .pingErr 0]
/-- present/path.go:235-249: what a `/trace/remote` query does with a span that matches, without the callback of the trace (C104) -/
def remoteMatch : C := crit .remote 6 [.read .remoteTrace 6, opt [.write .remoteTrace 6, traceSet, traceGet]]
/-- present/path.go:257-269: its answer -/
def remoteAnswer : C := crit .remote 6 [.read .remoteTrace 6]
/-- environment/process.go:56-61 `processCRC` -/
def processCRC : C := run [.once .crcOnce 0 (.write .crc 0), .read .crc 0]
/-- environment/runtime.go:35-52: a report of `Runtime()` -/
def runtimeStats : C := run [opt [.read .gcDist 0, .write .gcDist 0], .read .gcDist 0, .write .gcDist 0]
/-- tags.go:40-95: all functions of a tag set that are not `String` -/
def tagRead : C := .loop (.read .tagAll 0)
/-- ctx.go:206-224: a call of a task made by `Scope.Task`, before `newSpan`; 0 is the scope, 8 the task. -/
def taskCall : C := run [.once .taskOnce 8 (run [newSource, .write .taskFunc 8]), .read .taskFunc 8]
/-- task.go:35-48 with ctx.go:212-214: `Func()` of such a task -/
def taskGetFunc : C := .read .taskFunc 8

/-- All of them (counter.go:45-128, val.go:46-248, timer.go:70-96, meter.go:73-210, funcstats.go:65-216, span.go:38-193, ctx.go:59-224, trace.go:56-147, registry.go:87-222,
scope.go:46-322, transform.go:61-80, error_names.go:38-97, collect/collect.go:81-192, collect/trace.go:25-62, present/utils.go:37-87, present/path.go:233-269, environment/process.go:56-61, tags.go:40-108). -/
def library : List C := [counterSet, counterInc, counterHigh, counterLow, counterCurrent, counterReset, counterStats,
  valObserve, valStats, valQuantile, boolObserve, boolStats, structObserve, structStats, timerStop, timerValues,
  meterReset, meterSetTotal, meterMark, meterTick, meterStats, diffStats, tickerRegister 1, tickerRound,
  newId, getErrorName, addHandler, funcSetIterate, funcReset, funcCurrent, funcHighwater, funcSuccess, funcPanics, funcErrors, funcFailure, funcStats,
  newSpan, exit, nextObserver, observe, observeEnd, spanChildren, spanRead, spanAnnotations, spanAnnotate, spanOrphaned,
  observeTrace, observeSpans, removeObserver, traceGetAll, traceGet, traceSet, traceSpans,
  scopeNamed, observeTraces, observeTracesCancel, rootSpans, scopes, newSource, scopeSources, scopeGauge, scopeChain, scopeStats, deltaCall,
  forceStart, collectorStart, collectorStop, collectorFinish, collectorSpans, finderStart, finderStop, allTracesSeen, allTracesCancel,
  ping, keepAliveStop, remoteMatch, remoteAnswer, processCRC, runtimeStats, tagRead, tagString 0, taskCall, taskGetFunc]

/-! ## The message about a name that is taken -/

/-- scope.go:99-103: the message that a name is taken is made with `%#v` from the source, without its lock; here, from a counter (0 is its scope, 1 the counter). -/
def clashCounter : C := run [newSource, .read .counterVal 1, .read .counterLow 1, .read .counterHigh 1, .read .counterNonempty 1]
/-- scope.go:127-131: the same from a `Func`, fields that are otherwise accessed atomically included. -/
def clashFunc : C := run [newSource, .read .current 1, .read .highwater 1, .read .first 1, .read .rest 1, .read .errors 1, .read .panics 1, .read .successTimes 1, .read .failureTimes 1]

end Monkit.Races
