import Verif.Model.AllTraces
import Verif.Model.CollectorSpans

/-!
# collect/ctx.go:25-47: `WatchForSpans`

A collector (Model/Collector), attached to all traces (Model/AllTraces), and the goroutine of `WatchForSpans`, which is goroutine 0 of both parts.
Nobody else has the collector, so nobody else stops it, forces it to start or cancels the observation.  `accepts y` is the matcher, a function of the span.
-/

namespace Monkit.WatchSpans
open Go

/-- What `WatchForSpans` returns (collect/ctx.go:40-46). -/
inductive Res where
  | spans (out : List Nat)
  /-- `ctx.Err()` -/
  | err
  deriving DecidableEq

/-- Where `WatchForSpans` is (collect/ctx.go:34-46). -/
inductive Main where
  /-- in the `select` (collect/ctx.go:40) -/
  | watch
  /-- about to call `collector.Spans` (collect/ctx.go:44) -/
  | spans
  /-- about to call the deferred `cancel` (collect/ctx.go:38), in it -/
  | cancel (r : Res)
  | cancelling (r : Res)
  /-- about to call the deferred `collector.Stop` (collect/ctx.go:35), in it -/
  | stop (r : Res)
  | stopping (r : Res)
  /-- about to return -/
  | out (r : Res)
  | returned
  deriving DecidableEq

/-- The collector, the observation, the context and the goroutine (collect/ctx.go:32-47). -/
structure State where
  c : Collector.State
  a : AllTraces.State
  ctxDone : Bool
  main : Main

/-- What can be seen (collect/ctx.go:32-47). -/
inductive Ev where
  | coll (e : Collector.Ev)
  | all (e : AllTraces.Ev)
  | ctxDone
  | ret (r : Res)
  deriving DecidableEq

/-- The events of the collector that are not those of `WatchForSpans`'s own call of `Stop` (collect/collect.go:81-117). -/
def collOwn : Collector.Ev → Bool
  | .stopCall _ | .stopRet _ => false
  | _ => true

/-- The events of the observation that are not those of `WatchForSpans`'s own call of `cancel` (collect/trace.go:31-51). -/
def allOwn : AllTraces.Ev → Bool
  | .cancelCall | .cancelReturn => false
  | _ => true

/-- One step (collect/ctx.go:34-46, collect/collect.go:81-126, collect/trace.go:31-61). -/
inductive Step (traceOf : Nat → Nat) (accepts : Nat → Bool) (idOf : Nat → Int) (parentOf : Nat → Option Int) : State → Option Ev → State → Prop where
  /-- spans start and finish; the matcher's answers are those of `accepts`, and nobody calls `ForceStart` -/
  | coll (s : State) (e : Option Collector.Ev) (c' : Collector.State) (st : Collector.Step traceOf s.c e c') (own : ∀ x, e = some x → collOwn x = true)
      (idle : s.c.pc 0 = .idle → c'.pc 0 = .idle) (noForce : ∀ t y, s.c.pc t = .idle → c'.pc t ≠ .scas y)
      (yes : ∀ t y, s.c.pc t = .smatch y → c'.pc t = .scas y → accepts y = true) :
      Step traceOf accepts idOf parentOf s (e.map .coll) { s with c := c' }
  /-- traces are announced and found -/
  | all (s : State) (e : Option AllTraces.Ev) (a' : AllTraces.State) (st : AllTraces.Step s.a e a') (own : ∀ x, e = some x → allOwn x = true)
      (idle : s.a.pc 0 = .idle → a'.pc 0 = .idle) : Step traceOf accepts idOf parentOf s (e.map .all) { s with a := a' }
  | ctxDone (s : State) : Step traceOf accepts idOf parentOf s (some .ctxDone) { s with ctxDone := true }
  /-- collect/ctx.go:41-42 -/
  | selectCtx (s : State) (h : s.main = .watch) (c : s.ctxDone = true) : Step traceOf accepts idOf parentOf s none { s with main := .cancel .err }
  /-- collect/ctx.go:43 -/
  | selectDone (s : State) (h : s.main = .watch) (c : 0 < s.c.closes) : Step traceOf accepts idOf parentOf s none { s with main := .spans }
  /-- collect/ctx.go:44: reading under the lock, of which nobody else sees anything -/
  | spans (s : State) (out : List Nat) (h : s.main = .spans) (free : s.c.mtx = none) (r : Collector.SpansReturns idOf parentOf s.c out) :
      Step traceOf accepts idOf parentOf s none { s with main := .cancel (.spans out) }
  /-- collect/ctx.go:38 -/
  | cancel (s : State) (r : Res) (a' : AllTraces.State) (st : AllTraces.Step s.a (some .cancelCall) a') (h : s.main = .cancel r) :
      Step traceOf accepts idOf parentOf s (some (.all .cancelCall)) { s with a := a', main := .cancelling r }
  | cancelled (s : State) (r : Res) (a' : AllTraces.State) (st : AllTraces.Step s.a (some .cancelReturn) a') (h : s.main = .cancelling r) :
      Step traceOf accepts idOf parentOf s (some (.all .cancelReturn)) { s with a := a', main := .stop r }
  /-- collect/ctx.go:35 -/
  | stop (s : State) (r : Res) (c' : Collector.State) (st : Collector.Step traceOf s.c (some (.stopCall 0)) c') (h : s.main = .stop r) :
      Step traceOf accepts idOf parentOf s (some (.coll (.stopCall 0))) { s with c := c', main := .stopping r }
  | stopped (s : State) (r : Res) (c' : Collector.State) (st : Collector.Step traceOf s.c (some (.stopRet 0)) c') (h : s.main = .stopping r) :
      Step traceOf accepts idOf parentOf s (some (.coll (.stopRet 0))) { s with c := c', main := .out r }
  | ret (s : State) (r : Res) (h : s.main = .out r) : Step traceOf accepts idOf parentOf s (some (.ret r)) { s with main := .returned }

/-- collect/ctx.go:34-40: at the `select`, with nothing announced and the scan of the root spans still to come: this allows more than the code. -/
def init : State := ⟨Collector.init, AllTraces.init, false, .watch⟩

end Monkit.WatchSpans
