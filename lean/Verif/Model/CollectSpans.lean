import Verif.Model.CollectorSpans

/-!
# collect/ctx.go:48-70: `CollectSpans`

A collector (Model/Collector) with no matcher, and the goroutine of `CollectSpans`, which is goroutine 0; while `work` runs, it may start and finish
other spans on goroutine 0 and on any other goroutine.  `x` is the span that `CollectSpans` starts around `work` (collect/ctx.go:65).  When there is no
span in the context `CollectSpans` just calls `work`; that is left out.  `obs` are the observers registered with the trace, in order; that every span that
starts or finishes on the trace calls them is C31, and here any span may call the collector at any time.
-/

namespace Monkit.CollectSpans
open Go

/-- How `CollectSpans` ends (collect/ctx.go:64-70). -/
inductive Res where
  | spans (out : List Nat)
  /-- the panic of `work` goes on -/
  | panic
  deriving DecidableEq

/-- Where `CollectSpans` is (collect/ctx.go:59-70). -/
inductive Main where
  /-- about to register the collector with the trace (collect/ctx.go:61) -/
  | attach
  /-- about to call `ForceStart` (collect/ctx.go:66), in it -/
  | force
  | forcing
  /-- in `work` (collect/ctx.go:67) -/
  | work
  /-- finishing the span, `work` having panicked or not (collect/ctx.go:65) -/
  | finishing (panicked : Bool)
  /-- about to call `collector.Spans` (collect/ctx.go:69) -/
  | spans
  /-- about to call the deferred `collector.Stop` (collect/ctx.go:60), in it -/
  | stop (r : Res)
  | stopping (r : Res)
  | out (r : Res)
  | returned
  deriving DecidableEq

/-- The collector, the observers of the trace and the goroutine (collect/ctx.go:48-70). -/
structure State where
  c : Collector.State
  obs : List Nat
  main : Main

/-- What can be seen (collect/ctx.go:48-70). -/
inductive Ev where
  | coll (e : Collector.Ev)
  /-- `work` panics -/
  | panics
  | ret (r : Res)
  deriving DecidableEq

/-- The events of the collector that are not those of `CollectSpans` itself: nobody else finishes its span or stops the collector (collect/collect.go:81-126). -/
def collOwn (x : Nat) : Collector.Ev → Bool
  | .stopCall _ | .stopRet _ => false
  | .finishCall _ y | .finishRet _ y => y != x
  | _ => true

/-- One step; the collector is number `me` (collect/ctx.go:48-70, collect/collect.go:81-126). -/
inductive Step (traceOf : Nat → Nat) (idOf : Nat → Int) (parentOf : Nat → Option Int) (me x : Nat) : State → Option Ev → State → Prop where
  /-- spans start and finish; the matcher always says no (collect/collect.go:61-63) and nobody else calls `ForceStart` -/
  | coll (s : State) (e : Option Collector.Ev) (c' : Collector.State) (st : Collector.Step traceOf s.c e c') (own : ∀ v, e = some v → collOwn x v = true)
      (idle : s.main ≠ .work → s.c.pc 0 = .idle → c'.pc 0 = .idle) (noForce : ∀ t y, s.c.pc t = .idle ∨ s.c.pc t = .smatch y → c'.pc t ≠ .scas y) :
      Step traceOf idOf parentOf me x s (e.map .coll) { s with c := c' }
  /-- collect/ctx.go:61 -/
  | attach (s : State) (h : s.main = .attach) : Step traceOf idOf parentOf me x s none { s with obs := s.obs ++ [me], main := .force }
  /-- collect/ctx.go:66 -/
  | force (s : State) (h : s.main = .force) (h' : s.c.pc 0 = .idle) :
      Step traceOf idOf parentOf me x s none { s with c := { s.c with pc := upd s.c.pc 0 (.scas x) }, main := .forcing }
  | forced (s : State) (h : s.main = .forcing) (h' : s.c.pc 0 = .idle) : Step traceOf idOf parentOf me x s none { s with main := .work }
  /-- collect/ctx.go:65, 67: `work` has returned -/
  | finish (s : State) (c' : Collector.State) (st : Collector.Step traceOf s.c (some (.finishCall 0 x)) c') (h : s.main = .work) :
      Step traceOf idOf parentOf me x s (some (.coll (.finishCall 0 x))) { s with c := c', main := .finishing false }
  | panics (s : State) (h : s.main = .work) (h' : s.c.pc 0 = .idle) :
      Step traceOf idOf parentOf me x s (some .panics) { s with main := .finishing true }
  | finishP (s : State) (c' : Collector.State) (st : Collector.Step traceOf s.c (some (.finishCall 0 x)) c') (h : s.main = .finishing true) :
      Step traceOf idOf parentOf me x s (some (.coll (.finishCall 0 x))) { s with c := c' }
  | finished (s : State) (p : Bool) (c' : Collector.State) (st : Collector.Step traceOf s.c (some (.finishRet 0 x)) c') (h : s.main = .finishing p) :
      Step traceOf idOf parentOf me x s (some (.coll (.finishRet 0 x))) { s with c := c', main := if p then .stop .panic else .spans }
  /-- collect/ctx.go:69: reading under the lock -/
  | spans (s : State) (out : List Nat) (h : s.main = .spans) (free : s.c.mtx = none) (r : Collector.SpansReturns idOf parentOf s.c out) :
      Step traceOf idOf parentOf me x s none { s with main := .stop (.spans out) }
  /-- collect/ctx.go:60 -/
  | stop (s : State) (r : Res) (c' : Collector.State) (st : Collector.Step traceOf s.c (some (.stopCall 0)) c') (h : s.main = .stop r) :
      Step traceOf idOf parentOf me x s (some (.coll (.stopCall 0))) { s with c := c', main := .stopping r }
  | stopped (s : State) (r : Res) (c' : Collector.State) (st : Collector.Step traceOf s.c (some (.stopRet 0)) c') (h : s.main = .stopping r) :
      Step traceOf idOf parentOf me x s (some (.coll (.stopRet 0))) { s with c := c', main := .out r }
  | ret (s : State) (r : Res) (h : s.main = .out r) : Step traceOf idOf parentOf me x s (some (.ret r)) { s with main := .returned }

/-- collect/ctx.go:59-61: a new collector; the trace has the observers `l`. -/
def init (l : List Nat) : State := ⟨Collector.init, l, .attach⟩

end Monkit.CollectSpans
