import Verif.Model.FuncStats
import Verif.Go.Sys

/-!
# Monitored calls with observers that panic

`newSpan` and the exit function it returns (ctx.go:59-158), the chain of span observers (ctx.go:332-355, trace.go:56-65) and the announcement of new traces
(registry.go:99-104), for whole trees of monitored calls, `defer mon.Task()(&ctx)(&err)`, on one goroutine.  A Task is called before the `defer` takes place: if the call panics, nothing is
deferred, and the function ends with that panic.

Panic values are not nil and nobody calls `runtime.Goexit`; for these see Model/Calls.  The observers of a trace, `obs`, are fixed.  A function hands a callee its own context or
a context without a span; a parent is running, then, when its child starts.  A Task whose name clashed when it was called first has a nil `*Func` from
then on (ctx.go:207-217): `Call.broken`.
-/

namespace Monkit.ObsPanic
open Go
variable {E : Type}

/-- How a function ends: with an error (`none`: nil) or with a panic (ctx.go:113-157). -/
inductive Out (E : Type) where
  | ret (err : Option E)
  | panic (v : Nat)
  deriving DecidableEq

mutual
/-- A call of a monitored function `f`; with `(nil)` instead of `(&err)` if not `given`.  `watch` is the panic of the trace watchers, should a trace be announced,
`onStart o` and `onFinish o` are the panics of observer `o` when it is told (`none`: it returns); `dur` and `W` are the time taken and the reservoir window
(ctx.go:206-224). -/
inductive Call (E : Type) where
  | mk (f : Nat) (given : Bool) (dur W : Int64) (watch : Option Nat) (onStart onFinish : Nat → Option Nat) (body : Body E)
  /-- the Task has no Func; `v` is the runtime error -/
  | broken (v : Nat)
/-- What a function does: it calls monitored functions, handing on its context or one without a span, and goes on according to how they ended, until it returns or panics, `named` being then what
is in `err` (the functions users write; see ctx.go:167-205). -/
inductive Body (E : Type) where
  | ret (err : Option E)
  | panic (v : Nat) (named : Option E)
  | call (inherit : Bool) (c : Call E) (k : Out E → Body E)
end

/-- What is fixed of a span (ctx.go:27-36). -/
structure SpanI where
  func : Nat
  trace : Nat
  parent : Option Nat
  deriving DecidableEq

/-- What an observer was told (ctx.go:110, 151). -/
inductive Told where
  | start (o s : Nat)
  | finish (o s : Nat)
  deriving DecidableEq

/-- What monkit has seen (ctx.go:27-46, funcstats.go:34-46, registry.go:26-42). -/
structure State (E : Type) where
  /-- a span is its position -/
  spans : List SpanI
  /-- how many traces were made -/
  traces : Nat
  /-- the calls of `FuncStats.start` and `end`, by function -/
  log : List (Nat × FuncStats.Op E)
  /-- spans listed: among the children of their parents, the registry's roots or its orphans -/
  running : List Nat
  /-- the calls of `orphan` that take effect (ctx.go:133-135) -/
  orphans : List Nat
  /-- `Trace.Spans()` by trace (trace.go:143-147) -/
  spanCount : Nat → Int64
  told : List Told

/-- ctx.go:339-355: tell the observers in turn: who was told, and the panic that ended it. -/
def tell (b : Nat → Option Nat) : List Nat → List Nat × Option Nat
  | [] => ([], none)
  | o :: os => match b o with
    | some v => ([o], some v)
    | none => (o :: (tell b os).1, (tell b os).2)

/-- The trace of a span (ctx.go:35). -/
def traceOf (spans : List SpanI) (s : Nat) : Nat := ((spans[s]?).map (·.trace)).getD 0

/-- ctx.go:85-111: a span starts on trace `t`; the panic of an observer, if any.  Its context is stored after that (ctx.go:219-221). -/
def startSpan (obs : Nat → List Nat) (st : State E) (parent : Option Nat) (t f : Nat) (onStart : Nat → Option Nat) : State E × Option Nat :=
  let s := st.spans.length
  let a := tell onStart (obs t)
  ({ st with spans := st.spans ++ [⟨f, t, parent⟩], log := st.log ++ [(f, .start)], running := s :: st.running,
             spanCount := upd st.spanCount t (st.spanCount t + 1), told := st.told ++ a.1.map fun o => .start o s }, a.2)

/-- ctx.go:113-157: the exit function of span `s`, given how the function ends, `o`, and what is in `err`.  The panic of an observer (ctx.go:151) comes before the panic that was recovered can be raised again (ctx.go:155). -/
def exitSpan (obs : Nat → List Nat) (st : State E) (s t f : Nat) (given : Bool) (dur W : Int64) (onFinish : Nat → Option Nat) (o : Out E) (named : Option E) : State E × Out E :=
  let panicked := match o with | .panic _ => true | .ret _ => false
  let err := if given then named else none
  let a := tell onFinish (obs t)
  ({ st with log := st.log ++ [(f, .finish err panicked dur W)],
             orphans := st.orphans ++ st.running.filter fun c => decide ((st.spans[c]?).bind (·.parent) = some s),
             running := st.running.filter (· ≠ s),
             spanCount := upd st.spanCount t (st.spanCount t + (-1)), told := st.told ++ a.1.map fun o => .finish o s },
    match a.2 with | some v => .panic v | none => o)

mutual
/-- A monitored call; `parent` is the span in the context it gets (ctx.go:59-158). -/
def run (obs : Nat → List Nat) (st : State E) (parent : Option Nat) : Call E → State E × Out E
  | .mk f given dur W watch onStart onFinish body =>
    -- ctx.go:62-77
    let t := match parent with | some q => traceOf st.spans q | none => st.traces
    let st := match parent with | some _ => st | none => { st with traces := st.traces + 1 }
    match (match parent with | some _ => none | none => watch) with
    | some v => (st, .panic v)
    | none =>
      let s := st.spans.length
      -- ctx.go:85-111
      let a := startSpan obs st parent t f onStart
      match a.2 with
      | some v => (a.1, .panic v)
      | none =>
        let b := runBody obs a.1 s body
        exitSpan obs b.1 s t f given dur W onFinish b.2.1 b.2.2
  | .broken v =>
    match parent with
    -- `f.scope` of a nil `f` (ctx.go:76)
    | none => ({ st with traces := st.traces + 1 }, .panic v)
    -- `f.start` of a nil `f` (ctx.go:98-101)
    | some q => ({ st with spanCount := upd st.spanCount (traceOf st.spans q) (st.spanCount (traceOf st.spans q) + 1) }, .panic v)
/-- A function body with span `s`: how it ends, and what is in `err` then (the functions users write; see ctx.go:167-205). -/
def runBody (obs : Nat → List Nat) (st : State E) (s : Nat) : Body E → State E × Out E × Option E
  | .ret err => (st, .ret err, err)
  | .panic v named => (st, .panic v, named)
  | .call inherit c k =>
    let r := run obs st (if inherit then some s else none) c
    runBody obs r.1 s (k r.2)
end

/-- Before anything (registry.go:54-64). -/
def State.init : State E := ⟨[], 0, [], [], [], fun _ => 0, []⟩

end Monkit.ObsPanic
