import Verif.Go.Str

/-!
# ctx.go: a `Task` whose name is taken

`Scope.Task` looks its `Func` up when it is first called (ctx.go:215-217), in a `sync.Once`.  If the name is taken by a source of another kind the lookup panics, the `Once` counts as done, and the variable
`f` stays nil; every later call goes on to `newSpan` with a nil `Func`.  One goroutine; C63 is about several.
-/

namespace Monkit.ClashTask

/-- The variables of the Task (ctx.go:207-208), and `Trace.Spans` of the trace of the caller (trace.go:143-147). -/
structure State where
  done : Bool
  /-- is `f` not nil? -/
  f : Bool
  spans : Int64

/-- How a call of the Task ends (ctx.go:207-227). -/
inductive Res where
  | started
  | panic
  deriving DecidableEq

/-- ctx.go:66-123 `newSpan`, as far as it matters here.  `parent`: there is a span in the context.  Without one the trace is new and not the caller's; with a nil `Func` that panics at once
(ctx.go:76).  With one, the span is counted (ctx.go:98) before the `Func` is used for the first time (ctx.go:101). -/
def newSpan (parent : Bool) (s : State) : State × Res :=
  if parent then ({ s with spans := s.spans + 1 }, if s.f then .started else .panic)
  else (s, if s.f then .started else .panic)

/-- ctx.go:209-224: a call of the Task. `taken`: the name is taken by a source that is not a `Func` (scope.go:98-104). -/
def call (taken parent : Bool) (s : State) : State × Res :=
  if s.done then newSpan parent s
  else if taken then ({ s with done := true }, .panic)
  else newSpan parent { s with done := true, f := true }

/-- Several calls one after the other, by callers with or without a span (ctx.go:209-224). Spans that were started are not ended here. -/
def calls (taken : Bool) : List Bool → State → State × List Res
  | [], s => (s, [])
  | p :: ps, s =>
    let (s', r) := call taken p s
    let (s'', rs) := calls taken ps s'
    (s'', r :: rs)

/-- A new Task (ctx.go:207-208), in a trace with `n` spans. -/
def new (n : Int64) : State := ⟨false, false, n⟩

end Monkit.ClashTask
