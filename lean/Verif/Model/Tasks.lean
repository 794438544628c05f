import Verif.Model.Ctx

/-!
# Starting spans: `Task`, `ResetTrace`, `RemoteTrace`

ctx.go:59-111 (`newSpan` up to the start of the span), 206-224, 239-281 and 283-303; span.go:156-163.

This is what one call does to contexts, traces and spans; other goroutines at work at the same time are the subject of
C22–C27.  Spans, traces and functions are numbers.  `NewId` is an argument.
-/

namespace Monkit.Tasks

/-- The fields of a `Span` that are fixed at construction (ctx.go:27-46). -/
structure SpanI where
  id : Int64
  func : Nat
  trace : Nat
  parent : Option Nat
  parentId : Option Int64
  deriving DecidableEq

/-- Spans and traces made so far (ctx.go:59-111). -/
structure World where
  /-- all the spans made so far; a span is its position -/
  spans : List SpanI
  /-- how many traces were made so far -/
  traces : Nat
  /-- traces announced to the observers (`observeTrace`), oldest first -/
  announced : List Nat

/-- span.go:156-163 `ParentId`. -/
def parentIdOf (w : World) (s : SpanI) : Option Int64 :=
  match s.parentId with
  | some i => some i
  | none => match s.parent with
    | some p => (w.spans[p]?).map (·.id)
    | none => none

/-- trace.go:52-54 `NewTrace`. -/
def newTrace (w : World) : World × Nat := ({ w with traces := w.traces + 1 }, w.traces)

/-- registry.go:99-104 `observeTrace`. -/
def announce (w : World) (t : Nat) : World := { w with announced := w.announced ++ [t] }

/-- ctx.go:59-111 `newSpan`. `obs`: what the observers of a trace make of the context. -/
def newSpan (w : World) (obs : Nat → List (Ctx → Ctx)) (ctx : Ctx) (f : Nat) (trace : Option Nat)
    (parentId : Option Int64) (id : Int64) : World × Ctx × Nat :=
  -- ctx.go:62-77
  let r : World × Option Nat × Nat := match trace, ctx.spanFrom with
    | some t, _ => (w, none, t)
    | none, some q => (w, some q, ((w.spans[q]?).map (·.trace)).getD 0)
    | none, none => (announce (newTrace w).1 (newTrace w).2, none, (newTrace w).2)
  -- ctx.go:81-83
  let parent := if parentId.isSome then none else r.2.1
  -- ctx.go:87-111
  let s := r.1.spans.length
  ({ r.1 with spans := r.1.spans ++ [⟨id, f, r.2.2, parent, parentId⟩] }, ctx.task (obs r.2.2) s, s)

/-- `cleanCtx` (ctx.go:285-303).  The argument of a Task: a nil pointer, or a pointer to a context variable that may be nil. -/
def cleanCtx : Option (Option Ctx) → Ctx
  | none => .background
  | some none => .background
  | some (some c) => c

/-- ctx.go:219-221 and the like: the variable gets the new context – not `unparented`, which stands in for a nil pointer. -/
def store (p : Option (Option Ctx)) (c : Ctx) : Option (Option Ctx) := p.map fun _ => some c

/-- ctx.go:206-224, 239-249 `Task` (called as a Task). -/
def task (w : World) (obs : Nat → List (Ctx → Ctx)) (p : Option (Option Ctx)) (f : Nat) (id : Int64) :
    World × Option (Option Ctx) × Nat :=
  let (w, c, s) := newSpan w obs (cleanCtx p) f none none id
  (w, store p c, s)

/-- ctx.go:254-265 `RemoteTrace`. -/
def remoteTrace (w : World) (obs : Nat → List (Ctx → Ctx)) (p : Option (Option Ctx)) (f : Nat) (parentId : Int64)
    (trace : Option Nat) (id : Int64) : World × Option (Option Ctx) × Nat :=
  let w := match trace with
    | some t => announce w t
    | none => w
  let (w, c, s) := newSpan w obs (cleanCtx p) f trace (some parentId) id
  (w, store p c, s)

/-- ctx.go:268-281 `ResetTrace`. -/
def resetTrace (w : World) (obs : Nat → List (Ctx → Ctx)) (p : Option (Option Ctx)) (f : Nat) (id : Int64) :
    World × Option (Option Ctx) × Nat :=
  let (w, t) := newTrace w
  let w := announce w t
  let (w, c, s) := newSpan w obs (cleanCtx p) f (some t) none id
  (w, store p c, s)

end Monkit.Tasks
