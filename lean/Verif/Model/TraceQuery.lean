import Verif.Model.KeepAlive
import Verif.Model.WatchSpans
import Verif.Go.Str

/-!
# present/trace.go:391-443: `TraceQuerySVG` and `TraceQueryJSON`

`keepAlive` (Model/KeepAlive), `WatchForSpans` (Model/WatchSpans) and the goroutine of the request, which is goroutine 0 of both parts.  A ping writes a newline.
`pieces out` are the writes of `SpansToSVG` or `SpansToJSON` of the spans `out`; they stop at the first that fails (C55, C75).
The context is `context.TODO()`, which is never cancelled.  A matcher or a presenter that panics is left out.
-/

namespace Monkit.TraceQuery
open Go

/-- What `watchForSpansWithKeepalive` returns (present/trace.go:439-442). -/
inductive Fin where
  | spans (out : List Nat)
  /-- the error of `stop` -/
  | err (e : KeepAlive.Err)
  /-- the error of the context -/
  | ctx
  deriving DecidableEq

/-- Where the goroutine of the request is (present/trace.go:393-443). -/
inductive Main where
  /-- in `WatchForSpans` (present/trace.go:438) -/
  | watching
  /-- about to call `stop` (present/trace.go:439), in it -/
  | stop (r : WatchSpans.Res)
  | stopping (r : WatchSpans.Res)
  /-- about to call the deferred `stop` (present/trace.go:436), in it -/
  | last (f : Fin)
  | lasting (f : Fin)
  /-- `watchForSpansWithKeepalive` has returned (present/trace.go:397, 413) -/
  | got (f : Fin)
  /-- writing the document (present/trace.go:401, 416) -/
  | writing (rest : List Str)
  | out (r : Option KeepAlive.Err)
  | ended
  deriving DecidableEq

/-- `keepAlive`, `WatchForSpans` and the request (present/trace.go:393-443). -/
structure State where
  k : KeepAlive.State
  w : WatchSpans.State
  main : Main

/-- What can be seen (present/trace.go:393-443). -/
inductive Ev where
  | ka (e : KeepAlive.Event)
  | watch (e : WatchSpans.Ev)
  /-- the document is begun -/
  | doc (out : List Nat)
  /-- a write of the document, and its error -/
  | write (p : Str) (e : Option KeepAlive.Err)
  /-- the request returns -/
  | ends (r : Option KeepAlive.Err)
  deriving DecidableEq

/-- The events of `keepAlive` that are nobody else's business (present/utils.go:37-87). -/
def kaOwn : KeepAlive.Event → Bool
  | .ping | .pong _ | .cancel => true
  | _ => false

/-- The events of `WatchForSpans` that are nobody else's business (collect/ctx.go:32-47). -/
def watchOwn : WatchSpans.Ev → Bool
  | .coll _ | .all _ => true
  | _ => false

/-- The context's error, which `context.TODO()` and `stop` have none of but `cancel` makes; it stands for `context.Canceled` (present/trace.go:442). -/
def ctxErr : KeepAlive.Err := 0

/-- trace.go:439-442. -/
def fin (r : WatchSpans.Res) (stop : Option KeepAlive.Err) : Fin :=
  match stop, r with
  | some e, _ => .err e
  | none, .spans out => .spans out
  | none, .err => .ctx

/-- One step (present/trace.go:393-443). -/
inductive Step (traceOf : Nat → Nat) (accepts : Nat → Bool) (idOf : Nat → Int) (parentOf : Nat → Option Int) (pieces : List Nat → List Str) :
    State → Option Ev → State → Prop where
  | ka (s : State) (e : Option KeepAlive.Event) (k' : KeepAlive.State) (st : KeepAlive.Step s.k e k') (own : ∀ x, e = some x → kaOwn x = true) :
      Step traceOf accepts idOf parentOf pieces s (e.map .ka) { s with k := k' }
  | watch (s : State) (e : Option WatchSpans.Ev) (w' : WatchSpans.State) (st : WatchSpans.Step traceOf accepts idOf parentOf s.w e w')
      (own : ∀ x, e = some x → watchOwn x = true) : Step traceOf accepts idOf parentOf pieces s (e.map .watch) { s with w := w' }
  /-- the context given to `WatchForSpans` is that of `keepAlive` (present/trace.go:432, 438) -/
  | ctx (s : State) (w' : WatchSpans.State) (st : WatchSpans.Step traceOf accepts idOf parentOf s.w (some .ctxDone) w') (h : s.k.cancelled = true) :
      Step traceOf accepts idOf parentOf pieces s (some (.watch .ctxDone)) { s with w := w' }
  /-- present/trace.go:438 -/
  | found (s : State) (r : WatchSpans.Res) (w' : WatchSpans.State) (st : WatchSpans.Step traceOf accepts idOf parentOf s.w (some (.ret r)) w')
      (h : s.main = .watching) : Step traceOf accepts idOf parentOf pieces s (some (.watch (.ret r))) { s with w := w', main := .stop r }
  /-- present/trace.go:439 -/
  | stop (s : State) (r : WatchSpans.Res) (k' : KeepAlive.State) (st : KeepAlive.Step s.k (some (.stopCall 0)) k') (h : s.main = .stop r) :
      Step traceOf accepts idOf parentOf pieces s (some (.ka (.stopCall 0))) { s with k := k', main := .stopping r }
  | stopped (s : State) (r : WatchSpans.Res) (x : Option KeepAlive.Err) (k' : KeepAlive.State) (st : KeepAlive.Step s.k (some (.stopRet 0 x)) k')
      (h : s.main = .stopping r) : Step traceOf accepts idOf parentOf pieces s (some (.ka (.stopRet 0 x))) { s with k := k', main := .last (fin r x) }
  /-- present/trace.go:436 -/
  | last (s : State) (f : Fin) (k' : KeepAlive.State) (st : KeepAlive.Step s.k (some (.stopCall 0)) k') (h : s.main = .last f) :
      Step traceOf accepts idOf parentOf pieces s (some (.ka (.stopCall 0))) { s with k := k', main := .lasting f }
  | lastRet (s : State) (f : Fin) (x : Option KeepAlive.Err) (k' : KeepAlive.State) (st : KeepAlive.Step s.k (some (.stopRet 0 x)) k')
      (h : s.main = .lasting f) : Step traceOf accepts idOf parentOf pieces s (some (.ka (.stopRet 0 x))) { s with k := k', main := .got f }
  /-- present/trace.go:397-398, 413-414 -/
  | gotErr (s : State) (e : KeepAlive.Err) (h : s.main = .got (.err e)) : Step traceOf accepts idOf parentOf pieces s none { s with main := .out (some e) }
  | gotCtx (s : State) (h : s.main = .got .ctx) : Step traceOf accepts idOf parentOf pieces s none { s with main := .out (some ctxErr) }
  /-- present/trace.go:401, 416 -/
  | doc (s : State) (out : List Nat) (h : s.main = .got (.spans out)) : Step traceOf accepts idOf parentOf pieces s (some (.doc out)) { s with main := .writing (pieces out) }
  | write (s : State) (p : Str) (ps : List Str) (h : s.main = .writing (p :: ps)) :
      Step traceOf accepts idOf parentOf pieces s (some (.write p none)) { s with main := .writing ps }
  | writeErr (s : State) (p : Str) (ps : List Str) (e : KeepAlive.Err) (h : s.main = .writing (p :: ps)) :
      Step traceOf accepts idOf parentOf pieces s (some (.write p (some e))) { s with main := .out (some e) }
  | written (s : State) (h : s.main = .writing []) : Step traceOf accepts idOf parentOf pieces s none { s with main := .out none }
  | ends (s : State) (r : Option KeepAlive.Err) (h : s.main = .out r) : Step traceOf accepts idOf parentOf pieces s (some (.ends r)) { s with main := .ended }

/-- present/trace.go:432-438: `keepAlive` and `WatchForSpans` have been started. -/
def init : State := ⟨KeepAlive.init, WatchSpans.init, .watching⟩

end Monkit.TraceQuery
