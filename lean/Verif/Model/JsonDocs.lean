import Verif.Go.JsonEnc
import Verif.Model.ListWriter

/-!
# present/json.go: spans and functions as JSON

present/json.go:26-172; present/spans.go:130-136 `SpansJSON`, present/trace.go:419-426 `SpansToJSON`, present/funcs.go:184-190 `FuncsJSON`.  What the
accessors of a span or function returned is given by a view; `quote` is `fmt.Sprintf("%#v", …)` of a string.
-/

namespace Monkit.JsonDocs
open Go Go.JsonEnc
open Monkit.ListWriter (Writer Err writeList)

/-- What the accessors of a span returned (span.go:64-193). -/
structure SpanView where
  id : Int64
  /-- `ParentId()`, if its second result is true -/
  parentId : Option Int64
  /-- `Func().Scope().Name()` -/
  package : Str
  /-- `Func().ShortName()` -/
  name : Str
  /-- `Trace().Id()` -/
  trace : Int64
  /-- `Start().UnixNano()` -/
  start : Int64
  orphaned : Bool
  args : List Str
  annotations : List (Str × Str)

/-- json.go:28, 81: `parent_id`, left out if the pointer is nil. -/
def parentField (v : SpanView) : List (Str × Value) :=
  match v.parentId with
  | none => []
  | some p => [(b!"parent_id", .int p)]

/-- json.go:58-61, 113-116: the arguments. -/
def argsValue (quote : Str → Str) (v : SpanView) : Value := .arr (v.args.map fun a => .str (quote a))

/-- json.go:62-66, 117-121: the annotations. -/
def annotationsValue (v : SpanView) : Value := .arr (v.annotations.map fun a => .arr [.str a.1, .str a.2])

/-- json.go:26-68 `formatSpan`; `elapsed` is `time.Since(s.Start()).Nanoseconds()`. -/
def formatSpan (quote : Str → Str) (v : SpanView) (elapsed : Int64) : Value :=
  .obj ([(b!"id", .int v.id)] ++ parentField v ++
    [(b!"func", .obj [(b!"package", .str v.package), (b!"name", .str v.name)]),
     (b!"trace", .obj [(b!"id", .int v.trace)]),
     (b!"start", .int v.start),
     (b!"elapsed", .int elapsed),
     (b!"orphaned", .bool v.orphaned),
     (b!"args", argsValue quote v),
     (b!"annotations", annotationsValue v)])

/-- What a finished span adds; `err` is the text of its error (collect/collect.go:25-30). -/
structure FinishedView where
  span : SpanView
  /-- `Finish.UnixNano()` -/
  finish : Int64
  err : Option Str
  panicked : Bool

/-- json.go:70-123 `formatFinishedSpan`. -/
def formatFinishedSpan (quote : Str → Str) (v : FinishedView) : Value :=
  .obj ([(b!"id", .int v.span.id)] ++ parentField v.span ++
    [(b!"func", .obj [(b!"package", .str v.span.package), (b!"name", .str v.span.name)]),
     (b!"trace", .obj [(b!"id", .int v.span.trace)]),
     (b!"start", .int v.span.start),
     (b!"finish", .int v.finish),
     (b!"orphaned", .bool v.span.orphaned),
     (b!"err", .str (v.err.getD [])),
     (b!"panicked", .bool v.panicked),
     (b!"args", argsValue quote v.span),
     (b!"annotations", annotationsValue v.span)])

/-- What the accessors of a `DurationDist` returned; `query` takes hundredths (durdist.go:27-177). -/
structure DurView where
  fullAverage : Int64
  reservoirAverage : Int64
  high : Int64
  low : Int64
  recent : Int64
  query : Nat → Int64

/-- dist.go:34 `ObservedQuantiles`, in hundredths. -/
def observedQuantiles : List Nat := [0, 10, 25, 50, 75, 90, 95, 100]

/-- json.go:145 `fmt.Sprintf("%.02f", quantile)`, for hundredths. -/
def quantileName (h : Nat) : Str := decimal (h / 100) ++ b!"." ++ decimal (h / 10 % 10) ++ decimal (h % 10)

/-- json.go:135-148 `formatDuration`. -/
def formatDuration (d : DurView) : Value :=
  .obj [(b!"average", .int d.fullAverage),
    (b!"reservoir_average", .int d.reservoirAverage),
    (b!"full_average", .int d.fullAverage),
    (b!"max", .int d.high),
    (b!"min", .int d.low),
    (b!"recent", .int d.recent),
    (b!"quantiles", map (observedQuantiles.map fun h => (quantileName h, .int (d.query h))))]

/-- What the accessors of a `Func` returned; `parents` in the order of `Parents` with `none` for the nil parent, `errors` in the order of iteration of
the map (func.go:53-70, funcstats.go:109-191). -/
structure FuncView where
  id : Int64
  parents : List (Option Int64)
  package : Str
  name : Str
  current : Int64
  highwater : Int64
  success : Int64
  panics : Int64
  errors : List (Str × Int64)
  successTimes : DurView
  failureTimes : DurView

/-- json.go:155-161: `ParentIds`, a nil slice at first. -/
def parentIds (ps : List (Option Int64)) : Value :=
  match ps.filterMap id with
  | [] => .null
  | l => .arr (l.map .int)

/-- json.go:150-172 `formatFunc`. -/
def formatFunc (f : FuncView) : Value :=
  .obj [(b!"id", .int f.id),
    (b!"parent_ids", parentIds f.parents),
    (b!"package", .str f.package),
    (b!"name", .str f.name),
    (b!"current", .int f.current),
    (b!"highwater", .int f.highwater),
    (b!"success", .int f.success),
    (b!"panics", .int f.panics),
    (b!"entry", .bool (f.parents.any fun p => p.isNone)),
    (b!"errors", map (f.errors.map fun e => (e.1, .int e.2))),
    (b!"success_times", formatDuration f.successTimes),
    (b!"failure_times", formatDuration f.failureTimes)]

/-- present/spans.go:130-136 `SpansJSON`. -/
def spansJSON (quote : Str → Str) (w : Writer) (l : List (SpanView × Int64)) : Str × Option Err :=
  writeList (fun v : SpanView × Int64 => .ok (marshal (formatSpan quote v.1 v.2))) w l

/-- present/trace.go:419-426 `SpansToJSON`. -/
def spansToJSON (quote : Str → Str) (w : Writer) (l : List FinishedView) : Str × Option Err :=
  writeList (fun v : FinishedView => .ok (marshal (formatFinishedSpan quote v))) w l

/-- present/funcs.go:184-190 `FuncsJSON`. -/
def funcsJSON (w : Writer) (l : List FuncView) : Str × Option Err :=
  writeList (fun v : FuncView => .ok (marshal (formatFunc v))) w l

end Monkit.JsonDocs
