import Verif.Model.JsonDocs
import Verif.Spec.Json

/-!
# Specification: what the JSON documents say (C90)
-/

namespace Monkit.JsonDocs.Spec
open Go
open Monkit.JsonSpec (Json fixUtf8)

/-- A string, with bytes that are not UTF-8 replaced. -/
def text (s : Str) : Json := .str (fixUtf8 s)

/-- A number. -/
def num (i : Int64) : Json := .num (i.toInt : ℚ)

/-- What is said about a span that is running: `(span, elapsed nanoseconds)`. -/
def span (quote : Str → Str) (v : SpanView × Int64) : Json :=
  .obj ([(b!"id", num v.1.id)] ++ (match v.1.parentId with | some p => [(b!"parent_id", num p)] | none => []) ++
    [(b!"func", .obj [(b!"package", text v.1.package), (b!"name", text v.1.name)]), (b!"trace", .obj [(b!"id", num v.1.trace)]), (b!"start", num v.1.start),
     (b!"elapsed", num v.2), (b!"orphaned", .bool v.1.orphaned), (b!"args", .arr (v.1.args.map fun a => text (quote a))),
     (b!"annotations", .arr (v.1.annotations.map fun a => .arr [text a.1, text a.2]))])

/-- What is said about a span that has finished. -/
def finished (quote : Str → Str) (v : FinishedView) : Json :=
  .obj ([(b!"id", num v.span.id)] ++ (match v.span.parentId with | some p => [(b!"parent_id", num p)] | none => []) ++
    [(b!"func", .obj [(b!"package", text v.span.package), (b!"name", text v.span.name)]), (b!"trace", .obj [(b!"id", num v.span.trace)]),
     (b!"start", num v.span.start), (b!"finish", num v.finish), (b!"orphaned", .bool v.span.orphaned),
     (b!"err", match v.err with | some e => text e | none => text b!""), (b!"panicked", .bool v.panicked),
     (b!"args", .arr (v.span.args.map fun a => text (quote a))), (b!"annotations", .arr (v.span.annotations.map fun a => .arr [text a.1, text a.2]))])

/-- What is said about a distribution of times. -/
def times (d : DurView) : Json :=
  .obj [(b!"average", num d.fullAverage), (b!"reservoir_average", num d.reservoirAverage), (b!"full_average", num d.fullAverage), (b!"max", num d.high),
    (b!"min", num d.low), (b!"recent", num d.recent),
    (b!"quantiles", .obj [(b!"0.00", num (d.query 0)), (b!"0.10", num (d.query 10)), (b!"0.25", num (d.query 25)), (b!"0.50", num (d.query 50)),
      (b!"0.75", num (d.query 75)), (b!"0.90", num (d.query 90)), (b!"0.95", num (d.query 95)), (b!"1.00", num (d.query 100))])]

/-- What may be said about a function: the errors in some order. -/
def Func (f : FuncView) (j : Json) : Prop :=
  ∃ errors : List (Str × Int64), errors.Perm f.errors ∧ j =
    .obj [(b!"id", num f.id),
      (b!"parent_ids", if f.parents.filterMap id = [] then .null else .arr ((f.parents.filterMap id).map num)),
      (b!"package", text f.package), (b!"name", text f.name), (b!"current", num f.current), (b!"highwater", num f.highwater), (b!"success", num f.success),
      (b!"panics", num f.panics), (b!"entry", .bool (decide (none ∈ f.parents))), (b!"errors", .obj (errors.map fun e => (fixUtf8 e.1, num e.2))),
      (b!"success_times", times f.successTimes), (b!"failure_times", times f.failureTimes)]

end Monkit.JsonDocs.Spec
