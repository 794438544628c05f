import Verif.Spec.Present

/-!
# What the text lists of running spans and of functions can be read as (C124)

Written without the functions of the model that produce output; the views of a span and of a function are those of the model.
-/

namespace Monkit.TextRead.Spec
open Go
open Monkit.Present (SpanView FuncView)
open Monkit.Present.Spec (Within commas)

/-- What a reader can learn about a span: its number and that of its trace, what was called with which arguments, for how long, whether
its parent has ended, its annotations, and all that about its children, in order. -/
inductive Reading where
  | mk (id trace : Int64) (call elapsed : Str) (orphaned : Bool) (notes : List Str) (children : List Reading)

/-- What there is to learn about a span. -/
def reading : SpanView → Reading
  | .mk id trace name args elapsed orphaned annotations children =>
    .mk id trace (name ++ b!"(" ++ commas args ++ b!")") elapsed orphaned (annotations.map fun a => a.1 ++ b!": " ++ a.2) (readings children)
where
  readings : List SpanView → List Reading
    | [] => []
    | c :: cs => reading c :: readings cs

/-- No text of the span has a line break, and the time is written without parenthesis or comma. -/
structure Tidy1 (v : SpanView) : Prop where
  name : 10 ∉ v.name
  args : ∀ a ∈ v.args, 10 ∉ a
  notes : ∀ a ∈ v.annotations, 10 ∉ a.1 ∧ 10 ∉ a.2
  elapsed : ∀ c ∈ v.elapsed, c ≠ 10 ∧ c ≠ 40 ∧ c ≠ 44

/-- So it is for all spans of the tree. -/
def Tidy (v : SpanView) : Prop := ∀ u, Within u v → Tidy1 u

/-- The number of spans of a tree. -/
def size : SpanView → Nat
  | .mk _ _ _ _ _ _ _ children => 1 + sizes children
where
  sizes : List SpanView → Nat
    | [] => 0
    | c :: cs => size c + sizes cs

/-! ## Functions -/

/-- What a reader can learn about a function: its number and name, its callers (`none` stands for calls from outside), its counters,
its errors by name, and the lines about the times. -/
structure FuncReading where
  id : Int64
  name : Str
  callers : List (Option Int64)
  counters : Int64 × Int64 × Int64 × Int64 × Int64
  errors : List (Str × Int64)
  successTimes : Str
  failureTimes : Str

/-- What there is to learn about a function. -/
def funcReading (f : FuncView) : FuncReading :=
  ⟨f.id, f.name, f.parents, (f.current, f.highwater, f.success, Present.Spec.errorSum f, f.panics), f.errors, f.successTimes b!"    ", f.failureTimes b!"    "⟩

/-- Lines that all begin with four spaces. -/
def Indented (t : Str) : Prop := ∃ ls : List Str, (∀ l ∈ ls, 10 ∉ l) ∧ t = ls.flatMap fun l => b!"    " ++ l ++ b!"\n"

/-- No name of the function or of its errors has a line break, and the times are indented lines. -/
structure TidyFunc (f : FuncView) : Prop where
  name : 10 ∉ f.name
  errors : ∀ e ∈ f.errors, 10 ∉ e.1
  success : Indented (f.successTimes b!"    ")
  failure : Indented (f.failureTimes b!"    ")

end Monkit.TextRead.Spec
