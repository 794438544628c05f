import Verif.Go.Map
import Verif.Go.Sort
import Verif.Go.StrOrd

/-!
# spanbag.go and Span.Children: the children of a span

Spans are numbered.
-/

namespace Monkit

open Go

/-- spanbag.go:21-24. -/
structure SpanBag where
  first : Option Nat
  rest : Map Nat Int32

namespace SpanBag

/-- The zero value (spanbag.go:21-24). -/
def empty : SpanBag := ⟨none, []⟩

/-- spanbag.go:26-35 `Add`. -/
def add (b : SpanBag) (s : Nat) : SpanBag :=
  if b.first = none then { b with first := some s }
  else { b with rest := Map.set b.rest s ((Map.get b.rest s).getD 0 + 1) }

/-- spanbag.go:37-49 `Remove`. -/
def remove (b : SpanBag) (s : Nat) : SpanBag :=
  if b.first = some s then { b with first := none }
  else
    let count := (Map.get b.rest s).getD 0
    if count ≤ 1 then { b with rest := Map.del b.rest s }
    else { b with rest := Map.set b.rest s (count - 1) }

/-- spanbag.go:52-59 `Iterate`: what it visits, if the map is visited in the order `ord`. -/
def iterate (b : SpanBag) (ord : Map Nat Int32) : List Nat := b.first.toList ++ ord.map (·.1)

end SpanBag

/-- The immutable properties of a span that sorting looks at: its function's full name and its id (registry.go:265-269). -/
structure SpanSort where
  name : Nat → Str
  id : Nat → Int64

/-- registry.go:265-269 `spanSorter.Less`, as "not greater". -/
def SpanSort.le (w : SpanSort) (i j : Nat) : Bool :=
  !((strLt (w.name j) (w.name i)) || (w.name j == w.name i && decide (w.id j < w.id i)))

/-- The `found` map of `Children`: keep the first occurrence of each (span.go:90-98). -/
def dedup : List Nat → List Nat → List Nat
  | _, [] => []
  | found, s :: ss => if s ∈ found then dedup found ss else s :: dedup (s :: found) ss

/-- span.go:88-103 `Children`: the spans passed to the callback, in order. -/
def children (w : SpanSort) (b : SpanBag) (ord : Map Nat Int32) : List Nat :=
  sortBy w.le (dedup [] (b.iterate ord))

/-- The calls (spanbag.go:26-49). -/
inductive SpanBag.Op where
  | add (s : Nat)
  | remove (s : Nat)

/-- One call (spanbag.go:26-49). -/
def SpanBag.step (b : SpanBag) : SpanBag.Op → SpanBag
  | .add s => b.add s
  | .remove s => b.remove s

/-- A history of calls (spanbag.go:26-49). -/
def SpanBag.run (ops : List SpanBag.Op) : SpanBag := ops.foldl SpanBag.step .empty

end Monkit
