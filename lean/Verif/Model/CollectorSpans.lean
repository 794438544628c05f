import Verif.Model.Collector

/-!
# `SpanCollector.Spans`

collect/collect.go:130-144.  Spans are numbers; `idOf y` is `y.Id()` and `parentOf y` is `y.ParentId()`
(`none` when it reports false).
-/

namespace Monkit.Collector

/-- `spansByParent[spanParent{x.Id(), true}]` (collect/collect.go:114-116, 134): the recorded spans whose parent id
is `x`'s, oldest first. -/
def children (idOf : Nat → Int) (parentOf : Nat → Option Int) (coll : List Nat) (x : Nat) : List Nat :=
  coll.filter (fun y => parentOf y == some (idOf x))

/-- `walkSpans` (collect/collect.go:132-137) down to recursion depth `fuel`; `none`: the recursion goes
deeper. -/
def walk (idOf : Nat → Int) (parentOf : Nat → Option Int) (coll : List Nat) : Nat → Nat → Option (List Nat)
  | 0, _ => none
  | fuel + 1, x =>
    match (children idOf parentOf coll x).mapM (walk idOf parentOf coll fuel) with
    | none => none
    | some subs => some (x :: subs.flatten)

/-- `Spans` (collect/collect.go:130-144), recursing at most `fuel` deep. -/
def spans (idOf : Nat → Int) (parentOf : Nat → Option Int) (s : State) (fuel : Nat) : Option (List Nat) :=
  match s.root with
  | none => some []
  | some x => walk idOf parentOf s.coll fuel x

/-- `Spans` returns `out`: some recursion depth suffices (collect/collect.go:130-144). -/
def SpansReturns (idOf : Nat → Int) (parentOf : Nat → Option Int) (s : State) (out : List Nat) : Prop :=
  ∃ fuel, spans idOf parentOf s fuel = some out

end Monkit.Collector
