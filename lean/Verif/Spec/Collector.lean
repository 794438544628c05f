import Verif.Model.CollectorSpans

/-! # What happened to a collector, in terms of calls and returns -/

namespace Monkit.Collector

/-- The spans collection started on, in order. -/
def starts : List Ev → List Nat
  | [] => []
  | .started x :: es => x :: starts es
  | _ :: es => starts es

/-- The spans whose `Finish` was called, in order. -/
def finishes : List Ev → List Nat
  | [] => []
  | .finishCall _ y :: es => y :: finishes es
  | _ :: es => finishes es

/-- Goroutine `t` called `Finish(y)` after collection had started on `x`. -/
def CallAfter (t y x : Nat) (tr : List Ev) : Prop :=
  ∃ a b, tr = a ++ .finishCall t y :: b ∧ x ∈ starts a

/-- `Stop` was called, or the span collected for has begun to finish. -/
def Ending (x : Nat) (tr : List Ev) : Prop := (∃ t, Ev.stopCall t ∈ tr) ∨ x ∈ finishes tr

/-- In `Finish(y)`. -/
def PC.inFinish : PC → Option Nat
  | .fload y | .fwait y _ | .froot y _ | .fset y _ | .fout y | .frootOut y | .swap (some y) | .close (some y)
  | .ret (some y) => some y
  | _ => none

/-- In a user's `Stop`. -/
def PC.stopping : PC → Bool
  | .swap none | .close none | .ret none => true
  | _ => false

/-! ### The forest of recorded spans -/

/-- `y` is recorded with parent `x`. -/
def Child (idOf : Nat → Int) (parentOf : Nat → Option Int) (coll : List Nat) (x y : Nat) : Prop :=
  y ∈ coll ∧ parentOf y = some (idOf x)

/-- `y` is `x`, or recorded and reaches `x` through recorded parents. -/
inductive Desc (idOf : Nat → Int) (parentOf : Nat → Option Int) (coll : List Nat) (x : Nat) : Nat → Prop where
  | refl : Desc idOf parentOf coll x x
  | child {y z : Nat} : Desc idOf parentOf coll x y → Child idOf parentOf coll y z → Desc idOf parentOf coll x z

/-- The recorded spans and the matched span `x0` have pairwise distinct ids. -/
def Distinct (idOf : Nat → Int) (coll : List Nat) (x0 : Nat) : Prop :=
  ∀ y ∈ x0 :: coll, ∀ z ∈ x0 :: coll, idOf y = idOf z → y = z

end Monkit.Collector
