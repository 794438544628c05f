import Verif.Model.Clock
import Verif.Spec.Spans

/-!
# Vocabulary for clocks and durations
-/

namespace Monkit.Clock

/-- Neither clock goes backwards, and none shows less than when the package was initialised. -/
structure Good (C : Clocks) : Prop where
  init : 0 ≤ C.initTime.toInt
  go : ∀ m, C.initTime.toInt ≤ (C.go m).toInt
  mono : ∀ m m', m ≤ m' → (C.go m).toInt ≤ (C.go m').toInt
  base : ∀ m, C.base.toInt ≤ (C.counter m).toInt
  cmono : ∀ m m', m ≤ m' → (C.counter m).toInt ≤ (C.counter m').toInt

/-- At every moment both clocks are within `e` nanoseconds of the time `τ` since the package was initialised; the counter makes `freq` steps in a second. -/
structure Accurate (C : Clocks) (τ : Nat → Int) (e : Int) : Prop where
  go : ∀ m, |(C.go m).toInt - C.initTime.toInt - τ m| ≤ e
  counter : ∀ m, |((C.counter m).toInt - C.base.toInt) * 1000000000 / C.freq.toInt - τ m| ≤ e

/-- When the call was made, by its readings. -/
def Rec.start {E : Type} : Rec E → Nat
  | .node _ _ _ _ s _ _ => s

/-- When it was over. -/
def Rec.finish {E : Type} : Rec E → Nat
  | .node _ _ _ _ _ t _ => t

/-- Everywhere in the tree of calls: a call lasts at least as long as the calls it makes together; `D` tells how long it is from moment to moment. -/
inductive Nested {E : Type} (D : Nat → Nat → Int) : Rec E → Prop where
  | node {f err panicked W s t calls} (h : ∀ c ∈ calls, Nested D c) (hs : ∀ c ∈ calls, s ≤ c.start ∧ c.start ≤ c.finish ∧ c.finish ≤ t)
      (sum : (calls.map fun c => D c.start c.finish).sum ≤ D s t) : Nested D (.node f err panicked W s t calls)

mutual
/-- What the functions of a tree of calls are told about it: starts and ends in order, each end with the outcome and the duration. -/
def Rec.ops {E : Type} (dur : Nat → Nat → Int64) : Rec E → List (Nat × FuncStats.Op E)
  | .node f err panicked W s t calls => (f, .start) :: (opsList dur calls ++ [(f, .finish err panicked (dur s t) W)])
/-- The same of calls made one after the other. -/
def opsList {E : Type} (dur : Nat → Nat → Int64) : List (Rec E) → List (Nat × FuncStats.Op E)
  | [] => []
  | c :: cs => c.ops dur ++ opsList dur cs
end

/-- Nanoseconds since the package was initialised, by the counter. -/
def counted (C : Clocks) (m : Nat) : Int := ((C.counter m).toInt - C.base.toInt) * 1000000000 / C.freq.toInt

/-- The clock that `Now` reads does not overflow: it is not Windows, or the counter times 10^9 stays within an int64. -/
def NoOverflow (C : Clocks) : Prop :=
  C.windows = true → 0 < C.freq.toInt ∧ ∀ m, ((C.counter m).toInt - C.base.toInt) * 1000000000 < 2 ^ 63 ∧ C.initTime.toInt + counted C m < 2 ^ 63

/-- The exit function of span `n` has been called. -/
def ExitCalled (s : Spans.State) (n : Nat) : Prop := s.pc n = .mark ∨ Spans.Exiting s n

end Monkit.Clock
