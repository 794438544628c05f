import Verif.Model.Dist

/-!
# Specification: distributions of floats
-/

namespace Monkit.Spec
open Go.Float

/-- `m` is a least element of `vs`, not counting NaN. -/
def FLeast (vs : List F) (m : F) : Prop := m ∈ vs ∧ m ≠ .nan ∧ ∀ v ∈ vs, v ≠ .nan → F.le m v

/-- `m` is a greatest element of `vs`, not counting NaN. -/
def FGreatest (vs : List F) (m : F) : Prop := m ∈ vs ∧ m ≠ .nan ∧ ∀ v ∈ vs, v ≠ .nan → F.le v m

/-- The distribution holds the values `vs`: their number, their float64 sum from left to right, the last one, and the least and the greatest, which are NaN if the first value is NaN. -/
structure FHolds {G : Type} (vs : List F) (d : Dist F F G) : Prop where
  count : d.count.toInt = vs.length
  sum : d.sum = vs.foldl (F.add b64) (.fin 0)
  recent : d.recent = vs.getLast?.getD (.fin 0)
  least : vs ≠ [] → vs.head? ≠ some .nan → FLeast vs d.low
  greatest : vs ≠ [] → vs.head? ≠ some .nan → FGreatest vs d.high
  nan : vs.head? = some .nan → d.low = .nan ∧ d.high = .nan
  empty : vs = [] → d.low = .fin 0 ∧ d.high = .fin 0

/-- A number that a float32 can hold without overflow. -/
def Fits (v : F) : Prop := ∃ x, v = .fin x ∧ |x| < (2 : ℚ) ^ 128 - (2 : ℚ) ^ 103

/-- `y` lies between two of the values, as float32 numbers. -/
def Within (vs : List F) (y : F) : Prop := ∃ lo ∈ vs, ∃ hi ∈ vs, F.le (F.conv b32 lo) y ∧ F.le y (F.conv b32 hi)

end Monkit.Spec
