import Mathlib.Data.Rat.Floor
import Mathlib.Data.Int.Log

/-!
# IEEE-754 rounding

A finite float is represented by the rational number it denotes.  An arithmetic operation on floats
with `p` significant bits is the exact operation followed by `rn p`, rounding to nearest, ties to
even.  `p = 24` is float32, `p = 53` is float64.

Here the exponent is unbounded.  This is the arithmetic on integers, durations and rates, where neither subnormal numbers nor overflow can occur; `Ieee` has
the arithmetic on arbitrary floats.
-/

namespace Go.Float

/-- Round to the nearest integer, ties to even. -/
def rhe (x : ℚ) : ℤ :=
  if x - ⌊x⌋ < 1 / 2 then ⌊x⌋
  else if 1 / 2 < x - ⌊x⌋ then ⌊x⌋ + 1
  else if ⌊x⌋ % 2 = 0 then ⌊x⌋ else ⌊x⌋ + 1

/-- The exponent of the unit in the last place of a `p`-bit float near `x ≠ 0`. -/
def ulpExp (p : ℕ) (x : ℚ) : ℤ := Int.log 2 |x| - p + 1

/-- Round to the nearest `p`-bit float, ties to even. -/
def rn (p : ℕ) (x : ℚ) : ℚ :=
  if x = 0 then 0 else (rhe (x / (2 : ℚ) ^ ulpExp p x) : ℚ) * (2 : ℚ) ^ ulpExp p x

/-- `x` is a `p`-bit float. -/
def Rep (p : ℕ) (x : ℚ) : Prop := ∃ m e : ℤ, |m| < 2 ^ p ∧ x = (m : ℚ) * (2 : ℚ) ^ e

/-- Conversion of a float to an integer: truncation toward zero. -/
def trunc (x : ℚ) : ℤ := if 0 ≤ x then ⌊x⌋ else ⌈x⌉

end Go.Float
