import Verif.Spec.Dist
import Verif.Go.Ieee
import Mathlib.Algebra.Order.Floor.Ring

/-!
# What a quantile of a sample is (C112)
-/

namespace Monkit.Spec
open Go.Float

/-- `v` splits the sample as the quantile `q` asks: more than the fraction `q` of the gaps between the
`n` values lies at or below `v`, and no less than the rest lies at or above it.  (With `q = 1/2`, both
halves.)  Values are compared after their fractions are cut off, as `v` is an integer. -/
structure Splits (sample : List ℚ) (q : ℚ) (v : Int) : Prop where
  below : q * ((sample.length : ℚ) - 1) < sample.countP fun x => trunc x ≤ v
  above : (1 - q) * ((sample.length : ℚ) - 1) ≤ sample.countP fun x => v ≤ trunc x

/-- The value at position `t` of a list, with the values between the whole positions on straight lines. -/
def onLine (l : List ℚ) (t : ℚ) : ℚ :=
  let k := ⌊t⌋.toNat
  let a := l.getD k 0
  a + (t - k) * (l.getD (k + 1) a - a)

/-- `v` is the quantile `q` of the sample: the value at position `q * (n - 1)` of the sorted sample, up to one for the fraction
that is cut off and up to a rounding error, which is small compared to the largest value `m`. -/
def Interpolates (sample : List ℚ) (q : ℚ) (v : ℚ) : Prop :=
  ∀ l, l.Perm sample → l.Pairwise (· ≤ ·) → ∀ m, (∀ x ∈ sample, |x| ≤ m) →
    |v - onLine l (q * ((sample.length : ℚ) - 1))| ≤ 1 + m / 2 ^ 45

/-- As `Splits`, for a distribution of floats. -/
structure FSplits (sample : List F) (q : ℚ) (v : F) : Prop where
  below : q * ((sample.length : ℚ) - 1) < sample.countP fun x => F.le x v
  above : (1 - q) * ((sample.length : ℚ) - 1) ≤ sample.countP fun x => F.le v x

end Monkit.Spec
