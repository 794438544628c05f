import Verif.Model.Present
import Verif.Model.Tags
import Verif.Model.Units

/-!
# present/stats.go: StatsText

present/stats.go:27-37.  Negative zero does not occur among the values of the model.
-/

namespace Monkit.StatsText
open Go Go.Float
open Monkit.ListWriter (Writer)
open Monkit.Present (Out fprint each)

/-- stats.go:46-62 `WithField`, for a key whose tags are visited in the order of the list. -/
def name (k : Key) (field : Str) : Str :=
  (if k.tags = [] then Tags.writeMeasurement k.measurement else Tags.writeMeasurement k.measurement ++ [44] ++ Tags.writeTags k.tags) ++ [32] ++ Tags.writeTag field

/-- The last `w` decimal digits of a number (`%f`, present/stats.go:34). -/
def pad : Nat → Nat → Str
  | 0, _ => []
  | w + 1, n => pad w (n / 10) ++ [UInt8.ofNat (48 + n % 10)]

/-- `%f` of a number that is not negative: six digits after the point, rounded to nearest, ties to even (present/stats.go:34). -/
def fixed (q : ℚ) : Str := Dot.decimal ((rhe (q * 10 ^ 6)).toNat / 10 ^ 6) ++ b!"." ++ pad 6 ((rhe (q * 10 ^ 6)).toNat % 10 ^ 6)

/-- `%f` of a float64 (present/stats.go:34). -/
def format : F → Str
  | .nan => b!"NaN"
  | .inf true => b!"-Inf"
  | .inf false => b!"+Inf"
  | .fin q => if q < 0 then b!"-" ++ fixed (-q) else fixed q

/-- stats.go:34: one line. -/
def line (x : Key × Str × FVal) : Str := name x.1 x.2.1 ++ b!"=" ++ format x.2.2.float ++ b!"\n"

/-- present/stats.go:29-37 `StatsText`, of what the registry reports. -/
def statsText (w : Writer) (stats : List (Key × Str × FVal)) : Out := each (fun s x => fprint w s (line x)) .start stats

end Monkit.StatsText
