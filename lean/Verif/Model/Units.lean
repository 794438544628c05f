import Verif.Model.Basic
import Verif.Model.Meter
import Verif.Go.Ieee

/-!
# The float64 that a `Stats` callback receives
-/

namespace Monkit
open Go.Float

/-- The number that the callback is given (stats.go:65-67, dist.go:51-61; `seconds` is `time.Duration.Seconds`). -/
def FVal.float : FVal → F
  | .int i => .fin (rn 53 i.toInt)
  | .secs d => .fin (seconds d)
  | .nan => .nan
  | .inf neg => .inf neg
  | .flt q => .fin q

end Monkit
