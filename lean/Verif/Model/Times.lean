import Verif.Go.DurText
import Verif.Model.JsonDocs
import Verif.Model.Present

/-!
# The times of a function as text

`formatDist` (present/funcs.go:25-34).
-/

namespace Monkit.Times
open Go
open Monkit.JsonDocs (DurView observedQuantiles quantileName)

/-- What the accessors and fields of a `DurationDist` give (durdist.go:27-177). -/
structure TimesView extends DurView where
  sum : Int64

/-- funcs.go:27-32: one line. -/
def line (indent label : Str) (d : Int64) : Str := indent ++ label ++ b!": " ++ DurText.duration d ++ b!"\n"

/-- funcs.go:25-34 `formatDist`. -/
def formatDist (t : TimesView) (indent : Str) : Str :=
  (observedQuantiles.flatMap fun q => line indent (quantileName q) (t.query q)) ++ line indent b!"avg" t.fullAverage ++
    line indent b!"ravg" t.reservoirAverage ++ line indent b!"recent" t.recent ++ line indent b!"sum" t.sum

end Monkit.Times
