import Verif.Go.Str

/-!
# Series keys and reported values

What a `StatSource` passes to its callback: a series key, a field name and a number.
-/

namespace Monkit

open Go

/-- A number passed to a `Stats` callback.  The conversions to `float64` are kept symbolic: the
constructor records which integer was converted and how, so that no precision is lost in
statements about it.
* `int i`      – `float64(i)`
* `secs d`     – `time.Duration(d).Seconds()`
* `nan`        – `math.NaN()`
* `inf neg`    – an infinity, the negative one if `neg`
* `flt q`      – a float64 that was computed, denoting the rational `q` (stats.go:65-67). -/
inductive FVal where
  | int (i : Int64)
  | secs (d : Int64)
  | nan
  | inf (neg : Bool)
  | flt (q : Rat)
  deriving DecidableEq, Repr

/-- stats.go:22-25, tags.go:24-37.  `SeriesKey{Measurement, Tags}`; the tag set is modelled as its
content, a list of key/value pairs (see `Verif/Model/Tags.lean` for the map and its cached string). -/
structure Key where
  measurement : Str
  tags : List (Str × Str)
  deriving DecidableEq, Repr

end Monkit
