import Verif.Go.JsonEnc
import Verif.Model.ListWriter
import Verif.Model.Units

/-!
# present/stats.go: StatsJSON, with what json.Marshal writes

present/stats.go:39-47.  The decimal digits that strconv chooses for a float64 are a parameter, `short`, for positive numbers.  Negative zero does not occur among
the values of the model.
-/

namespace Monkit.StatsJson
open Go Go.Float Go.JsonEnc
open Monkit.ListWriter (Writer Err)

/-- What is known of a statistic: whether the pointer to the tag set is nil, the key, the field and the value (present/stats.go:43-45). -/
abbrev Stat := Bool × Key × Str × FVal

/-- The digits of zero: none (strconv, from present/stats.go:44). -/
def zero : Dec := ⟨[], 0, by simp, by simp, by simp, by decide, by decide⟩

/-- `floatEncoder` of encoding/json, of a float64 that is a number (from present/stats.go:44). -/
def number (short : ℚ → Dec) (q : ℚ) : Value :=
  if q = 0 then .float false false zero
  else .float (decide (q < 0)) (decide (|q| < rn 53 (1 / 10 ^ 6) ∨ rn 53 (10 ^ 21) ≤ |q|)) (short |q|)

/-- tags.go:49-54 `All` as JSON: a nil map is `null`, any other one an object. -/
def tags (isNil : Bool) (l : List (Str × Str)) : Value := if isNil then .null else map (l.map fun t => (t.1, .str t.2))

/-- present/stats.go:44: the element and `json.Marshal` of it (present/json.go:192); JSON cannot express NaN and the infinities. -/
def element (short : ℚ → Dec) (x : Stat) : Except Nat Str :=
  match x.2.2.2.float with
  | .fin q => .ok (marshal (.arr [.str x.2.1.measurement, tags x.1 x.2.1.tags, .str x.2.2.1, number short q]))
  | _ => .error 0

/-- present/stats.go:41-47 `StatsJSON`, for what the registry reports. -/
def statsJSON (short : ℚ → Dec) (w : Writer) (stats : List Stat) : Str × Option Err := ListWriter.writeList (element short) w stats

end Monkit.StatsJson
