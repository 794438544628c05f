import Verif.Model.StatsJson
import Verif.Spec.Json

/-!
# Specification: what the JSON document of the statistics says (C114)
-/

namespace Monkit.StatsJson.Spec
open Go Go.Float Go.JsonEnc
open Monkit.JsonSpec (Json fixUtf8 natOf)

/-- A string, with bytes that are not UTF-8 replaced. -/
def text (s : Str) : Json := .str (fixUtf8 s)

/-- The number `0.d₁…dₙ × 10^dp`. -/
def value (d : Dec) : ℚ := (natOf d.ds : ℚ) * (10 : ℚ) ^ (d.dp - d.ds.length)

/-- What strconv promises of the digits it chooses for a positive float64 (with precision -1): they are rounded to that float64 and no other. -/
def Chosen (short : ℚ → Dec) : Prop := ∀ q, b64.Rep q → 0 < q → (short q).ds ≠ [] ∧ b64.round (value (short q)) = .fin q

/-- Every program that reads JSON numbers into float64s gets `v` from the number `x`. -/
def Gives (x : ℚ) (v : F) : Prop := b64.round x = v

/-- The value is a finite float64. -/
def Finite (v : FVal) : Prop := ∃ q, v.float = .fin q ∧ b64.Rep q

/-- What the document says about a statistic: measurement, tags in some order, field and value.  A nil tag set is null. -/
def Says (x : Stat) (j : Json) : Prop :=
  ∃ (ts : List (Str × Str)) (v : ℚ), ts.Perm x.2.1.tags ∧ Gives v x.2.2.2.float ∧
    j = .arr [text x.2.1.measurement, if x.1 then .null else .obj (ts.map fun t => (fixUtf8 t.1, text t.2)), text x.2.2.1, .num v]

end Monkit.StatsJson.Spec
