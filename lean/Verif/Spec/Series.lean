import Verif.Model.Scope
import Verif.Model.Series

/-!
# Specification: series of sources
-/

namespace Monkit.Series.Spec
open Go Monkit.Scope

/-- The same measurement, and the same value for every tag. -/
def Same (a b : Str × Map Str Str) : Prop := a.1 = b.1 ∧ ∀ k, Map.get a.2 k = Map.get b.2 k

/-- No tag is given twice; none is called "scope"; a function has none called "name", "kind" or "error_name"; and nothing but functions goes by
"function" or "function_times". -/
structure Usable (c : Call) : Prop where
  once : (c.tags.map (·.1)).Nodup
  scope : ∀ t ∈ c.tags, t.1 ≠ b!"scope"
  func : c.kind = .func → ∀ t ∈ c.tags, t.1 ≠ b!"name" ∧ t.1 ≠ b!"kind" ∧ t.1 ≠ b!"error_name"
  other : c.kind ≠ .func → c.name ≠ b!"function" ∧ c.name ≠ b!"function_times"

/-- Only functions have several parts. -/
def PartOf (c : Call) (p : Part) : Prop := c.kind ≠ .func → p = .whole

end Monkit.Series.Spec
