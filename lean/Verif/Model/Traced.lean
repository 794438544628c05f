import Verif.Model.Scope
import Verif.Model.Tags

/-!
# collect/ctx.go:62-63: the function whose call `CollectSpans` makes

A function is known by the call of `FuncNamed` that made it.
-/

namespace Monkit.Traced
open Go Monkit.Scope

/-- scope.go:97: the tags of the key of the function that `FuncNamed(name, tags...)` makes. -/
def keyTags (name : Str) (tags : List (Str × Str)) : Map Str Str :=
  Tags.setAllFrom (Tags.setAllFrom [] [(b!"name", name)]) tags

/-- func.go:53 `ShortName`, with tags.go:40-45. -/
def shortName (name : Str) (tags : List (Str × Str)) : Str := (Map.get (keyTags name tags) b!"name").getD []

/-- collect/ctx.go:62-63: the call of `FuncNamed` that `CollectSpans` makes when the span in its context is one of the function that `c` made. -/
def tracedCall (c : Call) : Call := ⟨.func, shortName c.name c.tags ++ b!"-TRACED", []⟩

end Monkit.Traced
