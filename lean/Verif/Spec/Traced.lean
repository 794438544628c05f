import Verif.Go.Str

/-!
# Specification: the name of a traced function
-/

namespace Monkit.Traced.Spec
open Go

/-- The name a function goes by: the last tag called "name", if it was given one, and else its name. -/
def goesBy (name : Str) (tags : List (Str × Str)) : Str :=
  match tags.reverse.find? (fun t => t.1 = b!"name") with
  | some t => t.2
  | none => name

/-- A function was given no tag called "name". -/
def NoName (tags : List (Str × Str)) : Prop := ∀ t ∈ tags, t.1 ≠ b!"name"

end Monkit.Traced.Spec
