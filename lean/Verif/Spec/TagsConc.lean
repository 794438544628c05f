import Verif.Model.TagsConc
import Verif.Spec.Tags

/-!
# Specification of the string of a shared tag set
-/

namespace Monkit.TagsConc.Spec
open Go

/-- The bytes a string has; `none`: reading them is a memory fault, or gives bytes that are not part of any string. -/
def text (w : Words) : Option Str :=
  if w.len = 0 then some []
  else match w.ptr with
    | none => none
    | some s => if w.len ≤ s.length then some (s.take w.len) else none

/-- `w` is the string of the tag set with the pairs `all`: `k1=v1,k2=v2` in increasing order of keys. -/
def Right (all : Map Str Str) (w : Words) : Prop :=
  ∃ tags, Tags.Spec.Lists (Map.get all) tags ∧ text w = some (Tags.Spec.tagsText tags)

end Monkit.TagsConc.Spec
