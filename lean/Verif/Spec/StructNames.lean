import Verif.Model.Struct

/-!
# Specification: names of the fields of structs
-/

namespace Monkit.Struct.Spec
open Go Monkit.Struct

/-- The names of the fields of a struct. -/
def names : Fields → List Str
  | .nil => []
  | .cons name _ _ _ rest => name :: names rest

mutual
/-- In every struct in the value no two fields have the same name, and no name has a dot in it: the rules of Go, but for fields called "_", of which there may be
several. -/
def Named : Val → Prop
  | .ptr v => Named v
  | .struct fs => NamedFields fs
  | _ => True
/-- The same for the fields of a struct. -/
def NamedFields : Fields → Prop
  | .nil => True
  | .cons name _ _ v rest => 46 ∉ name ∧ name ∉ names rest ∧ Named v ∧ NamedFields rest
end

end Monkit.Struct.Spec
