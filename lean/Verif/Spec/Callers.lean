import Verif.Model.Callers

/-!
# Specification: how Go names functions

`pathToPrefix` is what Go's tools (`cmd/internal/objabi.PathToPrefix`) do to an import path to put it into a symbol name: bytes that
could be confused with the rest are written as `%xx`; after the last slash this includes the dot.
-/

namespace Monkit.Callers.Spec
open Go

/-- A digit of a byte in lower case hexadecimal. -/
def hex (n : UInt8) : UInt8 := if n < 10 then 48 + n else 87 + n

/-- `%xx` -/
def escape (c : UInt8) : Str := [37, hex (c / 16), hex (c % 16)]

/-- The byte needs escaping wherever it is: blanks and control characters, `%`, `"`, and beyond ASCII. -/
def special (c : UInt8) : Bool := c ≤ 32 || c = 37 || c = 34 || c ≥ 127

def pathToPrefix : Str → Str
  | [] => []
  | c :: p => (if special c || (c = 46 && !p.contains 47) then escape c else [c]) ++ pathToPrefix p

/-- The full name of function `f` of the package imported as `path`. -/
def fullName (path f : Str) : Str := pathToPrefix path ++ b!"." ++ f

/-- A path that appears unchanged in names: no special bytes and no dot after the last slash. -/
def Plain (path : Str) : Prop := pathToPrefix path = path

end Monkit.Callers.Spec
