import Verif.Go.Quote
import Verif.Model.Present
import Verif.Model.JsonDocs

/-!
# The arguments of a span as texts (span.go:105-150)
-/

namespace Monkit.Args
open Go Go.Quote

/-- An element of an argument of type `[]interface{}` (span.go:127-147).  The texts of times and of what falls to `%#v` are given. -/
inductive Elem where
  | str (s : Str)
  | bytes (b : Str)
  /-- a `time.Time` that `Format` writes so -/
  | time (text : Str)
  /-- any other value, which `%#v` writes so -/
  | other (text : Str)
  deriving DecidableEq

/-- An argument given to a Task (span.go:109-121). -/
inductive Arg where
  | str (s : Str)
  | bytes (b : Str)
  | list (l : List Elem)
  | time (text : Str)
  | other (text : Str)
  deriving DecidableEq

/-- span.go:113-114, 136-139. -/
def bytesText (b : Str) : Str := b!"[]uint8(0x" ++ hexString b ++ b!")"

/-- span.go:117-118, 140-143. -/
def timeText (t : Str) : Str := b!"time.Time(" ++ t ++ b!")"

/-- One element (span.go:133-146). -/
def elemText (wide : Nat → Bool) : Elem → Str
  | .str s => quote wide s
  | .bytes b => bytesText b
  | .time t => timeText t
  | .other t => t

/-- span.go:127-150 `interfacesToString`: the loop, `i` being the index. -/
def elemsText (wide : Nat → Bool) : Nat → List Elem → Str
  | _, [] => []
  | i, e :: l => (if i > 0 then b!", " else []) ++ elemText wide e ++ elemsText wide (i + 1) l

/-- span.go:110-121: one argument. -/
def argText (wide : Nat → Bool) : Arg → Str
  | .str s => quote wide s
  | .bytes b => bytesText b
  | .list l => b!"{" ++ elemsText wide 0 l ++ b!"}"
  | .time t => timeText t
  | .other t => t

/-- span.go:107-124 `Args`. -/
def args (wide : Nat → Bool) (l : List Arg) : List Str := l.map (argText wide)

/-- `strings.Join(s.Args(), " ")` (present/trace.go:333). -/
def joinSpace : List Str → Str
  | [] => []
  | [a] => a
  | a :: as => a ++ b!" " ++ joinSpace as

end Monkit.Args
