import Verif.Go.Mutex
import Verif.Model.Struct

/-!
# val.go:162-203: `StructVal`

A value is what an `interface{}` holds; a pointer in it stands for what it points to when it is read.
-/

namespace Monkit.StructVal
open Go.Mutex Go

/-- The calls; `none` is the nil interface (val.go:186-203). -/
inductive Op where
  | observe (v : Option Struct.Val)
  | stats

/-- What is returned, or reported: `Stats` panics if `none` (val.go:186-203). -/
inductive Res where
  | unit
  | report (r : Option (List (Key × Str × FVal)))

/-- val.go:186-190 `Observe`, 193-203 `Stats`; the local variable is `recent`. -/
def obj (key : Key) : Obj (Option Struct.Val) (Option Struct.Val) Op Res where
  enter _ := none
  body
    | .observe v => [fun (_, l) => (v, l)]
    | .stats => [fun (s, _) => (s, s)]
  result
    | .observe _, _ => .unit
    | .stats, none => .report (some [])
    | .stats, some v => .report ((Struct.stats v).map (·.map fun x => (key, x.1, x.2)))

end Monkit.StructVal
