import Verif.Go.Str
import Verif.Model.Basic

/-!
# struct.go:33-79: statistics from a struct, by reflection

A Go value as far as this code can tell values apart.  The value of a field of numeric kind is given as converted to float64
(`field.Convert(f64Type).Float()`); the tag is what `Tag.Get("monkit")` returns.  A value that contains itself through pointers has
no counterpart here (the code would not come back from it).
-/

namespace Monkit.Struct
open Go

mutual
/-- Go values (struct.go:33-79). -/
inductive Val where
  /-- a kind `ConvertibleTo(float64)` -/
  | num (v : FVal)
  /-- a kind `ConvertibleTo(bool)` -/
  | bool (b : Bool)
  | ptr (v : Val)
  | nilPtr
  | struct (fs : Fields)
  /-- anything else: strings, slices, maps, interfaces, ... -/
  | other
/-- The fields of a struct, in order of declaration: name, monkit tag, exported (`CanInterface`) or not, value (struct.go:43-47). -/
inductive Fields where
  | nil
  | cons (name tag : Str) (exported : Bool) (v : Val) (rest : Fields)
end

/-- `strings.Split(s, ",")`: `cur` is the part being read, reversed (struct.go:47). -/
def splitComma : Str → Str → List Str
  | cur, [] => [cur.reverse]
  | cur, c :: s => if c = 44 then cur.reverse :: splitComma [] s else splitComma (c :: cur) s

/-- struct.go:47-52. -/
def ignored (tag : Str) : Bool := (splitComma [] tag).any fun part => part = b!"ignore"

/-- struct.go:74-79 `deref`; `none` is the panic of `Type()` on what a nil pointer's `Elem()` gives. -/
def deref : Val → Option Val
  | .ptr v => deref v
  | .nilPtr => none
  | v => some v

mutual
/-- struct.go:33-41: `StatSourceFromStruct(key, v).Stats`: the calls of `cb`, without the key, which never changes; `none`: it panics. -/
def stats : Val → Option (List (Str × FVal))
  | .ptr v => stats v
  | .nilPtr => none
  | .struct fs => fieldsStats fs
  | _ => some []
/-- struct.go:54-68: a field that is not ignored. -/
def fieldStats (name : Str) (exported : Bool) : Val → Option (List (Str × FVal))
  | .ptr v => fieldStats name exported v
  | .nilPtr => none
  | .struct fs => if exported then (fieldsStats fs).map (·.map fun x => (name ++ [46] ++ x.1, x.2)) else some []
  | .num x => some [(name, x)]
  | .bool b => some [(name, if b then .int 1 else .int 0)]
  | .other => some []
/-- struct.go:42-70: the loop over the fields. -/
def fieldsStats : Fields → Option (List (Str × FVal))
  | .nil => some []
  | .cons name tag exported v rest =>
    match deref v with
    | none => none
    | some _ =>
      if ignored tag then fieldsStats rest
      else match fieldStats name exported v with
        | none => none
        | some a => match fieldsStats rest with
          | none => none
          | some b => some (a ++ b)
end

end Monkit.Struct
