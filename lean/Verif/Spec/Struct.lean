import Verif.Model.Struct

/-!
# Specification: the reported fields of a struct
-/

namespace Monkit.Struct.Spec
open Go Monkit.Struct

/-- The tag lists the word "ignore" between commas. -/
def Ignored (tag : Str) : Prop := ∃ a b : Str, tag = a ++ b!"ignore" ++ b ∧ (a = [] ∨ ∃ a', a = a' ++ b!",") ∧
  (b = [] ∨ ∃ b', b = b!"," ++ b')

/-- `Follows v w`: following pointers from `v` leads to `w`, which is not a pointer. -/
inductive Follows : Val → Val → Prop where
  | here (v : Val) : (∀ w, v ≠ .ptr w) → v ≠ .nilPtr → Follows v v
  | there (v w : Val) : Follows v w → Follows (.ptr v) w

/-- Dotted path. -/
def dotted : List Str → Str
  | [] => []
  | [n] => n
  | n :: ns => n ++ b!"." ++ dotted ns

/-- The numbers a struct with these fields shows: for each field that is not ignored, in order, the number or truth value itself, or,
for an exported field leading to a struct, what that one shows, one level deeper. -/
inductive Shows : Fields → List (List Str × FVal) → Prop where
  | nil : Shows .nil []
  | ignored {name tag ex v rest l} : Ignored tag → Shows rest l → Shows (.cons name tag ex v rest) l
  | num {name tag ex v rest l x} : ¬ Ignored tag → Follows v (.num x) → Shows rest l →
      Shows (.cons name tag ex v rest) (([name], x) :: l)
  | bool {name tag ex v rest l b} : ¬ Ignored tag → Follows v (.bool b) → Shows rest l →
      Shows (.cons name tag ex v rest) (([name], .int (if b then 1 else 0)) :: l)
  | struct {name tag v rest l fs k} : ¬ Ignored tag → Follows v (.struct fs) → Shows fs k → Shows rest l →
      Shows (.cons name tag true v rest) (k.map (fun x => (name :: x.1, x.2)) ++ l)
  | hidden {name tag v rest l fs} : ¬ Ignored tag → Follows v (.struct fs) → Shows rest l → Shows (.cons name tag false v rest) l
  | other {name tag ex v rest l} : ¬ Ignored tag → Follows v .other → Shows rest l → Shows (.cons name tag ex v rest) l

mutual
/-- No nil pointer is met: pointers lead to a value from the start, from every field (reported or not), and so on inside the exported
structs that are not ignored. -/
def Clean : Val → Prop
  | .ptr v => Clean v
  | .nilPtr => False
  | .struct fs => CleanFields fs
  | _ => True
def CleanFields : Fields → Prop
  | .nil => True
  | .cons _ tag ex v rest => (∃ w, Follows v w) ∧ (¬ Ignored tag → ex = true → Clean v) ∧ CleanFields rest
end

end Monkit.Struct.Spec
