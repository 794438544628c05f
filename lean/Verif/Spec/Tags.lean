import Verif.Model.Tags

/-!
# Specification of tag sets and series names
-/

namespace Monkit.Tags.Spec
open Go

/-- The value the last pair with key `k` gives it. -/
def lastFor (kvs : List (Str × Str)) (k : Str) : Option Str := (kvs.reverse.find? (fun x => x.1 = k)).map (·.2)

/-- Each special byte gets a backslash before it. -/
def escape (special : List UInt8) : Str → Str
  | [] => []
  | c :: s => if c ∈ special then 92 :: c :: escape special s else c :: escape special s

/-- ',' '=' ' ' -/
def tagSpecial : List UInt8 := [44, 61, 32]
/-- ',' ' ' -/
def measurementSpecial : List UInt8 := [44, 32]

/-- One tag: `key=value`. -/
def tagText (x : Str × Str) : Str := escape tagSpecial x.1 ++ b!"=" ++ escape tagSpecial x.2

/-- `k1=v1,k2=v2` -/
def tagsText : List (Str × Str) → Str
  | [] => []
  | [x] => tagText x
  | x :: xs => tagText x ++ b!"," ++ tagsText xs

/-- The name of a series: `measurement,k1=v1,k2=v2`, without the comma if there are no tags. -/
def seriesText (m : Str) (tags : List (Str × Str)) : Str :=
  escape measurementSpecial m ++ (if tags = [] then [] else b!"," ++ tagsText tags)

def fieldText (m : Str) (tags : List (Str × Str)) (field : Str) : Str :=
  seriesText m tags ++ b!" " ++ escape tagSpecial field

/-- `tags` lists a tag map, given by what it assigns to each key, in increasing order of keys. -/
structure Lists (content : Str → Option Str) (tags : List (Str × Str)) : Prop where
  mem : ∀ k v, (k, v) ∈ tags ↔ content k = some v
  sorted : tags.Pairwise fun a b => strLt a.1 b.1 = true

/-- No backslash right before a special byte or at the end. -/
def Clean (special : List UInt8) (s : Str) : Prop :=
  (∀ a b c, s = a ++ [92, c] ++ b → c ∉ special) ∧ ∀ a, s ≠ a ++ [92]

end Monkit.Tags.Spec
