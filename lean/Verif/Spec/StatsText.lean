import Verif.Spec.Tags
import Verif.Model.StatsText

/-!
# Specification: reading statistics as text (C91)
-/

namespace Monkit.StatsText.Spec
open Go Go.Float

/-- The number written with these digits. -/
def nat (ds : Str) : Nat := ds.foldl (fun n c => n * 10 + (c.toNat - 48)) 0

/-- Digits, at least one. -/
def Digits (ds : Str) : Prop := ds ≠ [] ∧ ∀ c ∈ ds, 48 ≤ c.toNat ∧ c.toNat ≤ 57

/-- `Reads t r`: `t` is the number `r` written with six digits after the point. -/
inductive Reads : Str → ℚ → Prop where
  | pos (a b : Str) : Digits a → Digits b → b.length = 6 → Reads (a ++ b!"." ++ b) (nat a + nat b / 10 ^ 6)
  | neg (a b : Str) : Digits a → Digits b → b.length = 6 → Reads (b!"-" ++ a ++ b!"." ++ b) (-(nat a + nat b / 10 ^ 6))

/-- `t` shows the value: NaN, an infinity with its sign, or a number as near as six digits after the point allow, with the sign of the value. -/
inductive Shows : F → Str → Prop where
  | nan : Shows .nan b!"NaN"
  | pinf : Shows (.inf false) b!"+Inf"
  | ninf : Shows (.inf true) b!"-Inf"
  | num (q r : ℚ) (t : Str) : Reads t r → |r - q| ≤ 1 / 2 / 10 ^ 6 → (t.head? = some 45 ↔ q < 0) → Shows (.fin q) t

/-- The series has no newline in its name. -/
def OneLine (x : Key × Str × FVal) : Prop :=
  10 ∉ x.1.measurement ∧ (∀ kv ∈ x.1.tags, 10 ∉ kv.1 ∧ 10 ∉ kv.2) ∧ 10 ∉ x.2.1

/-- The name of a series in text: its tags are listed in order. -/
def IsName (x : Key × Str × FVal) (s : Str) : Prop :=
  ∃ tags : List (Str × Str), tags.Perm x.1.tags ∧ tags.Pairwise (fun a b => strLe a.1 b.1 = true) ∧ s = Tags.Spec.fieldText x.1.measurement tags x.2.1

/-- Values that differ by at most a millionth, or are both NaN, or the same infinity. -/
def Close : F → F → Prop
  | .nan, .nan => True
  | .inf a, .inf b => a = b
  | .fin a, .fin b => |a - b| ≤ 1 / 10 ^ 6
  | _, _ => False

/-- The text consists of the lines `ls`. -/
def IsLines (s : Str) (ls : List Str) : Prop := s = ls.flatMap (fun l => l ++ [10]) ∧ ∀ l ∈ ls, 10 ∉ l

/-- The line is a name and, after its last equals sign, a value. -/
def IsEntry (l name value : Str) : Prop := l = name ++ b!"=" ++ value ∧ 61 ∉ value

end Monkit.StatsText.Spec
