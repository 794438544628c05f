import Verif.Model.Dist

/-!
# Specification of distributions
-/

namespace Monkit.Spec
open Monkit.Dist (Op)
variable {V : Type}

/-- The values inserted since construction or the last `Reset`, oldest first. -/
def inserted (ops : List (Op V)) : List V :=
  ops.foldl (fun acc o => match o with
    | .insert v _ => acc ++ [v]
    | .reset => []
    | _ => acc) []

/-- `m` is the least element of `vs`, or 0 if there is none. -/
def isMinOrZero (vs : List Int64) (m : Int64) : Prop :=
  (vs = [] ∧ m = 0) ∨ (m ∈ vs ∧ ∀ v ∈ vs, m.toInt ≤ v.toInt)

/-- `m` is the greatest element of `vs`, or 0 if there is none. -/
def isMaxOrZero (vs : List Int64) (m : Int64) : Prop :=
  (vs = [] ∧ m = 0) ∨ (m ∈ vs ∧ ∀ v ∈ vs, v.toInt ≤ m.toInt)

/-- Two's-complement sum. -/
def wrapSum (vs : List Int64) : Int := Int.bmod (vs.map Int64.toInt).sum (2 ^ 64)

end Monkit.Spec
