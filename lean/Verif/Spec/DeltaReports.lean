import Verif.Model.DeltaReports

/-!
# What deltas have to be
-/

namespace Monkit.DeltaReports
open Go

/-- How much has been recorded by the events. -/
def recorded : List Ev → Nat
  | [] => 0
  | .mark k :: es => k + recorded es
  | _ :: es => recorded es

/-- The totals that were read, oldest first. -/
def readTotals : List Ev → List Nat
  | [] => []
  | .read _ v :: es => v :: readTotals es
  | _ :: es => readTotals es

/-- No report reads before the one that read last has passed on what it read. -/
def OneAtATime (tr : List Ev) : Prop :=
  ∀ p n v q n' v' r, tr = p ++ .read n v :: (q ++ .read n' v' :: r) → ∃ d, .out n v d ∈ q

end Monkit.DeltaReports
