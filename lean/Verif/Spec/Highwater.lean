import Verif.Model.Highwater

/-!
# Specification of `Current` and `Highwater`
-/

namespace Monkit.Spec
open Monkit.Highwater

/-- Number of instances being observed: those that have added themselves minus those that have left,
since the last time a `Reset` zeroed the number. -/
def instances (tr : List Event) : Int :=
  tr.foldl (fun n e => match e with
    | .add _ => n + 1
    | .sub _ => n - 1
    | .zero _ => 0
    | _ => n) 0

/-- `m` is the largest number of instances there has been at any moment of the trace. -/
def IsPeak (tr : List Event) (m : Int) : Prop :=
  (∃ a b, tr = a ++ b ∧ instances a = m) ∧ ∀ a b, tr = a ++ b → instances a ≤ m

/-- No `Reset` is called in the trace. -/
def NoReset (tr : List Event) : Prop := ∀ t, Event.reset t ∉ tr

end Monkit.Spec
