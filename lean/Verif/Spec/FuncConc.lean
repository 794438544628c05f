import Verif.Model.FuncConc
import Verif.Spec.FuncStats

namespace Monkit.FuncConc
open Monkit.FuncStats (Op)

/-- The sequential call that a process amounts to; a report changes nothing. -/
def Kind.op {E : Type} : Kind E → List (Op E)
  | .call e p d w => [.finish e p d w]
  | .reset => [.reset]
  | .report => []

/-- Calls of `end` and `Reset`, one after the other. -/
def history {E : Type} (kind : Nat → Kind E) (log : List Nat) : List (Op E) := log.flatMap fun n => (kind n).op

/-- The `end` of the call, or the `Reset`, has been called. -/
def Called : PC → Prop
  | .sub | .zeroCur | .zeroHw | .wait _ _ | .inside _ _ | .unlock _ | .over _ => True
  | _ => False

/-- It has returned. -/
def Returned : PC → Prop
  | .over _ => True
  | _ => False

/-- `start` has been called and has not returned. -/
def Starting : PC → Prop
  | .add | .load _ | .cas _ _ => True
  | _ => False

end Monkit.FuncConc
