import Verif.Model.FuncStats

/-!
# Specification of function statistics
-/

namespace Monkit.Spec
open Monkit.FuncStats (Op)
variable {E : Type}

/-- How an observation ended. -/
inductive Class (E : Type) where
  | success
  | error (e : E)
  | panic

/-- A panic counts as a panic whatever the error; otherwise a non-nil error counts as an error. -/
def classify (err : Option E) (panicked : Bool) : Class E :=
  if panicked then .panic else match err with
    | none => .success
    | some e => .error e

/-- The observations finished since construction or the last `Reset`, with their durations. -/
def finishedObs (ops : List (Op E)) : List (Class E × Int64) :=
  ops.foldl (fun acc o => match o with
    | .start => acc
    | .finish err p d _ => acc ++ [(classify err p, d)]
    | .reset => []) []

def Class.isSuccess : Class E → Bool | .success => true | _ => false
def Class.isPanic : Class E → Bool | .panic => true | _ => false
def Class.isError : Class E → Bool | .error _ => true | _ => false

/-- The class is an error that is given the name `n`. -/
def Class.named (name : E → Go.Str) (n : Go.Str) : Class E → Bool
  | .error e => decide (name e = n)
  | _ => false

end Monkit.Spec
