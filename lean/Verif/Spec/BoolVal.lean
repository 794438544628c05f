import Verif.Model.BoolVal

/-!
# What the trace of a `BoolVal` says
-/

namespace Monkit.Spec.BoolVal
open Monkit.BoolVal (Event)

/-- How many `Observe(v)` calls have begun. -/
def begun (v : Bool) (tr : List Event) : Nat :=
  tr.countP fun e => match e with | .begin _ w => w == v | _ => false

/-- How many `Observe(v)` calls have returned. -/
def finished (v : Bool) (tr : List Event) : Nat :=
  tr.countP fun e => match e with | .finish _ w => w == v | _ => false

/-- The value most recently stored as the recent one (0 at first). -/
def lastStored (tr : List Event) : Int32 :=
  tr.foldl (fun r e => match e with | .stored _ v => if v then 1 else 0 | _ => r) 0

/-- Which goroutine an event belongs to. -/
def who : Event → Nat
  | .begin t _ | .stored t _ | .finish t _ | .ask t | .report t _ _ _ _ => t

/-- What goroutine `t` has done, in order. -/
def own (t : Nat) (tr : List Event) : List Event := tr.filter fun e => who e == t

end Monkit.Spec.BoolVal
