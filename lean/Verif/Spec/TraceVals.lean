import Verif.Model.TraceVals

/-!
# What the history of a trace's values says
-/

namespace Monkit.Spec.TraceVals
open Monkit.TraceVals

/-- The value last set for `k`; `none` if it was never set. -/
def cur (tr : List Event) (k : Key) : Option Val :=
  tr.foldl (fun m e => match e with | .acquire _ (.set k' v) => if k' = k then some v else m | _ => m) none

/-- The value last stored by callers for `k` in the map `a` that `GetAll` gave them; `none` if they stored none. -/
def edited (a : Nat) (tr : List Event) (k : Key) : Option Val :=
  tr.foldl (fun m e => match e with | .uset a' k' v => if a' = a ∧ k' = k then some v else m | _ => m) none

/-- Whether an event belongs to goroutine `t`'s calls. -/
def by_ (t : Nat) : Event → Bool
  | .call t' _ | .acquire t' _ | .ret t' _ | .panic t' => t' == t
  | _ => false

/-- What goroutine `t` has done, in order. -/
def own (t : Nat) (tr : List Event) : List Event := tr.filter (by_ t)

end Monkit.Spec.TraceVals
