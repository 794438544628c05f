import Verif.Model.Annotations

/-!
# What the history of a span's annotations says
-/

namespace Monkit.Spec.Annotations
open Monkit.Annotations

/-- The annotations added, in order. -/
def added (tr : List Event) : List Annotation :=
  tr.filterMap fun e => match e with | .acquire _ (.annotate x) => some x | _ => none

/-- The last element that callers stored at index `i` of the array `a` they were given. -/
def edited (a i : Nat) (tr : List Event) : Option Annotation :=
  tr.foldl (fun m e => match e with | .uset a' i' x => if a' = a ∧ i' = i then some x else m | _ => m) none

/-- Whether an event belongs to goroutine `t`'s calls. -/
def by_ (t : Nat) : Event → Bool
  | .call t' _ | .acquire t' _ | .done t' | .list t' _ _ => t' == t
  | _ => false

/-- What goroutine `t` has done, in order. -/
def own (t : Nat) (tr : List Event) : List Event := tr.filter (by_ t)

end Monkit.Spec.Annotations
