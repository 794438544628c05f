import Verif.Model.Delta
import Mathlib.Algebra.BigOperators.Group.List.Basic

/-!
# Specification: deltas of totals
-/

namespace Monkit.Delta.Spec
open Go Monkit.Delta

variable {V : Type}

/-- Is it a total of series `n`? -/
def isTotal (wf : Key → Str → Str) (n : Str) (y : Stat V) : Bool := y.2.1 = b!"total" ∧ wf y.1 y.2.1 = n

/-- The totals of series `n`, in order. -/
def totals (wf : Key → Str → Str) (n : Str) (xs : List (Stat V)) : List V := (xs.filter (isTotal wf n)).map (·.2.2)

/-- What comes out for `x` after `before`: `x` itself and, if it is a total and not the first of its series, one delta.  The Boolean
marks deltas. -/
def piece (sub : V → V → V) (wf : Key → Str → Str) (before : List (Stat V)) (x : Stat V) : List (Bool × Stat V) :=
  (false, x) ::
    if x.2.1 = b!"total" then
      match (totals wf (wf x.1 x.2.1) before).getLast? with
      | some old => [(true, x.1, b!"delta", sub x.2.2 old)]
      | none => []
    else []

/-- What comes out for a stream. -/
def outs (sub : V → V → V) (wf : Key → Str → Str) : List (Stat V) → List (Stat V) → List (Bool × Stat V)
  | _, [] => []
  | before, x :: xs => piece sub wf before x ++ outs sub wf (before ++ [x]) xs

/-- The deltas among them of series `n`. -/
def deltas (wf : Key → Str → Str) (n : Str) (l : List (Bool × Stat V)) : List V :=
  (l.filter fun y => y.1 = true ∧ wf y.2.1 b!"total" = n).map (·.2.2.2)

/-- Last minus first (zero if there are fewer than two). -/
def span [AddCommGroup V] : List V → V
  | [] => 0
  | x :: xs => (x :: xs).getLast (by simp) - x

/-! ### Histories of many goroutines -/

/-- The exchanges of a history, in order. -/
def swaps (tr : List (Ev V)) : List (Stat V) := tr.filterMap fun | .swap _ x _ => some x | _ => none

/-- What comes out through goroutine `t`. -/
def outsOf (t : Nat) (tr : List (Ev V)) : List (Bool × Stat V) := tr.filterMap fun
  | .out t' x => if t' = t then some (false, x) else none
  | .outDelta t' x => if t' = t then some (true, x) else none
  | _ => none

/-- All deltas that came out. -/
def deltasOut (tr : List (Ev V)) : List (Nat × Stat V) := tr.filterMap fun | .outDelta t x => some (t, x) | _ => none

/-- The deltas due: one for each exchange that found a value. -/
def due (sub : V → V → V) (tr : List (Ev V)) : List (Nat × Stat V) := tr.filterMap fun
  | .swap t x (some old) => some (t, x.1, b!"delta", sub x.2.2 old)
  | _ => none

/-- What should come out through `t` in a history in which its calls are complete: for each call of another field the value, for
each exchange the total and, if it found a value, the delta. -/
def expected (sub : V → V → V) (t : Nat) (tr : List (Ev V)) : List (Bool × Stat V) := tr.flatMap fun
  | .call t' x => if t' = t ∧ x.2.1 ≠ b!"total" then [(false, x)] else []
  | .swap t' x o => if t' = t then (false, x) :: (match o with | some old => [(true, x.1, b!"delta", sub x.2.2 old)] | none => []) else []
  | _ => []

end Monkit.Delta.Spec
