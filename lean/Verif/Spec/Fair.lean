import Verif.Spec.Dist
import Verif.Props.Dist

/-!
# Which observations a distribution keeps, on average (C111)

A distribution that has seen more than 64 values keeps a random sample of 64 of them.  Here the
random numbers it draws are a list, the *tape*, and averages are taken over all tapes.
-/

namespace Monkit.Spec
open Monkit.Dist (Op)
variable {V R : Type}

/-- The mean of a list of numbers. -/
def mean (l : List ℚ) : ℚ := l.sum / l.length

/-- The generator that yields the numbers on the tape one by one; its state is the number of numbers
drawn so far. -/
def tapeNext (tape : List UInt64) (i : Nat) : UInt64 × Nat := (tape.getD i 0, i + 1)

/-- The mean of `f` over all tapes whose first number is any number below `ns[0]`, whose second is any
number below `ns[1]` and so on: its expectation if these numbers are drawn independently and
uniformly. -/
def expect : List Nat → (List UInt64 → ℚ) → ℚ
  | [], f => f []
  | n :: ns, f => mean ((List.range n).map fun u => expect ns fun t => f (UInt64.ofNat u :: t))

/-- How many recent values count when the `n`th value is inserted: `n`, but at most `Window` if that is positive. -/
def width (W : Int64) (n : Nat) : Nat := if 0 < W.toInt ∧ W.toInt < n then W.toInt.toNat else n

/-- One call, for `draws`: the number of values so far and the widths so far. -/
def drawStep : Nat × List Nat → Op V → Nat × List Nat
  | (n, ws), .insert _ W => (n + 1, if n < 64 then ws else ws ++ [width W (n + 1)])
  | (_, ws), .reset => (0, ws)
  | (n, ws), _ => (n, ws)

/-- The widths at the insertions that draw a random number: those of the 65th value after construction
or a `Reset` and of all later ones. -/
def draws (ops : List (Op V)) : List Nat := (ops.foldl drawStep (0, [])).2

/-- Each number is drawn from a range that the width divides, so that all remainders are equally likely. -/
def Balanced (ws ns : List Nat) : Prop := List.Forall₂ (fun w n => w ∣ n ∧ 0 < n ∧ n ≤ 2 ^ 64) ws ns

/-- The average of `g` on the sample after the given calls, with the given tape. -/
def sampleMean (K : DistKind V R) (key : Key) (g : R → ℚ) (ops : List (Op V)) (tape : List UInt64) : ℚ :=
  ((Dist.new K key 0).run K (tapeNext tape) ops).elim 0 fun d => mean ((sample d).map g)

/-- One call, for `moving`: the number of values so far and their moving average. -/
def moveStep (g : V → ℚ) : Nat × ℚ → Op V → Nat × ℚ
  | (n, m), .insert v W => (n + 1, m + (g v - m) / width W (n + 1))
  | _, .reset => (0, 0)
  | (n, m), _ => (n, m)

/-- The moving average of `g`: the `n`th value since the last `Reset` pulls it towards itself, by one part in `width W n`. -/
def moving (g : V → ℚ) (ops : List (Op V)) : ℚ := (ops.foldl (moveStep g) (0, 0)).2

/-- `Window` is, at every insertion, at least the size of the sample, or not positive (unlimited). -/
def WideWindows (ops : List (Op V)) : Prop := ∀ v W, Op.insert v W ∈ ops → W.toInt ≤ 0 ∨ 64 ≤ W.toInt

/-- A history that the model covers: fewer than `2^63` calls, quantiles that are float64 numbers. -/
def Covered (ops : List (Op V)) : Prop := ops.length < 2 ^ 63 ∧ ∀ q, Op.query q ∈ ops → Go.Float.Rep 53 q

end Monkit.Spec

namespace Monkit.Spec
open Monkit.Dist (Op)
variable {V R : Type}

/-- `Window` has not been exceeded: at every insertion it is not positive, or at least 64 and at least the number of values, the new one included. -/
def WithinWindow (ops : List (Op V)) : Prop :=
  ∀ pre v W post, ops = pre ++ Op.insert v W :: post → W.toInt ≤ 0 ∨ 64 ≤ W.toInt ∧ ((inserted pre).length : Int) < W.toInt

/-- The number of slots of the sample that hold `x`, after the given calls with the given tape. -/
def slotsHolding [BEq R] (K : DistKind V R) (key : Key) (x : R) (ops : List (Op V)) (tape : List UInt64) : ℚ :=
  ((Dist.new K key 0).run K (tapeNext tape) ops).elim 0 fun d => ((sample d).count x : ℚ)

end Monkit.Spec
