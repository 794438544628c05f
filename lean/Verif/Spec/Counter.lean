import Verif.Model.Counter

/-!
# Specification of a counter, over mathematical integers

Written without reference to the model's functions: only the names of the calls are used.
-/

namespace Monkit.Spec

open Monkit.Counter (Op)

/-- Two's-complement wrap-around of a mathematical integer into the int64 range. -/
def wrap (x : Int) : Int := Int.bmod x (2 ^ 64)

/-- The counter's value after a history of calls. -/
def counterValue (ops : List Op) : Int :=
  ops.foldl (fun x o => match o with
    | .set v => v.toInt
    | .inc d => wrap (x + d.toInt)
    | .dec d => wrap (x - d.toInt)
    | .reset => 0
    | _ => x) 0

/-- Is the call one that gives the counter a (new) value? -/
def isUpdate : Op → Bool
  | .set _ | .inc _ | .dec _ => true
  | _ => false

/-- `v` is one of the values the counter was given since the last `Reset`: the history splits as
`pre ++ [update] ++ post` with no `Reset` in `post`, and `v` is the value right after the update. -/
def tookSinceReset (ops : List Op) (v : Int) : Prop :=
  ∃ pre u post, ops = pre ++ u :: post ∧ isUpdate u = true ∧ Op.reset ∉ post ∧
    v = counterValue (pre ++ [u])

/-- `m` is the greatest value taken since the last reset, or 0 if none was. -/
def counterHigh (ops : List Op) (m : Int) : Prop :=
  (tookSinceReset ops m ∧ ∀ v, tookSinceReset ops v → v ≤ m) ∨
  ((∀ v, ¬ tookSinceReset ops v) ∧ m = 0)

/-- `m` is the least value taken since the last reset, or 0 if none was. -/
def counterLow (ops : List Op) (m : Int) : Prop :=
  (tookSinceReset ops m ∧ ∀ v, tookSinceReset ops v → m ≤ v) ∨
  ((∀ v, ¬ tookSinceReset ops v) ∧ m = 0)

end Monkit.Spec

namespace Monkit.Spec
open Monkit.Counter (Op Res)

/-- What a call must return when it is made after the history `pre`. -/
def counterResult (pre : List Op) : Op → Res → Prop
  | .set _, r => ∃ v, r = .val v ∧ v.toInt = counterValue pre
  | .inc d, r => ∃ v, r = .val v ∧ v.toInt = wrap (counterValue pre + d.toInt)
  | .dec d, r => ∃ v, r = .val v ∧ v.toInt = wrap (counterValue pre - d.toInt)
  | .reset, r => ∃ v l h, r = .triple v l h ∧ v.toInt = counterValue pre ∧
      counterLow pre l.toInt ∧ counterHigh pre h.toInt
  | .high, r => ∃ v, r = .val v ∧ counterHigh pre v.toInt
  | .low, r => ∃ v, r = .val v ∧ counterLow pre v.toInt
  | .current, r => ∃ v, r = .val v ∧ v.toInt = counterValue pre
  | .stats, _ => True -- see `counterReport`

open Go in
/-- What `Stats` must report for a counter with key `k` after the history `pre`. -/
def counterReport (k : Key) (pre : List Op) (r : List (Key × Str × FVal)) : Prop :=
  ∃ hi lo v, r = [(k, b!"high", hi), (k, b!"low", lo), (k, b!"value", FVal.int v)] ∧
    v.toInt = counterValue pre ∧
    (((∀ x, ¬ tookSinceReset pre x) ∧ hi = .nan ∧ lo = .nan) ∨
     (∃ h l : Int64, hi = .int h ∧ lo = .int l ∧ counterHigh pre h.toInt ∧ counterLow pre l.toInt ∧
        l.toInt ≤ v.toInt ∧ v.toInt ≤ h.toInt ∧ (∃ x, tookSinceReset pre x)))

end Monkit.Spec
