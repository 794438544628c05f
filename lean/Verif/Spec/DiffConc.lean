import Verif.Model.DiffConc
import Verif.Spec.Meter

/-!
# Specification of a DiffMeter whose meters are in use
-/

namespace Monkit.DiffConc.Spec
open Go Monkit.Spec

/-- The changes of meter `i` goroutine `t` called, in order. -/
def called (t i : Nat) (tr : List Event) : List Meter.Op := tr.filterMap fun
  | .call t' (.change i' o) => if t' = t ∧ i' = i then some o else none
  | _ => none

/-- Those that have returned. -/
def returned (t i : Nat) (tr : List Event) : List Meter.Op := tr.filterMap fun
  | .ret t' (.change i' o) _ => if t' = t ∧ i' = i then some o else none
  | _ => none

/-- The changes goroutine `t` made, among those in `h`. -/
def by_ (t : Nat) (h : List (Nat × Meter.Op)) : List Meter.Op := (h.filter (·.1 = t)).map (·.2)

/-- After `tr` the changes `h` of meter `i` may be what has taken effect: of each goroutine the first so many that were called, among them
all that have returned. -/
def Between (h : List (Nat × Meter.Op)) (i : Nat) (tr : List Event) : Prop :=
  ∀ t, returned t i tr <+: by_ t h ∧ by_ t h <+: called t i tr

/-- The time after `tr`. -/
def timeAfter (tr : List Event) : Int :=
  (tr.filterMap fun | .time n => some n | _ => none).getLast?.getD 0

/-- `e` is not an event of goroutine `t`. -/
def NotBy (t : Nat) : Event → Prop
  | .call t' _ => t' ≠ t
  | .ret t' _ _ => t' ≠ t
  | .time _ => True

/-- What a meter created at `born` that has seen the changes `h` counts: the total of its log (`Spec.Log.total`). -/
def total (born : Int) (h : List (Nat × Meter.Op)) : Int := (logOf born (h.map (·.2))).total

/-- Its rate at time `now`. -/
def rate (born : Int) (h : List (Nat × Meter.Op)) (now : Int) : ℚ :=
  rateOf (logOf born (h.map (·.2))).current (timeSub now (logOf born (h.map (·.2))).windowStart)

/-- The report called `k` of a difference. -/
def report (k : Key) (born : Nat → Int) (a b : Nat) (ha hb : List (Nat × Meter.Op)) (now : Int) (d : Int64) : Res :=
  some [(k, b!"rate", .flt (Go.Float.rn 53 (rate (born a) ha now - rate (born b) hb now))), (k, b!"total", .int d)]

/-- The changes of each meter can be put in an order that agrees with real time: at every moment those before some point of
it may be what has taken effect. -/
def Order (H : Nat → List (Nat × Meter.Op)) (tr : List Event) : Prop :=
  ∀ i p q, tr = p ++ q → ∃ n, Between ((H i).take n) i p

end Monkit.DiffConc.Spec
