import Verif.Model.Basic
import Verif.Go.Float

/-!
# meter.go

A point in time is the `Int` number of nanoseconds of the monotonic clock.  Readings of the clock
are arguments.
-/

namespace Monkit

open Go Go.Float

/-- meter.go:33-36. -/
structure Bucket where
  count : Int64
  start : Int
  deriving DecidableEq

/-- meter.go:52-57.  The slices are listed in the order of the array. -/
structure Meter where
  total : Int64
  slices : List Bucket
  key : Key

/-- meter.go:25. -/
def ticksToKeep : Nat := 24

/-- `time.Time.Sub` on monotonic readings: the difference as an int64, saturating (meter.go:127). -/
def timeSub (t u : Int) : Int64 :=
  if t - u < -(2 ^ 63) then Int64.minValue
  else if 2 ^ 63 - 1 < t - u then Int64.maxValue
  else Int64.ofInt (t - u)

/-- `time.Duration.Seconds`: `float64(d/Second) + float64(d%Second)/1e9` (meter.go:127). -/
def seconds (d : Int64) : ℚ :=
  rn 53 (rn 53 (d / 1000000000).toInt + rn 53 (rn 53 (d % 1000000000).toInt / 1000000000))

namespace Meter

/-- meter.go:60-68 `NewMeter` at time `now` (the registration with the ticker is not modelled:
ticks are calls that may happen at any time). -/
def new (key : Key) (now : Int) : Meter := ⟨0, List.replicate ticksToKeep ⟨0, now⟩, key⟩

/-- meter.go:73-82 `Reset`. -/
def reset (e : Meter) (newTotal : Int64) (now : Int) : Meter :=
  { e with total := newTotal, slices := e.slices.map fun _ => ⟨0, now⟩ }

/-- meter.go:85-89 `SetTotal`. -/
def setTotal (e : Meter) (total : Int64) : Meter := { e with total := total }

/-- meter.go:92-96 `Mark`, 99-103 `Mark64`. -/
def mark (e : Meter) (amount : Int64) : Meter :=
  { e with slices := e.slices.modify (ticksToKeep - 1) fun b => { b with count := b.count + amount } }

/-- meter.go:105-115 `tick`.  `none`: index out of range. -/
def tick (e : Meter) (now : Int) : Option Meter := do
  let last ← e.slices[ticksToKeep - 1]?
  if last.count != 0 then
    let first ← e.slices[0]?
    let e := { e with total := e.total + first.count }
    some { e with slices := (e.slices.drop 1 ++ [last]).set (ticksToKeep - 1) ⟨0, now⟩ }
  else some e

/-- meter.go:117-134 `stats`. -/
def statsAt (e : Meter) (now : Int) : Option (ℚ × Int64) := do
  let first ← e.slices[0]?
  let start := first.start
  let current := e.slices.foldl (fun c b => c + b.count) 0
  let total := e.total + current
  let duration := seconds (timeSub now start)
  let rate := if duration > 0 then rn 53 (rn 53 current.toInt / duration) else 0
  some (rate, total)

/-- meter.go:149-153 `Stats`. -/
def Stats (e : Meter) (now : Int) : Option (List (Key × Str × FVal)) :=
  (e.statsAt now).map fun (rate, total) =>
    [(e.key, b!"rate", .flt rate), (e.key, b!"total", .int total)]

/-- The calls on a meter, including the background ticks (meter.go:73-153, 199-210). -/
inductive Op where
  | mark (amount : Int64)
  | tick (now : Int)
  | setTotal (total : Int64)
  | reset (newTotal : Int64) (now : Int)
  deriving DecidableEq

/-- One call (meter.go:73-153). -/
def step (e : Meter) : Op → Option Meter
  | .mark a => some (e.mark a)
  | .tick now => e.tick now
  | .setTotal t => some (e.setTotal t)
  | .reset t now => some (e.reset t now)

/-- A history of calls (meter.go:73-153). -/
def run (e : Meter) : List Op → Option Meter
  | [] => some e
  | o :: os => (e.step o).bind fun e' => e'.run os

end Meter

/-- meter.go:170-172 `NewDiffMeter`, 175-181 `Stats`; the meters are given by their current state. -/
def diffMeterStats (key : Key) (meter1 meter2 : Meter) (now : Int) :
    Option (List (Key × Str × FVal)) := do
  let (rate1, total1) ← meter1.statsAt now
  let (rate2, total2) ← meter2.statsAt now
  some [(key, b!"rate", .flt (rn 53 (rate1 - rate2))), (key, b!"total", .int (total1 - total2))]

end Monkit
