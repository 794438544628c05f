import Verif.Go.Mutex
import Verif.Model.Meter

/-!
# meter.go, statement by statement, for concurrent use

A loop over the array and the `copy` of the array are one access each; by C03 the granularity plays no part.  The state `none` stands for an index
out of range, after which the mutex would stay locked (the theorems show that it does not happen).
-/

namespace Monkit.MeterConc
open Go.Mutex Go.Float

/-- The calls: `Mark`, `Mark64`, `SetTotal`, `Reset` and the ticker's `tick` (`change`), and `stats`, with the clock reading it is given
(meter.go:73-153). -/
inductive Op where
  | change (o : Meter.Op)
  | stats (now : Int)
  deriving DecidableEq

/-- What is returned: nothing, or rate and total (meter.go:117-134). -/
inductive Res where
  | unit
  | rate (r : ℚ) (total : Int64)
  deriving DecidableEq

/-- Local variables (meter.go:73-134). -/
structure Locals where
  n : Int64
  start : Int
  current : Int64

/-- Statements between `Lock` and `Unlock` (meter.go:73-134). -/
abbrev Access := Option Meter × Locals → Option Meter × Locals

/-- A statement that reads element `i` of the array (meter.go:73-134). -/
def readSlot (i : Nat) (f : Bucket → Locals → Locals) : Access := fun (e, l) =>
  match e with
  | none => (none, l)
  | some e => match e.slices[i]? with
    | none => (none, l)
    | some b => (some e, f b l)

/-- A statement that writes (meter.go:73-134). -/
def write (f : Meter → Locals → Meter) : Access := fun (e, l) => (e.map fun e => f e l, l)

/-- The statements of each method.  meter.go:73-82 `Reset`, 85-89 `SetTotal`, 92-103 `Mark`, `Mark64`, 105-115 `tick`, 117-124 `stats`. -/
def body : Op → List Access
  | .change (.mark a) => [
      readSlot (ticksToKeep - 1) fun b l => { l with n := b.count },
      write fun e l => { e with slices := e.slices.modify (ticksToKeep - 1) fun b => { b with count := l.n + a } }]
  | .change (.tick now) => [
      readSlot (ticksToKeep - 1) fun b l => { l with n := b.count },
      readSlot 0 fun b l => { l with current := b.count },
      write fun e l => if l.n != 0 then { e with total := e.total + l.current } else e,
      write fun e l => if l.n != 0 then { e with slices := e.slices.drop 1 ++ e.slices.drop (ticksToKeep - 1) } else e,
      write fun e l => if l.n != 0 then { e with slices := e.slices.set (ticksToKeep - 1) ⟨0, now⟩ } else e]
  | .change (.setTotal t) => [write fun e _ => { e with total := t }]
  | .change (.reset t now) => [
      write fun e _ => { e with total := t },
      write fun e _ => { e with slices := e.slices.map fun b => { b with count := 0 } },
      write fun e _ => { e with slices := e.slices.map fun b => { b with start := now } }]
  | .stats _ => [
      readSlot 0 fun b l => { l with start := b.start },
      fun (e, l) => (e, { l with current := ((e.map (·.slices)).getD []).foldl (fun c b => c + b.count) 0 }),
      fun (e, l) => (e, { l with n := (e.map (·.total)).getD 0 })]

/-- meter.go:125-133: what `stats` computes after `Unlock`. -/
def result : Op → Locals → Res
  | .change _, _ => .unit
  | .stats now, l =>
    let total := l.n + l.current
    let duration := seconds (timeSub now l.start)
    .rate (if duration > 0 then rn 53 (rn 53 l.current.toInt / duration) else 0) total

/-- A meter as a mutex-protected object (meter.go:52-153). -/
def obj : Obj (Option Meter) Locals Op Res where
  enter _ := ⟨0, 0, 0⟩
  body := body
  result := result

end Monkit.MeterConc
