import Verif.Model.Meter

/-!
# Specification of a meter: an unbounded log of periods

The log never forgets anything.  A *period* collects what was marked between two ticks; a tick
starts a new period only if something (a non-zero sum) was marked in the current one.
-/

namespace Monkit.Spec
open Monkit.Meter (Op)
open Go.Float

/-- A period: the sum of the marks made in it, and when it began. -/
structure Period where
  sum : Int
  start : Int

/-- Everything since the last `Reset`/`SetTotal`: the base, the current period and the completed
ones, the most recent first. -/
structure Log where
  base : Int
  cur : Period
  done : List Period

/-- Two's-complement wrap-around. -/
def wrap64 (x : Int) : Int := Int.bmod x (2 ^ 64)

def Log.step (l : Log) : Op → Log
  | .mark a => { l with cur := { l.cur with sum := l.cur.sum + a.toInt } }
  | .tick now => if wrap64 l.cur.sum = 0 then l else ⟨l.base, ⟨0, now⟩, l.cur :: l.done⟩
  -- `SetTotal` replaces the base and everything that has left the window
  | .setTotal t => ⟨t.toInt, l.cur, l.done.take 23⟩
  | .reset t now => ⟨t.toInt, ⟨0, now⟩, []⟩

/-- The log of a meter created at time `t0` after the calls `ops`. -/
def logOf (t0 : Int) (ops : List Op) : Log := ops.foldl Log.step ⟨0, ⟨0, t0⟩, []⟩

def sumOf (l : List Period) : Int := (l.map (·.sum)).sum

/-- The window: the current period and the 23 most recent completed ones. -/
def Log.window (l : Log) : List Period := l.cur :: l.done.take 23

/-- When the oldest period of the window began. -/
def Log.windowStart (l : Log) : Int := (l.window.getLastD l.cur).start

/-- What `Total` must be. -/
def Log.total (l : Log) : Int := wrap64 (l.base + sumOf (l.cur :: l.done))

/-- What is counted in the window. -/
def Log.current (l : Log) : Int := wrap64 (sumOf l.window)

/-- The sum of all amounts marked by a list of calls. -/
def marked : List Op → Int
  | [] => 0
  | .mark a :: os => a.toInt + marked os
  | _ :: os => marked os

/-- A rate of `n` events in `d` nanoseconds, in float64 arithmetic; 0 if no time has passed. -/
def rateOf (n : Int) (d : Int64) : ℚ :=
  if 0 < d.toInt then rn 53 (rn 53 n / seconds d) else 0

end Monkit.Spec
