import Verif.Spec.Json
import Verif.Spec.TextRead
import Verif.Model.Times

/-!
# What a duration written as text means (C126)

A reader of durations, written without the functions that write them: a sign, then amounts of hours, minutes, seconds and so on, which add up.
-/

namespace Monkit.Times.Spec
open Go
open Monkit.JsonSpec (digit natOf)

/-- The unit at the start of a text, in nanoseconds, and what follows it. -/
def unit : Str → Option (ℚ × Str)
  | 110 :: 115 :: r => some (1, r)  -- ns
  | 0xC2 :: 0xB5 :: 115 :: r => some (1000, r)  -- µs
  | 109 :: 115 :: r => some (1000000, r)  -- ms
  | 115 :: r => some (1000000000, r)  -- s
  | 109 :: r => some (60 * 1000000000, r)  -- m
  | 104 :: r => some (3600 * 1000000000, r)  -- h
  | _ => none

/-- The digits after a decimal point, if there is one, and what follows. -/
def fraction : Str → Str × Str
  | 46 :: r => (r.takeWhile digit, r.dropWhile digit)
  | r => ([], r)

/-- The sum of the amounts of a text, which are numbers with a unit; at most `n` of them are read. -/
def amounts : Nat → Str → Option ℚ
  | _, [] => some 0
  | 0, _ => none
  | n + 1, s =>
    let i := s.takeWhile digit
    let f := fraction (s.dropWhile digit)
    if i = [] then none
    else match unit f.2 with
      | none => none
      | some (u, r) => (amounts n r).map fun x => (natOf i + natOf f.1 / 10 ^ f.1.length) * u + x

/-- The nanoseconds a text stands for. -/
def nanoseconds : Str → Option ℚ
  | 45 :: r => (amounts r.length r).map fun x => -x
  | r => amounts r.length r

/-- What there is to see of the times of a function: the quantiles, the averages, the most recent time and the sum. -/
def shown (t : TimesView) : List Int64 :=
  [t.query 0, t.query 10, t.query 25, t.query 50, t.query 75, t.query 90, t.query 95, t.query 100, t.fullAverage, t.reservoirAverage, t.recent, t.sum]

/-- What is written before them. -/
def labels : List Str :=
  [b!"0.00", b!"0.10", b!"0.25", b!"0.50", b!"0.75", b!"0.90", b!"0.95", b!"1.00", b!"avg", b!"ravg", b!"recent", b!"sum"]

/-- A function with its times, which its text shows. -/
structure TimedFunc where
  view : Present.FuncView
  success : TimesView
  failure : TimesView
  hs : view.successTimes = formatDist success
  hf : view.failureTimes = formatDist failure

/-- What a reader can learn about a function: its number and name, its callers, its counters, its errors, its times. -/
structure Reading where
  id : Int64
  name : Str
  callers : List (Option Int64)
  counters : Int64 × Int64 × Int64 × Int64 × Int64
  errors : List (Str × Int64)
  successTimes : List Int64
  failureTimes : List Int64

/-- What there is to learn about a function. -/
def reading (f : TimedFunc) : Reading :=
  ⟨f.view.id, f.view.name, f.view.parents,
    (f.view.current, f.view.highwater, f.view.success, Present.Spec.errorSum f.view, f.view.panics), f.view.errors, shown f.success, shown f.failure⟩

end Monkit.Times.Spec
