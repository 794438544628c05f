import Verif.Go.Sys
import Verif.Model.Basic

/-!
# funcstats.go: the atomic counters `current` and `highwater`

Each observation (a call of `start` followed by a call of `end`) is a process of its own; any number
of them run at the same time, on whatever goroutines.  The lock-protected rest of `end` does not touch
these variables and is left out here.
-/

namespace Monkit.Highwater
open Go

/-- Position of an observation (funcstats.go:65-89). -/
inductive PC where
  /-- not started, or over -/
  | out
  /-- in `start`, about to add 1 to `current` (line 78) -/
  | add
  /-- in `start`, about to load `highwater` (line 80); `cur` is the local `current` -/
  | load (cur : Int64)
  /-- in `start`, about to compare (line 81) and, if needed, compare-and-swap (line 82) -/
  | cas (cur hw : Int64)
  /-- `start` has returned, `end` has not been called -/
  | running
  /-- in `end`, about to add -1 to `current` (line 89) -/
  | sub
  /-- in `Reset`, about to zero `current` (line 66) / `highwater` (line 67) -/
  | reset1
  | reset2
  deriving DecidableEq

/-- The two counters and the observations (funcstats.go:36-37). -/
structure State where
  current : Int64
  highwater : Int64
  thr : Nat → PC

/-- What happens, one event per atomic operation (funcstats.go:65-89). -/
inductive Event where
  /-- `start` is called / has added one / has returned, having seen `cur` instances -/
  | start (t : Nat)
  | add (t : Nat)
  | started (t : Nat) (cur : Int64)
  /-- `end` is called / has subtracted one -/
  | finish (t : Nat)
  | sub (t : Nat)
  /-- `Reset` is called / has set `current` to 0 -/
  | reset (t : Nat)
  | zero (t : Nat)
  deriving DecidableEq

/-- funcstats.go:65-68 (`Reset`), 76-86 (`start`, without recording the parent), 88-89 (`end`). One
step is one atomic operation. -/
inductive Step : State → Option Event → State → Prop where
  | start (s : State) (t : Nat) (h : s.thr t = .out) :
      Step s (some (.start t)) { s with thr := upd s.thr t .add }
  | add (s : State) (t : Nat) (h : s.thr t = .add) :
      Step s (some (.add t))
        { s with current := s.current + 1, thr := upd s.thr t (.load (s.current + 1)) }
  | load (s : State) (t : Nat) (cur : Int64) (h : s.thr t = .load cur) :
      Step s none { s with thr := upd s.thr t (.cas cur s.highwater) }
  | enough (s : State) (t : Nat) (cur hw : Int64) (h : s.thr t = .cas cur hw) (le : cur ≤ hw) :
      Step s (some (.started t cur)) { s with thr := upd s.thr t .running }
  | swap (s : State) (t : Nat) (cur hw : Int64) (h : s.thr t = .cas cur hw) (gt : ¬ cur ≤ hw)
      (same : s.highwater = hw) :
      Step s (some (.started t cur)) { s with highwater := cur, thr := upd s.thr t .running }
  | retry (s : State) (t : Nat) (cur hw : Int64) (h : s.thr t = .cas cur hw) (gt : ¬ cur ≤ hw)
      (changed : s.highwater ≠ hw) :
      Step s none { s with thr := upd s.thr t (.load cur) }
  | finish (s : State) (t : Nat) (h : s.thr t = .running) :
      Step s (some (.finish t)) { s with thr := upd s.thr t .sub }
  | sub (s : State) (t : Nat) (h : s.thr t = .sub) :
      Step s (some (.sub t)) { s with current := s.current + (-1), thr := upd s.thr t .out }
  | reset (s : State) (t : Nat) (h : s.thr t = .out) :
      Step s (some (.reset t)) { s with thr := upd s.thr t .reset1 }
  | zeroCurrent (s : State) (t : Nat) (h : s.thr t = .reset1) :
      Step s (some (.zero t)) { s with current := 0, thr := upd s.thr t .reset2 }
  | zeroHighwater (s : State) (t : Nat) (h : s.thr t = .reset2) :
      Step s none { s with highwater := 0, thr := upd s.thr t .out }

/-- New statistics (funcstats.go:48-55). -/
def init : State := ⟨0, 0, fun _ => .out⟩

end Monkit.Highwater
