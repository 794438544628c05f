import Verif.Go.Sys

/-!
# transform.go: several reports go through one `DeltaTransformer`

A source reports a total that only grows, such as the number of events of a meter (meter.go:118-150) or of calls of a function.  A report reads the total, under the lock of the source, and
hands it to the callback afterwards; the callback of the `DeltaTransformer` exchanges it for the previous one under a lock of its own (transform.go:70-73) and then passes on total and delta.
One series (series do not affect each other, C46); totals below 2^52, so that they and their differences are exact as `float64` (C46).
-/

namespace Monkit.DeltaReports
open Go

/-- Where a report is: it has read the total; it has exchanged it (transform.go:70-78). -/
inductive PC where
  | idle
  | read (v : Nat)
  | swapped (v : Nat) (last : Option Nat)

/-- The total of the source, `lastTotals` at the series, and the reports (transform.go:49-52). -/
structure State where
  total : Nat
  last : Option Nat
  pc : Nat → PC

/-- What can be seen: something is recorded, a report reads the total, a report passes on total and delta (transform.go:75-78). -/
inductive Ev where
  | mark (k : Nat)
  | read (n v : Nat)
  | out (n v : Nat) (delta : Option Int)

/-- A new source and a new transformer (transform.go:56-58). -/
def init : State := { total := 0, last := none, pc := fun _ => .idle }

/-- One step (transform.go:61-80). -/
inductive Step : State → Option Ev → State → Prop where
  /-- something is recorded -/
  | mark (s k) : Step s (some (.mark k)) { s with total := s.total + k }
  /-- the source reads its total, and calls the callback (transform.go:62) -/
  | read (s n) (h : s.pc n = .idle) : Step s (some (.read n s.total)) { s with pc := upd s.pc n (.read s.total) }
  /-- transform.go:70-73 -/
  | swap (s n v) (h : s.pc n = .read v) : Step s none { s with last := some v, pc := upd s.pc n (.swapped v s.last) }
  /-- transform.go:75-78 -/
  | out (s n v o) (h : s.pc n = .swapped v o) :
      Step s (some (.out n v (o.map fun l : Nat => (v : Int) - (l : Int)))) { s with pc := upd s.pc n .idle }

end Monkit.DeltaReports
