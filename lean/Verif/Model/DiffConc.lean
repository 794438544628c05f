import Verif.Go.Sys
import Verif.Model.Meter

/-!
# A DiffMeter whose meters are in use (meter.go)

Any number of meters, and any number of DiffMeters on them.  What a meter does between `Lock` and `Unlock` is one step: that the mutex
makes it so is the subject of `MeterConc`.  `DiffMeter.Stats` locks one meter after the other, so other calls may take effect in between.
-/

namespace Monkit.DiffConc
open Go Go.Float

/-- Calls: a change of meter `i` (meter.go:73-115), `Stats` of the DiffMeter called `k` on the meters `a` and `b` (meter.go:175). -/
inductive Op where
  | change (i : Nat) (o : Meter.Op)
  | stats (k : Key) (a b : Nat)
  deriving DecidableEq

/-- What was handed to the callback; `none` is a panic (meter.go:179-180). -/
abbrev Res := Option (List (Key × Str × FVal))

/-- Calls, returns, and the clock moving on (meter.go:73-181). -/
inductive Event where
  | call (t : Nat) (op : Op)
  | ret (t : Nat) (op : Op) (res : Res)
  | time (now : Int)
  deriving DecidableEq

/-- Where a goroutine is (meter.go:73-115, 175-181). -/
inductive Pc where
  | idle
  /-- before the critical section of a change -/
  | change (i : Nat) (o : Meter.Op)
  /-- before `now := monotime.Now()` (meter.go:176) -/
  | stats (k : Key) (a b : Nat)
  /-- before the first meter is read (meter.go:177) -/
  | read1 (k : Key) (a b : Nat) (now : Int)
  /-- before the second is (meter.go:178) -/
  | read2 (k : Key) (a b : Nat) (now : Int) (rate1 : ℚ) (total1 : Int64)
  /-- about to return -/
  | ret (op : Op) (res : Res)

/-- The meters, the clock, the goroutines.  `hist` is for the proofs only: the changes of each meter in the order in which they took
effect, and by whom (meter.go:52-57). -/
structure State where
  meter : Nat → Meter
  clock : Int
  hist : Nat → List (Nat × Meter.Op)
  pc : Nat → Pc

/-- Meter `i` is called `key i` and was created at time `born i` (meter.go:60-68). -/
def init (key : Nat → Key) (born : Nat → Int) : State := ⟨fun i => Meter.new (key i) (born i), 0, fun _ => [], fun _ => .idle⟩

/-- One critical section, or one call or return (meter.go:73-181). -/
inductive Step : State → Option Event → State → Prop where
  | time (s : State) (n) : s.clock ≤ n → Step s (some (.time n)) { s with clock := n }
  | callChange (s : State) (t i o) : s.pc t = .idle →
      Step s (some (.call t (.change i o))) { s with pc := upd s.pc t (.change i o) }
  | callStats (s : State) (t k a b) : s.pc t = .idle →
      Step s (some (.call t (.stats k a b))) { s with pc := upd s.pc t (.stats k a b) }
  /-- meter.go:73-115 -/
  | change (s : State) (t i o m) : s.pc t = .change i o → (s.meter i).step o = some m →
      Step s none { s with meter := upd s.meter i m, hist := upd s.hist i (s.hist i ++ [(t, o)])
                           pc := upd s.pc t (.ret (.change i o) (some [])) }
  | changePanic (s : State) (t i o) : s.pc t = .change i o → (s.meter i).step o = none →
      Step s none { s with pc := upd s.pc t (.ret (.change i o) none) }
  /-- meter.go:176 -/
  | clock (s : State) (t k a b) : s.pc t = .stats k a b →
      Step s none { s with pc := upd s.pc t (.read1 k a b s.clock) }
  /-- meter.go:177 -/
  | read1 (s : State) (t k a b now r n) : s.pc t = .read1 k a b now → (s.meter a).statsAt now = some (r, n) →
      Step s none { s with pc := upd s.pc t (.read2 k a b now r n) }
  | read1Panic (s : State) (t k a b now) : s.pc t = .read1 k a b now → (s.meter a).statsAt now = none →
      Step s none { s with pc := upd s.pc t (.ret (.stats k a b) none) }
  /-- meter.go:178-180 -/
  | read2 (s : State) (t k a b now r1 n1 r n) : s.pc t = .read2 k a b now r1 n1 → (s.meter b).statsAt now = some (r, n) →
      Step s none { s with pc := upd s.pc t (.ret (.stats k a b)
        (some [(k, b!"rate", .flt (rn 53 (r1 - r))), (k, b!"total", .int (n1 - n))])) }
  | read2Panic (s : State) (t k a b now r1 n1) : s.pc t = .read2 k a b now r1 n1 → (s.meter b).statsAt now = none →
      Step s none { s with pc := upd s.pc t (.ret (.stats k a b) none) }
  | ret (s : State) (t op res) : s.pc t = .ret op res → Step s (some (.ret t op res)) { s with pc := upd s.pc t .idle }

end Monkit.DiffConc
