import Verif.Go.Sys
import Verif.Model.Basic

/-!
# val.go:128-160 `BoolVal`: three atomic variables, no lock
-/

namespace Monkit.BoolVal
open Go

/-- Position of a goroutine.  `add v`/`store v`/`ret v`: in `Observe(v)`, about to do the atomic add /
the atomic store / to return.  `ld1`…`ld3`: in `Stats`, about to do the first/second/third load;
`rep`: about to report (val.go:141-160). -/
inductive PC where
  | idle
  | add (v : Bool)
  | store (v : Bool)
  | ret (v : Bool)
  | ld1
  | ld2 (trues : Int64)
  | ld3 (trues falses : Int64)
  | rep (trues falses : Int64) (recent : Int32)
  deriving DecidableEq

/-- val.go:128-133 (without the key, which never changes) and the goroutines. -/
structure State where
  trues : Int64
  falses : Int64
  recent : Int32
  thr : Nat → PC

/-- Calls and what they return (val.go:141-160). -/
inductive Event where
  /-- `Observe(v)` is called -/
  | begin (t : Nat) (v : Bool)
  /-- the store to `recent` (not visible to the caller, recorded for the specification) -/
  | stored (t : Nat) (v : Bool)
  /-- `Observe(v)` returns -/
  | finish (t : Nat) (v : Bool)
  /-- `Stats` is called -/
  | ask (t : Nat)
  /-- `Stats` has reported these four values: disposition, false, recent, true -/
  | report (t : Nat) (disposition falses : Int64) (recent : Int32) (trues : Int64)
  deriving DecidableEq

/-- val.go:141-149 `Observe`, 152-160 `Stats`, one atomic operation per step. -/
inductive Step : State → Option Event → State → Prop where
  | begin (s : State) (t : Nat) (v : Bool) (h : s.thr t = .idle) :
      Step s (some (.begin t v)) { s with thr := upd s.thr t (.add v) }
  | addTrue (s : State) (t : Nat) (h : s.thr t = .add true) :
      Step s none { s with trues := s.trues + 1, thr := upd s.thr t (.store true) }
  | addFalse (s : State) (t : Nat) (h : s.thr t = .add false) :
      Step s none { s with falses := s.falses + 1, thr := upd s.thr t (.store false) }
  | storeTrue (s : State) (t : Nat) (h : s.thr t = .store true) :
      Step s (some (.stored t true)) { s with recent := 1, thr := upd s.thr t (.ret true) }
  | storeFalse (s : State) (t : Nat) (h : s.thr t = .store false) :
      Step s (some (.stored t false)) { s with recent := 0, thr := upd s.thr t (.ret false) }
  | finish (s : State) (t : Nat) (v : Bool) (h : s.thr t = .ret v) :
      Step s (some (.finish t v)) { s with thr := upd s.thr t .idle }
  | ask (s : State) (t : Nat) (h : s.thr t = .idle) :
      Step s (some (.ask t)) { s with thr := upd s.thr t .ld1 }
  | load1 (s : State) (t : Nat) (h : s.thr t = .ld1) :
      Step s none { s with thr := upd s.thr t (.ld2 s.trues) }
  | load2 (s : State) (t : Nat) (trues : Int64) (h : s.thr t = .ld2 trues) :
      Step s none { s with thr := upd s.thr t (.ld3 trues s.falses) }
  | load3 (s : State) (t : Nat) (trues falses : Int64) (h : s.thr t = .ld3 trues falses) :
      Step s none { s with thr := upd s.thr t (.rep trues falses s.recent) }
  | report (s : State) (t : Nat) (trues falses : Int64) (recent : Int32)
      (h : s.thr t = .rep trues falses recent) :
      Step s (some (.report t (trues - falses) falses recent trues))
        { s with thr := upd s.thr t .idle }

/-- val.go:136-138 `NewBoolVal`. -/
def init : State := ⟨0, 0, 0, fun _ => .idle⟩

end Monkit.BoolVal
