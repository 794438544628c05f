import Verif.Go.Sys
import Verif.Go.Map
import Verif.Model.Basic

/-!
# transform.go:49-80: DeltaTransformer

`V` is the type of values with its subtraction (`float64`); `wf` is `SeriesKey.WithField` (stats.go:56-62, see Model/Tags).  The
callback is any function; here we record the calls it gets.
-/

namespace Monkit.Delta
open Go

variable {V : Type}

/-- One call of a Stats callback: key, field, value (stats.go:65-67). -/
abbrev Stat (V : Type) := Key × Str × V

/-- transform.go:62-79: one call of the callback that `Transform` returns, made by one goroutine while no other uses the
transformer: the new table and the calls of `cb`. -/
def feed (sub : V → V → V) (wf : Key → Str → Str) (last : Map Str V) (x : Stat V) : Map Str V × List (Stat V) :=
  if x.2.1 ≠ b!"total" then (last, [x])
  else
    let i := wf x.1 x.2.1
    match Map.get last i with
    | none => (Map.set last i x.2.2, [x])
    | some old => (Map.set last i x.2.2, [x, (x.1, b!"delta", sub x.2.2 old)])

/-- A stream of values through a new transformer (transform.go:61-80). -/
def stream (sub : V → V → V) (wf : Key → Str → Str) : Map Str V → List (Stat V) → List (Stat V)
  | _, [] => []
  | last, x :: xs => (feed sub wf last x).2 ++ stream sub wf (feed sub wf last x).1 xs

/-! ### Any number of goroutines -/

/-- Where a goroutine is (transform.go:61-80). -/
inductive PC (V : Type) where
  | idle
  | pass (x : Stat V)                        -- 65: the call of cb for another field
  | lock (x : Stat V)                        -- 71
  | locked (x : Stat V)                      -- 72-73
  | unlock (x : Stat V) (old : Option V)     -- 74
  | total (x : Stat V) (old : Option V)      -- 76
  | delta (x : Stat V) (old : Option V)      -- 77-79

/-- What can be seen (transform.go:61-80). -/
inductive Ev (V : Type) where
  | call (t : Nat) (x : Stat V)
  /-- the lookup and the store, under the lock -/
  | swap (t : Nat) (x : Stat V) (old : Option V)
  /-- `cb` is called -/
  | out (t : Nat) (x : Stat V)
  /-- `cb` is called with a delta -/
  | outDelta (t : Nat) (x : Stat V)
  | ret (t : Nat)

/-- The transformer and the goroutines (transform.go:49-52). -/
structure State (V : Type) where
  last : Map Str V
  lock : Option Nat
  pc : Nat → PC V

/-- A new transformer (transform.go:56-58). -/
def State.init : State V := ⟨[], none, fun _ => .idle⟩

/-- One statement, or the statements under the lock (transform.go:61-80). -/
inductive Step (sub : V → V → V) (wf : Key → Str → Str) : State V → Option (Ev V) → State V → Prop where
  | callPass (s : State V) (t x) : s.pc t = .idle → x.2.1 ≠ b!"total" →
      Step sub wf s (some (.call t x)) { s with pc := upd s.pc t (.pass x) }
  | callTotal (s : State V) (t x) : s.pc t = .idle → x.2.1 = b!"total" →
      Step sub wf s (some (.call t x)) { s with pc := upd s.pc t (.lock x) }
  | pass (s : State V) (t x) : s.pc t = .pass x →
      Step sub wf s (some (.out t x)) { s with pc := upd s.pc t (.delta x none) }
  | lock (s : State V) (t x) : s.pc t = .lock x → s.lock = none →
      Step sub wf s none { s with lock := some t, pc := upd s.pc t (.locked x) }
  | swap (s : State V) (t x) : s.pc t = .locked x →
      Step sub wf s (some (.swap t x (Map.get s.last (wf x.1 x.2.1))))
        { s with last := Map.set s.last (wf x.1 x.2.1) x.2.2, pc := upd s.pc t (.unlock x (Map.get s.last (wf x.1 x.2.1))) }
  | unlock (s : State V) (t x o) : s.pc t = .unlock x o →
      Step sub wf s none { s with lock := none, pc := upd s.pc t (.total x o) }
  | total (s : State V) (t x o) : s.pc t = .total x o →
      Step sub wf s (some (.out t x)) { s with pc := upd s.pc t (.delta x o) }
  | delta (s : State V) (t x old) : s.pc t = .delta x (some old) →
      Step sub wf s (some (.outDelta t (x.1, b!"delta", sub x.2.2 old))) { s with pc := upd s.pc t (.delta x none) }
  | ret (s : State V) (t x) : s.pc t = .delta x none → Step sub wf s (some (.ret t)) { s with pc := upd s.pc t .idle }

end Monkit.Delta
