import Verif.Model.Dist
import Verif.Model.Struct

/-!
# environment/runtime.go

environment/runtime.go:31-53.  What the Go runtime answers at each reading is a parameter.
-/

namespace Monkit.Runtime
open Go
variable {G : Type}

/-- What the runtime says when the statistics are read (environment/runtime.go:36-51). -/
structure Reading where
  /-- `runtime.NumGoroutine()` -/
  goroutines : Int64
  /-- `runtime.ReadMemStats` -/
  mem : Struct.Val
  /-- `debug.ReadGCStats`: `NumGC` and `Pause`, the most recent pause first -/
  numGC : Int64
  pauses : List Int64
  /-- the global `monkit.Window` at that time -/
  window : Int64

/-- runtime.go:32-33: the variables of the closure. -/
structure State (G : Type) where
  durDist : Dist Int64 ℚ G
  lastNumGC : Int64

/-- runtime.go:31-33. -/
def new (K : DistKind Int64 ℚ) (g : G) : State G := ⟨Dist.new K ⟨b!"runtime_gcstats", []⟩ g, 0⟩

/-- runtime.go:35-52: the new state and what is given to the callback.  `none`: a panic. -/
def read (K : DistKind Int64 ℚ) (next : G → UInt64 × G) (s : State G) (r : Reading) : Option (State G × List (Key × Str × FVal)) := do
  let mem ← Struct.stats r.mem
  let d ← match r.pauses with
    | p :: _ => if s.lastNumGC ≠ r.numGC then s.durDist.insert K next r.window p else some s.durDist
    | [] => some s.durDist
  let (d, out) ← d.stats K
  some ({ s with durDist := d },
    (⟨b!"goroutines", []⟩, b!"count", FVal.int r.goroutines) :: mem.map (fun x => (⟨b!"runtime_memstats", []⟩, x.1, x.2)) ++ out)

/-- Reading the statistics again and again (environment/runtime.go:35-52). -/
def run (K : DistKind Int64 ℚ) (next : G → UInt64 × G) (s : State G) : List Reading → Option (State G)
  | [] => some s
  | r :: rs => (read K next s r).bind fun x => run K next x.1 rs

end Monkit.Runtime
