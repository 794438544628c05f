import Verif.Model.Dist
import Verif.Go.Map

/-!
# funcstats.go, as used by one goroutine at a time

`E` is the type of (non-nil) errors, `name` is `getErrorName`.  The set of parents is modelled in
`Verif/Model/FuncSet.lean`, the atomic counters under concurrency in `Verif/Model/Highwater.lean`.
-/

namespace Monkit

open Go

/-- stats.go:33-36 `SeriesKey.WithTag`, tags.go:65-67. -/
def Key.withTag (k : Key) (n v : Str) : Key := { k with tags := Map.set k.tags n v }

/-- funcstats.go:34-46. -/
structure FuncStats (G : Type) where
  current : Int64
  highwater : Int64
  errors : Map Str Int64
  panics : Int64
  success : Dist Int64 ℚ G
  failure : Dist Int64 ℚ G
  key : Key

namespace FuncStats
variable {G E : Type}

/-- funcstats.go:48-62 `initFuncStats`, `NewFuncStats`. -/
def new (K : DistKind Int64 ℚ) (key : Key) (g1 g2 : G) : FuncStats G :=
  let k := { key with measurement := key.measurement ++ b!"_times" }
  ⟨0, 0, [], 0, Dist.new K (k.withTag b!"kind" b!"success") g1,
    Dist.new K (k.withTag b!"kind" b!"failure") g2, key⟩

/-- funcstats.go:65-74 `Reset`. -/
def reset (K : DistKind Int64 ℚ) (f : FuncStats G) : FuncStats G :=
  { f with current := 0, highwater := 0, errors := [], panics := 0,
           success := f.success.reset K, failure := f.failure.reset K }

/-- funcstats.go:76-86 `start` (the parent is recorded elsewhere). -/
def start (f : FuncStats G) : FuncStats G :=
  let f := { f with current := f.current + 1 }
  if f.current ≤ f.highwater then f else { f with highwater := f.current }

/-- `m[k] += 1` on a map of int64 (funcstats.go:103). -/
def bump (m : Map Str Int64) (k : Str) : Map Str Int64 := Map.set m k ((Map.get m k).getD 0 + 1)

/-- funcstats.go:88-105 `end`.  `err = none` is a nil error. `W` is the global `Window`. -/
def finish (K : DistKind Int64 ℚ) (next : G → UInt64 × G) (name : E → Str) (f : FuncStats G)
    (err : Option E) (panicked : Bool) (duration W : Int64) : Option (FuncStats G) :=
  let f := { f with current := f.current + (-1) }
  if panicked then
    let f := { f with panics := f.panics + 1 }
    (f.failure.insert K next W duration).map fun d => { f with failure := d }
  else
    match err with
    | none => (f.success.insert K next W duration).map fun d => { f with success := d }
    | some e => (f.failure.insert K next W duration).map fun d =>
        { f with failure := d, errors := bump f.errors (name e) }

/-- funcstats.go:148-175 `Stats`.  `ord` is the order in which `range errs` visits the map of errors,
`g1 g2` are the generators of the copies. -/
def stats (K : DistKind Int64 ℚ) (f : FuncStats G) (ord : Map Str Int64) (g1 g2 : G) :
    Option (List (Key × Str × FVal)) := do
  let eCount := ord.foldl (fun c x => c + x.2) (0 : Int64)
  let st := f.success.copy g1
  let ft := f.failure.copy g2
  let (_, r1) ← st.stats K
  let (_, r2) ← ft.stats K
  some ([(f.key, b!"current", .int f.current), (f.key, b!"highwater", .int f.highwater),
      (f.key, b!"successes", .int st.count)] ++
    ord.map (fun x => (f.key.withTag b!"error_name" x.1, b!"count", .int x.2)) ++
    [(f.key, b!"errors", .int eCount), (f.key, b!"panics", .int f.panics),
     (f.key, b!"failures", .int (eCount + f.panics)),
     (f.key, b!"total", .int (st.count + eCount + f.panics))] ++ r1 ++ r2)

/-- The calls (funcstats.go:65-105). -/
inductive Op (E : Type) where
  | start
  | finish (err : Option E) (panicked : Bool) (duration W : Int64)
  | reset

/-- One call (funcstats.go:65-105). -/
def step (K : DistKind Int64 ℚ) (next : G → UInt64 × G) (name : E → Str) (f : FuncStats G) :
    Op E → Option (FuncStats G)
  | .start => some f.start
  | .finish err p d W => f.finish K next name err p d W
  | .reset => some (f.reset K)

/-- A history of calls (funcstats.go:65-105). -/
def run (K : DistKind Int64 ℚ) (next : G → UInt64 × G) (name : E → Str) (f : FuncStats G) :
    List (Op E) → Option (FuncStats G)
  | [] => some f
  | o :: os => (f.step K next name o).bind fun f' => f'.run K next name os

end FuncStats
end Monkit
