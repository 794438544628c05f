import Verif.Go.Sys
import Verif.Model.Runtime

/-!
# environment/runtime.go: reports made at the same time

environment/runtime.go:31-53.  The closure keeps one distribution and has no lock, so reports of several goroutines (two requests for /stats, or the same source
registered with two registries) interleave at every access.  `Insert` is given access by access; each is taken to be atomic and all are taken to be seen
in one order.  `durDist.Stats` (runtime.go:50) is one step: a simplification that leaves out schedules.
-/

namespace Monkit.RuntimeConc
open Go Monkit
variable {G : Type}

/-- The local variables of `Insert` (durdist.go:63-97). -/
structure Locals where
  used : Bool
  test : Bool
  sum : Int64
  index : Int64
  count : Int64
  rnd : UInt64

/-- Local variables before use (durdist.go:63). -/
def Locals.zero : Locals := ⟨false, false, 0, 0, 0, 0⟩

/-- One access to the distribution; `none`: index out of range or division by zero (durdist.go:63-97). -/
abbrev Micro (G : Type) := Dist Int64 ℚ G × Locals → Option (Dist Int64 ℚ G × Locals)

/-- durdist.go:63-97 `Insert`, access by access.  `reload` says whether the compiler reads `d.Count` again for `d.Count += 1` after `index := d.Count`
(lines 78-79); it may do either. -/
def insertProg (reload : Bool) (K : DistKind Int64 ℚ) (next : G → UInt64 × G) (W v : Int64) : List (Micro G) := [
  fun (d, l) => some (d, { l with used := d.count != 0 }),
  fun (d, l) => some (d, if l.used then { l with test := K.lt v d.low } else l),
  fun (d, l) => some (if l.used then if l.test then { d with low := v } else d else { d with low := v }, l),
  fun (d, l) => some (d, if l.used then { l with test := K.lt d.high v } else l),
  fun (d, l) => some (if l.used then if l.test then { d with high := v } else d else { d with high := v }, l),
  fun (d, l) => some ({ d with recent := v }, l),
  fun (d, l) => some (d, { l with sum := d.sum }),
  fun (d, l) => some ({ d with sum := K.add l.sum v }, l),
  fun (d, l) => some (d, { l with index := d.count, count := d.count }),
  fun (d, l) => some (d, if reload then { l with count := d.count } else l),
  fun (d, l) => some ({ d with count := l.count + 1 }, l),
  fun (d, l) => some (d, if reload then { l with count := d.count } else { l with count := l.count + 1 }),
  fun (d, l) => if l.index < 64 then some (d, l) else some (d, { l with rnd := (next d.rng).1 }),
  fun (d, l) => if l.index < 64 then some (d, l) else
    if (Dist.window W l.count).toUInt64 = 0 then none else some ({ d with rng := (next d.rng).2 }, { l with rnd := l.rnd % (Dist.window W l.count).toUInt64 }),
  fun (d, l) => if l.index < 64 then
      if 0 ≤ l.index then some ({ d with reservoir := d.reservoir.set l.index.toInt.toNat (K.toR v) }, l) else none
    else if l.rnd < 64 then some ({ d with reservoir := d.reservoir.set l.rnd.toNat (K.toR v) }, l) else some (d, l),
  fun (d, l) => if l.index < 64 || l.rnd < 64 then some ({ d with sorted := false }, l) else some (d, l)]

/-- What a report still has to do after reading the garbage collector's statistics: the accesses of `Insert`, if it is called (runtime.go:47-49;
`lastNumGC` is never changed). -/
def prog (reload : Bool) (K : DistKind Int64 ℚ) (next : G → UInt64 × G) (r : Runtime.Reading) : List (Micro G) :=
  match r.pauses with
  | p :: _ => if (0 : Int64) ≠ r.numGC then insertProg reload K next r.window p else []
  | [] => []

/-- What is handed to the callback (runtime.go:36-51). -/
abbrev Out := List (Key × Str × FVal)

/-- Where a goroutine is (runtime.go:35-52). -/
inductive PC (G : Type) where
  | idle
  /-- in `Insert` -/
  | insert (r : Runtime.Reading) (mem : List (Str × FVal)) (rest : List (Micro G)) (l : Locals)
  | ret (out : Out)

/-- The distribution and the goroutines (runtime.go:32-33). -/
structure State (G : Type) where
  dist : Dist Int64 ℚ G
  pc : Nat → PC G

/-- What can be seen: a report is asked for – with what the runtime answers –, and what it says; `none`: it panics (runtime.go:35-52). -/
inductive Ev where
  | call (t : Nat) (r : Runtime.Reading)
  | ret (t : Nat) (out : Option Out)

/-- One access (runtime.go:35-52). -/
inductive Step (reload : Bool) (K : DistKind Int64 ℚ) (next : G → UInt64 × G) : State G → Option Ev → State G → Prop where
  /-- runtime.go:36-46 -/
  | call (s : State G) (t : Nat) (r : Runtime.Reading) (mem : List (Str × FVal)) (h : s.pc t = .idle) (hm : Struct.stats r.mem = some mem) :
      Step reload K next s (some (.call t r)) { s with pc := upd s.pc t (.insert r mem (prog reload K next r) .zero) }
  /-- runtime.go:48 -/
  | micro (s : State G) (t : Nat) (r mem op rest l d l') (h : s.pc t = .insert r mem (op :: rest) l) (ho : op (s.dist, l) = some (d, l')) :
      Step reload K next s none { s with dist := d, pc := upd s.pc t (.insert r mem rest l') }
  | panic (s : State G) (t : Nat) (r mem op rest l) (h : s.pc t = .insert r mem (op :: rest) l) (ho : op (s.dist, l) = none) :
      Step reload K next s (some (.ret t none)) { s with pc := upd s.pc t .idle }
  /-- runtime.go:50 -/
  | stats (s : State G) (t : Nat) (r mem l d out) (h : s.pc t = .insert r mem [] l) (ho : s.dist.stats K = some (d, out)) :
      Step reload K next s none { s with dist := d, pc := upd s.pc t (.ret
        ((⟨b!"goroutines", []⟩, b!"count", FVal.int r.goroutines) :: mem.map (fun x => (⟨b!"runtime_memstats", []⟩, x.1, x.2)) ++ out)) }
  | statsPanic (s : State G) (t : Nat) (r mem l) (h : s.pc t = .insert r mem [] l) (ho : s.dist.stats K = none) :
      Step reload K next s (some (.ret t none)) { s with pc := upd s.pc t .idle }
  | ret (s : State G) (t : Nat) (out : Out) (h : s.pc t = .ret out) : Step reload K next s (some (.ret t (some out))) { s with pc := upd s.pc t .idle }

/-- A new source (runtime.go:31-33). -/
def init (K : DistKind Int64 ℚ) (g : G) : State G := ⟨.new K ⟨b!"runtime_gcstats", []⟩ g, fun _ => .idle⟩

end Monkit.RuntimeConc
