import Verif.Model.Basic
import Verif.Go.Ieee
import Verif.Go.Sort

/-!
# intdist.go, durdist.go, floatdist.go (all generated from distgen.go.m4), dist.go

One generic model: `V` is the value type, `R` the type of reservoir slots, `G` the state of the
random number generator.  Run-time panics are modelled by `none`.
-/

namespace Monkit

open Go Go.Float

/-- What differs between the three generated files (`_TYPE_` in distgen.go.m4:1-185; intdist.go:28-184, durdist.go:29-185, floatdist.go:28-184). -/
structure DistKind (V R : Type) where
  /-- zero value of `_TYPE_` -/
  zero : V
  /-- `a < b` on `_TYPE_` -/
  lt : V → V → Bool
  /-- `a + b` on `_TYPE_` -/
  add : V → V → V
  /-- `float32(val)` -/
  toR : V → R
  /-- zero value of a slot -/
  rzero : R
  /-- dist.go:40-44 `float32Slice.Less`, as `!(b < a)` -/
  rle : R → R → Bool
  /-- `_TYPE_(reservoir[i])` -/
  out : R → V
  /-- `_TYPE_(prior + diff*(float64(next)-prior))`, intdist.go:151-153 -/
  interp : R → R → ℚ → V
  /-- intdist.go:108-121: `_TYPE_(sum / float32(amount))` of a list of slots -/
  avg : List R → V
  /-- dist.go:51-61 `toFloat64` -/
  toF : V → FVal

/-- intdist.go:28-48. -/
structure Dist (V R G : Type) where
  low : V
  high : V
  recent : V
  count : Int64
  sum : V
  key : Key
  reservoir : List R
  rng : G
  sorted : Bool

/-- dist.go:22 -/
def reservoirSize : Nat := 64

namespace Dist
variable {V R G : Type}

/-- intdist.go:50-60 `initIntDist`, `NewIntDist`; `g` is the freshly seeded generator. -/
def new (K : DistKind V R) (key : Key) (g : G) : Dist V R G :=
  ⟨K.zero, K.zero, K.zero, 0, K.zero, key, List.replicate reservoirSize K.rzero, g, false⟩

/-- intdist.go:85-89: the window used to pick a slot, given the global `Window` and the new count. -/
def window (W count : Int64) : Int64 := if 0 < W && W < count then W else count

/-- intdist.go:63-97 `Insert`.  `W` is the value of the global variable `Window` (dist.go:29) at
the time of the call, `next` the generator.  `none`: index out of range or division by zero. -/
def insert (K : DistKind V R) (next : G → UInt64 × G) (W : Int64) (d : Dist V R G) (v : V) :
    Option (Dist V R G) :=
  let d : Dist V R G := if d.count != 0 then
      let d := if K.lt v d.low then { d with low := v } else d
      if K.lt d.high v then { d with high := v } else d
    else { d with low := v, high := v }
  let d := { d with recent := v, sum := K.add d.sum v }
  let index : Int64 := d.count
  let d := { d with count := d.count + 1 }
  if index < 64 then
    if 0 ≤ index then
      some { d with reservoir := d.reservoir.set index.toInt.toNat (K.toR v), sorted := false }
    else none
  else
    let w := (window W d.count).toUInt64
    if w = 0 then none
    else
      let (r, g) := next d.rng
      let d := { d with rng := g }
      let j := r % w
      if j < 64 then
        some { d with reservoir := d.reservoir.set j.toNat (K.toR v), sorted := false }
      else some d

/-- The number of slots in use: intdist.go:109-112, 126-129. -/
def rlen (d : Dist V R G) : Int := if 64 > d.count.toInt then d.count.toInt else 64

/-- intdist.go:135-139: sort the slots in use, in place, unless known to be sorted. -/
def sortReservoir (K : DistKind V R) (d : Dist V R G) : Dist V R G :=
  let n := d.rlen.toNat
  if d.sorted then d
  else { d with reservoir := sortBy K.rle (d.reservoir.take n) ++ d.reservoir.drop n,
                sorted := true }

/-- intdist.go:125-154 `Query` for a non-NaN quantile.  `none`: index out of range. -/
def query (K : DistKind V R) (d : Dist V R G) (quantile : ℚ) : Option (Dist V R G × V) :=
  if d.rlen < 2 then
    d.reservoir[0]?.map fun x => (d, K.out x)
  else
    let d' := d.sortReservoir K
    let reservoir := d'.reservoir.take d.rlen.toNat
    if quantile ≤ 0 then
      reservoir[0]?.map fun x => (d', K.out x)
    else if quantile ≥ 1 then
      reservoir[d.rlen.toNat - 1]?.map fun x => (d', K.out x)
    else
      let idx_float := rn 53 (quantile * (d.rlen - 1 : Int))
      let idx := trunc idx_float
      let diff := rn 53 (idx_float - idx)
      if idx < 0 then none
      else
        match reservoir[idx.toNat]?, reservoir[idx.toNat + 1]? with
        | some prior, some next => some (d', K.interp prior next diff)
        | _, _ => none

/-- intdist.go:108-121 `ReservoirAverage`. -/
def reservoirAverage (K : DistKind V R) (d : Dist V R G) : V :=
  if d.rlen ≤ 0 then K.zero else K.avg (d.reservoir.take d.rlen.toNat)

/-- intdist.go:157-161 `Copy`; `g` is the freshly seeded generator of the copy. -/
def copy (d : Dist V R G) (g : G) : Dist V R G := { d with rng := g }

/-- intdist.go:163-166 `Reset`. -/
def reset (K : DistKind V R) (d : Dist V R G) : Dist V R G :=
  { d with low := K.zero, high := K.zero, recent := K.zero, count := 0, sum := K.zero }

/-- A float64 constant in the source (intdist.go:125-184). -/
def lit (q : ℚ) : ℚ := rn 53 q

/-- intdist.go:168-184 `Stats`. -/
def stats (K : DistKind V R) (d : Dist V R G) :
    Option (Dist V R G × List (Key × Str × FVal)) :=
  if d.count > 0 then do
    let (d, q0) ← d.query K (lit 0)
    let ravg := d.reservoirAverage K
    let (d, q10) ← d.query K (lit (1 / 10))
    let (d, q50) ← d.query K (lit (1 / 2))
    let (d, q90) ← d.query K (lit (9 / 10))
    let (d, q99) ← d.query K (lit (99 / 100))
    let (d, q1) ← d.query K (lit 1)
    some (d, [(d.key, b!"count", .int d.count), (d.key, b!"sum", K.toF d.sum),
      (d.key, b!"min", K.toF d.low), (d.key, b!"max", K.toF d.high),
      (d.key, b!"rmin", K.toF q0), (d.key, b!"ravg", K.toF ravg), (d.key, b!"r10", K.toF q10),
      (d.key, b!"r50", K.toF q50), (d.key, b!"r90", K.toF q90), (d.key, b!"r99", K.toF q99),
      (d.key, b!"rmax", K.toF q1), (d.key, b!"recent", K.toF d.recent)])
  else some (d, [(d.key, b!"count", .int d.count)])

/-- The calls a program can make on a distribution.  `insert` carries the value the global `Window`
has at that moment (intdist.go:63-184). -/
inductive Op (V : Type) where
  | insert (v : V) (W : Int64)
  | query (q : ℚ)
  | stats
  | reset

/-- One call (intdist.go:63-184). -/
def step (K : DistKind V R) (next : G → UInt64 × G) (d : Dist V R G) :
    Op V → Option (Dist V R G)
  | .insert v W => d.insert K next W v
  | .query q => (d.query K q).map (·.1)
  | .stats => (d.stats K).map (·.1)
  | .reset => some (d.reset K)

/-- A sequence of calls; `none` if one of them panics (intdist.go:63-184). -/
def run (K : DistKind V R) (next : G → UInt64 × G) (d : Dist V R G) :
    List (Op V) → Option (Dist V R G)
  | [] => some d
  | o :: os => (d.step K next o).bind fun d' => d'.run K next os

end Dist

/-! ## The three kinds -/

/-- `int64(x)` / `time.Duration(x)` of a float.  In range: truncation.  Out of range: Go says the
result is implementation-dependent; `oob` is the implementation's choice (intdist.go:120, 151-153). -/
def toI64 (oob : ℚ → Int64) (x : ℚ) : Int64 :=
  if -(2 : Int) ^ 63 ≤ trunc x ∧ trunc x < 2 ^ 63 then Int64.ofInt (trunc x) else oob x

/-- `prior + diff*(next-prior)` in float64.  Go permits, but does not require, fusing the
multiplication and the addition; `fused` says which one the compiler did (intdist.go:151-153). -/
def lerp (fused : Bool) (prior next diff : ℚ) : ℚ :=
  if fused then rn 53 (prior + diff * rn 53 (next - prior))
  else rn 53 (prior + rn 53 (diff * rn 53 (next - prior)))

/-- intdist.go:113-120: float32 sum from left to right, divided by the number of elements. -/
def f32avg (l : List ℚ) : ℚ :=
  rn 24 (l.foldl (fun s x => rn 24 (s + x)) 0 / rn 24 (l.length : ℚ))

/-- intdist.go: `_TYPE_ = int64` (intdist.go:28-184, dist.go:55-57). -/
def intKind (oob : ℚ → Int64) (fused : Bool) : DistKind Int64 ℚ where
  zero := 0
  lt a b := a < b
  add a b := a + b
  toR v := rn 24 v.toInt
  rzero := 0
  rle a b := a ≤ b
  out := toI64 oob
  interp p n d := toI64 oob (lerp fused p n d)
  avg l := toI64 oob (f32avg l)
  toF := .int

/-- durdist.go: `_TYPE_ = time.Duration` (an int64) (durdist.go:29-185, dist.go:51-53). -/
def durKind (oob : ℚ → Int64) (fused : Bool) : DistKind Int64 ℚ :=
  { intKind oob fused with toF := .secs }

/-- `prior + diff*(next-prior)` in float64, where slots can be infinite or NaN (floatdist.go:151-153); `fused` as for `lerp`. -/
def flerp (fused : Bool) (prior next : F) (diff : ℚ) : F :=
  if fused then F.fma b64 (.fin diff) (F.sub b64 next prior) prior
  else F.add b64 prior (F.mul b64 (.fin diff) (F.sub b64 next prior))

/-- floatdist.go: `_TYPE_ = float64` (floatdist.go:28-184, dist.go:59-61).  Simplification: `sort.Sort` leaves slots in an unspecified order when one of them is NaN;
in the model NaN comes first. -/
def floatKind (fused : Bool) : DistKind F F where
  zero := .fin 0
  lt := F.lt
  add := F.add b64
  toR := F.conv b32
  rzero := .fin 0
  rle a b := a = .nan || F.le a b
  out := id
  interp := flerp fused
  avg l := F.quo b32 (l.foldl (F.add b32) (.fin 0)) (rn 24 (l.length : ℚ))
  toF v := match v with | .nan => .nan | .inf neg => .inf neg | .fin q => .flt q

end Monkit

namespace Monkit
open Go.Float

/-- intdist.go:100-105 `FullAverage` for the integer kinds (`/` truncates toward zero). -/
def Dist.fullAverage {G : Type} (d : Dist Int64 ℚ G) : Int64 :=
  if d.count > 0 then d.sum / d.count else 0

/-- floatdist.go:100-105 `FullAverage`. -/
def Dist.floatAverage {G : Type} (d : Dist F F G) : F :=
  if d.count > 0 then F.quo b64 d.sum (rn 53 d.count.toInt) else .fin 0

end Monkit
