import Verif.Go.Sys

/-!
# id.go: `NewId`
-/

namespace Monkit.Id

/-- id.go:31-35: the process's random bytes give both numbers.  `buf` is the first eight bytes, big endian; the code reads
those for `inc` as well (`buf[0:8]`, twice). -/
def seed (buf : UInt64) : UInt64 × UInt64 := (buf >>> 1, buf >>> 1 ||| 3)

/-- id.go:36-40: without a source of random bytes.  `x` and `y` are what `rng.Int63()` gives: not negative. -/
def seedFallback (x y : Int64) : UInt64 × UInt64 := (x.toUInt64, (y ||| 3).toUInt64)

/-- id.go:45-48: what `NewId` returns when `AddUint64` gives `c`. -/
def value (c : UInt64) : Int64 := (c >>> 1).toInt64

/-- Calls of `NewId` by any goroutines `t`: the atomic addition is the only thing they share, and what they return depends on
what it gave only.  The state is `idCounter`; the events are the additions, with the values returned (id.go:45-48). -/
inductive Step (inc : UInt64) : UInt64 → Option (Nat × Int64) → UInt64 → Prop where
  | newId (c : UInt64) (t : Nat) : Step inc c (some (t, value (c + inc))) (c + inc)

end Monkit.Id
