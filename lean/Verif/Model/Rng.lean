/-!
# rng.go: the random number generators
-/

namespace Monkit.Rng

/-- rng.go:18-22: the constants. -/
def a : UInt64 := 6364136223846793005
/-- The constants (rng.go:18-22). -/
def c : UInt64 := 1442695040888963407
/-- The constants (rng.go:18-22). -/
def h : UInt64 := 0xffffffff00000000

/-- rng.go:25-31 `(*lcg).Uint64`; the state is the `uint64` itself. -/
def lcg (l : UInt64) : UInt64 × UInt64 :=
  let l := a * l + c
  let ret := (0 : UInt64) ||| (l >>> 32)
  let l := a * l + c
  let ret := ret ||| (l &&& h)
  (ret, l)

/-- rng.go:58-66 `(*xorshift64).Uint64`. -/
def xorshift64 (s : UInt64) : UInt64 × UInt64 :=
  let x := s
  let x := x ^^^ (x >>> 12)
  let x := x ^^^ (x <<< 25)
  let x := x ^^^ (x >>> 27)
  let x := x * 2685821657736338717
  (x, x)

/-- rng.go:78-81 `xorshift1024`.  The array is a function on `0..15`, as every index is masked
with 15; `p` is a Go `int`, here `Int64`. -/
structure X1024 where
  s : Fin 16 → UInt64
  p : Int64

/-- `p & 15` as an array index (rng.go:111-122). -/
def idx (p : Int64) : Fin 16 := ⟨(p &&& 15).toUInt64.toNat % 16, Nat.mod_lt _ (by decide)⟩

/-- rng.go:111-122 `(*xorshift1024).Uint64`. -/
def xorshift1024 (s : X1024) : UInt64 × X1024 :=
  let p := s.p &&& 15
  let s0 := s.s (idx p)
  let p := (p + 1) &&& 15
  let s1 := s.s (idx p)
  let s1 := s1 ^^^ (s1 <<< 31)
  let v := s1 ^^^ s0 ^^^ (s1 >>> 1) ^^^ (s0 >>> 30)
  (v * 1181783497276652981, ⟨fun i => if i = idx p then v else s.s i, p⟩)

/-- rng.go:151 `xorshift128`. -/
structure X128 where
  s0 : UInt64
  s1 : UInt64
  deriving DecidableEq

/-- rng.go:174-181 `(*xorshift128).Uint64`. -/
def xorshift128 (s : X128) : UInt64 × X128 :=
  let x := s.s0
  let y := s.s1
  let x := x ^^^ (x <<< 23)
  let s1 := x ^^^ y ^^^ (x >>> 17) ^^^ (y >>> 26)
  (s1 + y, ⟨y, s1⟩)

/-- rng.go:34-36, 69-71, 106-108, 169-171 `Int63`: `int64(Uint64() >> 1)`. -/
def int63 {G : Type} (next : G → UInt64 × G) (g : G) : Int64 := ((next g).1 >>> 1).toInt64

/-- rng.go:161-166 `(*xorshift128).Seed`. -/
def seed128 (seed : Int64) : X128 :=
  let rng := seed.toUInt64
  let (r0, rng) := xorshift64 rng
  let (r1, _) := xorshift64 rng
  ⟨r0, r1⟩

/-- The `n`-th value of a `xorshift64` sequence of calls (rng.go:58-66). -/
def draw64 (rng : UInt64) : Nat → UInt64
  | 0 => (xorshift64 rng).1
  | n + 1 => draw64 (xorshift64 rng).2 n

/-- rng.go:92-103 `(*xorshift1024).Seed`: sixteen draws, in order. -/
def seed1024 (seed : Int64) : X1024 := ⟨fun i => draw64 seed.toUInt64 i.val, 0⟩

/-- The state after `n` calls of a generator (rng.go:25-181). -/
def iter {G : Type} (next : G → UInt64 × G) : Nat → G → G
  | 0, g => g
  | n + 1, g => iter next n (next g).2

/-- The value returned by call number `n` (from 0) (rng.go:25-181). -/
def output {G : Type} (next : G → UInt64 × G) (g : G) (n : Nat) : UInt64 := (next (iter next n g)).1

end Monkit.Rng
