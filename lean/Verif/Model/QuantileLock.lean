import Verif.Go.Sys
import Verif.Model.Dist

/-!
# val.go: values asked for any quantile

val.go:46-68, 93-115, 226-248: `Observe`, `Stats` and `Quantile` lock the value, use its distribution and unlock, none of them with `defer` (`Stats` reports from
a copy after unlocking).  Model/Val has the same calls for quantiles that are numbers and shows that nothing panics then.  Here a quantile may also be NaN
(`none`), and a panic leaves the call at once, the mutex as it is; the caller may recover it and go on.
-/

namespace Monkit.QuantileLock
open Go Monkit

variable {V R G : Type}

/-- What Go leaves to the machine: `int(NaN)` (the smallest integer on amd64, 0 on arm64) and the value type of a NaN (intdist.go:148-153). -/
structure Machine (V : Type) where
  idx : Int
  val : V

/-- intdist.go:125-154 `Query` when the quantile is NaN: both comparisons are false (lines 141, 144) and so is `idx_float` NaN.  `none`: index out of range. -/
def queryNaN (K : DistKind V R) (m : Machine V) (d : Dist V R G) : Option (Dist V R G × V) :=
  if d.rlen < 2 then
    d.reservoir[0]?.map fun x => (d, K.out x)
  else
    let d' := d.sortReservoir K
    let reservoir := d'.reservoir.take d.rlen.toNat
    if m.idx < 0 then none
    else
      match reservoir[m.idx.toNat]?, reservoir[m.idx.toNat + 1]? with
      | some _, some _ => some (d', m.val)
      | _, _ => none

/-- The calls: as in Model/Val, with NaN (`none`) a possible quantile (val.go:46-68). -/
inductive Op (V G : Type) where
  | observe (v : V) (W : Int64)
  | quantile (q : Option ℚ)
  | stats (g : G)

/-- What a call returns: nothing, a quantile, or the copy `Stats` reports from (val.go:46-68). -/
inductive Res (V R G : Type) where
  | unit
  | val (v : V)
  | copy (d : Dist V R G)

/-- What a call does between `Lock` and `Unlock`; `none`: it panics (val.go:48, 55, 65). -/
def body (K : DistKind V R) (next : G → UInt64 × G) (m : Machine V) (d : Dist V R G) : Op V G → Option (Dist V R G × Res V R G)
  | .observe v W => (d.insert K next W v).map fun d => (d, .unit)
  | .quantile (some q) => (d.query K q).map fun x => (x.1, .val x.2)
  | .quantile none => (queryNaN K m d).map fun x => (x.1, .val x.2)
  | .stats g => some (d, .copy (d.copy g))

/-- Where a goroutine is (val.go:46-68). -/
inductive PC (V R G : Type) where
  | idle
  /-- about to lock (val.go:47, 54, 64) -/
  | lock (o : Op V G)
  /-- about to use the distribution (val.go:48, 55, 65) -/
  | inside (o : Op V G)
  /-- about to unlock (val.go:49, 56, 66) -/
  | unlock (r : Res V R G)

/-- The value and the goroutines that use it (val.go:27-30). -/
structure State (V R G : Type) where
  lock : Option Nat
  dist : Dist V R G
  pc : Nat → PC V R G

/-- What can be seen (val.go:46-68). -/
inductive Ev (V R G : Type) where
  | call (t : Nat) (o : Op V G)
  | ret (t : Nat) (r : Res V R G)
  /-- the call is left by a panic -/
  | panics (t : Nat)

/-- One step (val.go:46-68). -/
inductive Step (K : DistKind V R) (next : G → UInt64 × G) (m : Machine V) : State V R G → Option (Ev V R G) → State V R G → Prop where
  | call (s : State V R G) (t : Nat) (o : Op V G) (h : s.pc t = .idle) : Step K next m s (some (.call t o)) { s with pc := upd s.pc t (.lock o) }
  /-- val.go:47, 54, 64 -/
  | lock (s : State V R G) (t : Nat) (o : Op V G) (h : s.pc t = .lock o) (free : s.lock = none) :
      Step K next m s none { s with lock := some t, pc := upd s.pc t (.inside o) }
  /-- val.go:48, 55, 65 -/
  | body (s : State V R G) (t : Nat) (o : Op V G) (d : Dist V R G) (r : Res V R G) (h : s.pc t = .inside o) (hb : body K next m s.dist o = some (d, r)) :
      Step K next m s none { s with dist := d, pc := upd s.pc t (.unlock r) }
  /-- val.go:48, 65: no deferred call unlocks; whatever the panicking call has done to the distribution remains -/
  | panics (s : State V R G) (t : Nat) (o : Op V G) (d : Dist V R G) (h : s.pc t = .inside o) (hb : QuantileLock.body K next m s.dist o = none) :
      Step K next m s (some (.panics t)) { s with dist := d, pc := upd s.pc t .idle }
  /-- val.go:49, 56, 66 -/
  | unlock (s : State V R G) (t : Nat) (r : Res V R G) (h : s.pc t = .unlock r) :
      Step K next m s (some (.ret t r)) { s with lock := none, pc := upd s.pc t .idle }

/-- A new value (val.go:32-36). -/
def init (K : DistKind V R) (key : Key) (g : G) : State V R G := ⟨none, .new K key g, fun _ => .idle⟩

end Monkit.QuantileLock
