import Verif.Go.Mutex
import Verif.Model.Dist

/-!
# val.go (`IntVal`, `DurationVal`, `FloatVal`) and timer.go, for concurrent use

Both wrap a distribution in a mutex.  A panic inside `Insert` or `Query` is recorded by the state
`none` (the mutex would stay locked; the theorems show that it never happens).
-/

namespace Monkit.Val
open Go.Mutex Monkit

variable {V R G : Type}

/-- The calls.  `observe` carries the value of the global `Window` at that time, `stats` the freshly
seeded generator of the copy it makes (val.go:46-68). -/
inductive Op (V G : Type) where
  | observe (v : V) (W : Int64)
  | quantile (q : ℚ)
  | stats (g : G)

/-- What is returned: nothing, a quantile, or the copy of the distribution that `Stats` goes on to
report from after releasing the lock (val.go:46-68, timer.go:70-96). -/
inductive Res (V R G : Type) where
  | unit
  | val (v : Option V)
  | copy (d : Option (Dist V R G))

/-- val.go:46-50 (226-230, 93-97 …) `Observe`; 53-59 `Stats`; 63-68 `Quantile`.  `Insert`, `Copy` and
`Query` are each one access here. -/
def obj (K : DistKind V R) (next : G → UInt64 × G) :
    Obj (Option (Dist V R G)) (Res V R G) (Op V G) (Res V R G) where
  enter _ := .unit
  body
    | .observe v W => [fun (d, l) => (d.bind fun d => d.insert K next W v, l)]
    | .quantile q => [fun (d, _) => ((d.bind fun d => d.query K q).map (·.1),
        .val ((d.bind fun d => d.query K q).map (·.2)))]
    | .stats g => [fun (d, _) => (d, .copy (d.map fun d => d.copy g))]
  result _ l := l

end Monkit.Val

namespace Monkit.Timer
open Go.Mutex Monkit

variable {G : Type}

/-- timer.go:39-42 the timer's distribution, and timer.go:57-61 the `stopped` flags of all its
running timers (numbered), which are only accessed under the timer's lock. -/
structure State (G : Type) where
  times : Option (Dist Int64 ℚ G)
  stopped : Nat → Bool

/-- timer.go:70-79 `Stop` on running timer number `r`; `elapsed` was read before taking the lock
(line 71).  timer.go:82-96 `Values`, `Stats`. -/
inductive Op (G : Type) where
  | stop (r : Nat) (elapsed : Int64) (W : Int64)
  | values (g : G)

/-- What is returned (val.go:46-68, timer.go:70-96). -/
inductive Res (G : Type) where
  | elapsed (d : Int64)
  | copy (d : Option (Dist Int64 ℚ G))

/-- Local variables (timer.go:70-96). -/
structure Locals (G : Type) where
  stopped : Bool
  copy : Option (Dist Int64 ℚ G)

/-- timer.go:72-77 (the flag is read, the duration inserted, the flag written: three accesses) and
83-85, 91-93. -/
def obj (K : DistKind Int64 ℚ) (next : G → UInt64 × G) :
    Obj (State G) (Locals G) (Op G) (Res G) where
  enter _ := ⟨false, none⟩
  body
    | .stop r elapsed W => [
        fun (s, l) => (s, { l with stopped := s.stopped r }),
        fun (s, l) => if l.stopped then (s, l)
          else ({ s with times := s.times.bind fun d => d.insert K next W elapsed }, l),
        fun (s, l) => if l.stopped then (s, l)
          else ({ s with stopped := upd s.stopped r true }, l)]
    | .values g => [fun (s, l) => (s, { l with copy := s.times.map fun d => d.copy g })]
  result
    | .stop _ elapsed _, _ => .elapsed elapsed
    | .values _, l => .copy l.copy

/-- timer.go:45-47 `NewTimer`, with no running timer stopped yet. -/
def init (K : DistKind Int64 ℚ) (key : Key) (g : G) : State G :=
  ⟨some (Dist.new K key g), fun _ => false⟩

end Monkit.Timer
