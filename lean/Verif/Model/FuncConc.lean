import Verif.Go.Sys
import Verif.Model.FuncStats

/-!
# funcstats.go under concurrent use

Every monitored call (a call of `start` and later one of `end`), every `Reset` and every `Stats` is a process of its own; any number of them run at the same time.
`current` and `highwater` are changed atomically outside the mutex; what the mutex protects is read and written between `Lock` and `Unlock` only, and these
accesses are one step here (C03).  The set of parents is Model/FuncSet; names of errors are given by a function (C89 is about handlers that do not return).
-/

namespace Monkit.FuncConc
open Go
open Monkit.FuncStats (Op bump)

/-- What a process is: a monitored call with its outcome and duration, a `Reset` or a `Stats` (funcstats.go:65-175). -/
inductive Kind (E : Type) where
  | call (err : Option E) (panicked : Bool) (duration window : Int64)
  | reset
  | report

/-- A report (funcstats.go:148-175). -/
abbrev Report := List (Key × Str × FVal)

/-- Where a process is (funcstats.go:65-175). -/
inductive PC where
  | new
  /-- in `start`: about to add 1 to `current` (line 78), to load `highwater` (80), to compare and swap (81-82) -/
  | add
  | load (cur : Int64)
  | cas (cur hw : Int64)
  /-- `start` has returned, `end` has not been called -/
  | running
  /-- in `end`: about to subtract 1 (line 89) -/
  | sub
  /-- in `Reset`: about to store 0 to `current` (line 66), to `highwater` (67) -/
  | zeroCur
  | zeroHw
  /-- in `Stats`: about to load `current` (line 149), `highwater` (150) -/
  | readCur
  | readHw (c : Int64)
  /-- about to lock (lines 90, 68, 152); `c`, `h`: what `Stats` has loaded -/
  | wait (c h : Int64)
  /-- the mutex is held; about to do what it protects -/
  | inside (c h : Int64)
  /-- about to unlock; `rep`: what `Stats` reports -/
  | unlock (rep : Report)
  /-- returned -/
  | over (rep : Report)

/-- The statistics, the mutex and the processes (funcstats.go:34-46).  `log` is not in the code: the calls of `end` and `Reset` in the order in which they had the
mutex. -/
structure State (G : Type) where
  f : FuncStats G
  lock : Option Nat
  pc : Nat → PC
  log : List Nat

/-- funcstats.go:91-104: what `end` does with the mutex held. -/
def record {G E : Type} (K : DistKind Int64 ℚ) (next : G → UInt64 × G) (name : E → Str) (f : FuncStats G) (err : Option E) (panicked : Bool)
    (duration W : Int64) : Option (FuncStats G) :=
  if panicked then
    let f := { f with panics := f.panics + 1 }
    (f.failure.insert K next W duration).map fun d => { f with failure := d }
  else
    match err with
    | none => (f.success.insert K next W duration).map fun d => { f with success := d }
    | some e => (f.failure.insert K next W duration).map fun d => { f with failure := d, errors := bump f.errors (name e) }

/-- funcstats.go:69-72: what `Reset` does with the mutex held. -/
def clear {G : Type} (K : DistKind Int64 ℚ) (f : FuncStats G) : FuncStats G :=
  { f with errors := [], panics := 0, success := f.success.reset K, failure := f.failure.reset K }

/-- One step of one process (funcstats.go:65-175). -/
inductive Step {G E : Type} (K : DistKind Int64 ℚ) (next : G → UInt64 × G) (name : E → Str) (kind : Nat → Kind E) : State G → State G → Prop where
  /-- `start` is called (funcstats.go:76) -/
  | start (s : State G) (n : Nat) (e p d w) (hk : kind n = .call e p d w) (h : s.pc n = .new) : Step K next name kind s { s with pc := upd s.pc n .add }
  /-- funcstats.go:78 -/
  | add (s : State G) (n : Nat) (h : s.pc n = .add) :
      Step K next name kind s { s with f := { s.f with current := s.f.current + 1 }, pc := upd s.pc n (.load (s.f.current + 1)) }
  /-- funcstats.go:80 -/
  | load (s : State G) (n : Nat) (cur) (h : s.pc n = .load cur) : Step K next name kind s { s with pc := upd s.pc n (.cas cur s.f.highwater) }
  /-- funcstats.go:81-84 -/
  | enough (s : State G) (n : Nat) (cur hw) (h : s.pc n = .cas cur hw) (le : cur ≤ hw) : Step K next name kind s { s with pc := upd s.pc n .running }
  | swap (s : State G) (n : Nat) (cur hw) (h : s.pc n = .cas cur hw) (gt : ¬cur ≤ hw) (same : s.f.highwater = hw) :
      Step K next name kind s { s with f := { s.f with highwater := cur }, pc := upd s.pc n .running }
  | retry (s : State G) (n : Nat) (cur hw) (h : s.pc n = .cas cur hw) (gt : ¬cur ≤ hw) (changed : s.f.highwater ≠ hw) :
      Step K next name kind s { s with pc := upd s.pc n (.load cur) }
  /-- `end` is called (funcstats.go:88) -/
  | finish (s : State G) (n : Nat) (h : s.pc n = .running) : Step K next name kind s { s with pc := upd s.pc n .sub }
  /-- funcstats.go:89 -/
  | sub (s : State G) (n : Nat) (h : s.pc n = .sub) :
      Step K next name kind s { s with f := { s.f with current := s.f.current + (-1) }, pc := upd s.pc n (.wait 0 0) }
  /-- `Reset` is called (funcstats.go:65) -/
  | reset (s : State G) (n : Nat) (hk : kind n = .reset) (h : s.pc n = .new) : Step K next name kind s { s with pc := upd s.pc n .zeroCur }
  /-- funcstats.go:66 -/
  | zeroCur (s : State G) (n : Nat) (h : s.pc n = .zeroCur) :
      Step K next name kind s { s with f := { s.f with current := 0 }, pc := upd s.pc n .zeroHw }
  /-- funcstats.go:67 -/
  | zeroHw (s : State G) (n : Nat) (h : s.pc n = .zeroHw) :
      Step K next name kind s { s with f := { s.f with highwater := 0 }, pc := upd s.pc n (.wait 0 0) }
  /-- `Stats` is called (funcstats.go:148) -/
  | report (s : State G) (n : Nat) (hk : kind n = .report) (h : s.pc n = .new) : Step K next name kind s { s with pc := upd s.pc n .readCur }
  /-- funcstats.go:149 -/
  | readCur (s : State G) (n : Nat) (h : s.pc n = .readCur) : Step K next name kind s { s with pc := upd s.pc n (.readHw s.f.current) }
  /-- funcstats.go:150 -/
  | readHw (s : State G) (n : Nat) (c) (h : s.pc n = .readHw c) : Step K next name kind s { s with pc := upd s.pc n (.wait c s.f.highwater) }
  /-- funcstats.go:68, 90, 152 -/
  | lock (s : State G) (n : Nat) (c h) (hn : s.pc n = .wait c h) (free : s.lock = none) :
      Step K next name kind s { s with lock := some n, pc := upd s.pc n (.inside c h) }
  /-- funcstats.go:91-104 -/
  | record (s : State G) (n : Nat) (c h e p d w f') (hk : kind n = .call e p d w) (hn : s.pc n = .inside c h)
      (hf : FuncConc.record K next name s.f e p d w = some f') :
      Step K next name kind s { s with f := f', log := s.log ++ [n], pc := upd s.pc n (.unlock []) }
  /-- funcstats.go:69-72 -/
  | clear (s : State G) (n : Nat) (c h) (hk : kind n = .reset) (hn : s.pc n = .inside c h) :
      Step K next name kind s { s with f := FuncConc.clear K s.f, log := s.log ++ [n], pc := upd s.pc n (.unlock []) }
  /-- funcstats.go:153-159, and what `Stats` makes of the copies (lines 149-150, 162-174) -/
  | copy (s : State G) (n : Nat) (c h ord g1 g2 rep) (hk : kind n = .report) (hn : s.pc n = .inside c h) (ho : ord.Perm s.f.errors)
      (hr : FuncStats.stats K { s.f with current := c, highwater := h } ord g1 g2 = some rep) :
      Step K next name kind s { s with pc := upd s.pc n (.unlock rep) }
  /-- funcstats.go:73, 94, 99, 104, 160 -/
  | unlock (s : State G) (n : Nat) (rep) (h : s.pc n = .unlock rep) : Step K next name kind s { s with lock := none, pc := upd s.pc n (.over rep) }

/-- New statistics (funcstats.go:48-62). -/
def init {G : Type} (K : DistKind Int64 ℚ) (key : Key) (g1 g2 : G) : State G := ⟨FuncStats.new K key g1 g2, none, fun _ => .new, []⟩

/-- States reached by any schedule (funcstats.go:65-175). -/
inductive Reach {G E : Type} (K : DistKind Int64 ℚ) (next : G → UInt64 × G) (name : E → Str) (kind : Nat → Kind E) (s₀ : State G) : State G → Prop where
  | start : Reach K next name kind s₀ s₀
  | step {s s'} (h : Reach K next name kind s₀ s) (st : Step K next name kind s s') : Reach K next name kind s₀ s'

end Monkit.FuncConc
