import Verif.Go.Sys

/-!
# Observing all traces

collect/trace.go:25-62, `ObserveAllTraces`, as an interleaved system.  Any goroutine may at any time
* run the watcher callback for a trace (collect/trace.go:31-39) – a trace is announced;
* run the callback of the scan of the root spans for a trace (collect/trace.go:42-51) – the same statements;
* run the cancel function (collect/trace.go:53-61), any number of times, also concurrently.

This allows more than the code: the scan is done by one goroutine before `cancel` exists, and
`mainCanceler` (C32) stops some of the announcements.  `Trace.ObserveSpans` and the removal of an observer are
single steps here: C31 is about them.  Attachments are numbered.
-/

namespace Monkit.AllTraces
open Go

/-- Where a goroutine is (collect/trace.go:25-62). -/
inductive PC where
  | idle
  /-- callback with trace `T`: about to lock (collect/trace.go:32, 43) -/
  | want (T : Nat)
  /-- about to test `existingTraces[t] || stopping` (collect/trace.go:34, 46) -/
  | check (T : Nat)
  /-- about to set `existingTraces[t]` (collect/trace.go:37, 49) -/
  | mark (T : Nat)
  /-- about to call `t.ObserveSpans` (collect/trace.go:38, 50) -/
  | attach (T : Nat)
  /-- about to append the canceler -/
  | append (T r : Nat)
  /-- about to unlock (collect/trace.go:33, 44) -/
  | out (T : Nat)
  /-- cancel: about to lock (collect/trace.go:54), `mainCanceler` being done -/
  | cwant
  /-- about to set `stopping` (collect/trace.go:57) -/
  | cstop
  /-- about to call the rest of the cancelers (collect/trace.go:57-60) -/
  | cloop (rest : List Nat)
  deriving DecidableEq

/-- The variables of `ObserveAllTraces`, the attachments and the goroutines (collect/trace.go:26-29). -/
structure State where
  mtx : Option Nat
  existing : List Nat
  stopping : Bool
  cancelers : List Nat
  /-- attachments that have not been removed: number, trace -/
  live : List (Nat × Nat)
  next : Nat
  pc : Nat → PC

/-- Nothing observed yet (collect/trace.go:26-29). -/
def init : State := ⟨none, [], false, [], [], 0, fun _ => .idle⟩

/-- What can be seen (collect/trace.go:25-62). -/
inductive Ev where
  /-- the collector was registered with trace `T` -/
  | attached (T : Nat)
  /-- a callback for trace `T` returned -/
  | returned (T : Nat)
  /-- the cancel function was called -/
  | cancelCall
  /-- the cancel function returned -/
  | cancelReturn
  deriving DecidableEq

/-- One statement, or one group of statements under the lock (collect/trace.go:25-62). -/
inductive Step : State → Option Ev → State → Prop where
  | callback (s : State) (t T : Nat) (h : s.pc t = .idle) :
      Step s none { s with pc := upd s.pc t (.want T) }
  | lock (s : State) (t T : Nat) (h : s.pc t = .want T) (free : s.mtx = none) :
      Step s none { s with mtx := some t, pc := upd s.pc t (.check T) }
  | checkOut (s : State) (t T : Nat) (h : s.pc t = .check T) (c : T ∈ s.existing ∨ s.stopping = true) :
      Step s none { s with pc := upd s.pc t (.out T) }
  | checkIn (s : State) (t T : Nat) (h : s.pc t = .check T) (c : T ∉ s.existing) (c' : s.stopping = false) :
      Step s none { s with pc := upd s.pc t (.mark T) }
  | mark (s : State) (t T : Nat) (h : s.pc t = .mark T) :
      Step s none { s with existing := T :: s.existing, pc := upd s.pc t (.attach T) }
  | attach (s : State) (t T : Nat) (h : s.pc t = .attach T) :
      Step s (some (.attached T)) { s with live := (s.next, T) :: s.live, next := s.next + 1,
                                           pc := upd s.pc t (.append T s.next) }
  | append (s : State) (t T r : Nat) (h : s.pc t = .append T r) :
      Step s none { s with cancelers := s.cancelers ++ [r], pc := upd s.pc t (.out T) }
  | unlock (s : State) (t T : Nat) (h : s.pc t = .out T) :
      Step s (some (.returned T)) { s with mtx := none, pc := upd s.pc t .idle }
  | cancel (s : State) (t : Nat) (h : s.pc t = .idle) :
      Step s (some .cancelCall) { s with pc := upd s.pc t .cwant }
  | clock (s : State) (t : Nat) (h : s.pc t = .cwant) (free : s.mtx = none) :
      Step s none { s with mtx := some t, pc := upd s.pc t .cstop }
  | cstop (s : State) (t : Nat) (h : s.pc t = .cstop) :
      Step s none { s with stopping := true, pc := upd s.pc t (.cloop s.cancelers) }
  | canceler (s : State) (t r : Nat) (rest : List Nat) (h : s.pc t = .cloop (r :: rest)) :
      Step s none { s with live := s.live.filter (fun x => x.1 ≠ r), pc := upd s.pc t (.cloop rest) }
  | cunlock (s : State) (t : Nat) (h : s.pc t = .cloop []) :
      Step s (some .cancelReturn) { s with mtx := none, pc := upd s.pc t .idle }

end Monkit.AllTraces
