import Verif.Go.Sys

/-!
# Span collectors

collect/collect.go:42-144 and collect/collect.go:158-192.

`traceOf y` is the trace of span `y`.  What a finish records besides the span (error, panic, time) plays no part in the
control flow and is left out.  `matcher` is any function: here it may answer anything each time it is asked.
-/

namespace Monkit.Collector
open Go

/-- The pointer `check`: nil, the span collection started on, or `donePointer` (collect/collect.go:44, 77). -/
inductive Chk where
  | unset
  | span (x : Nat)
  | done
  deriving DecidableEq

/-- Where a goroutine is (collect/collect.go:42-126). -/
inductive PC where
  | idle
  /-- `Start(y)`: about to load `check` (collect/collect.go:88) -/
  | sload (y : Nat)
  /-- … to ask the matcher -/
  | smatch (y : Nat)
  /-- … to compare and swap (collect/collect.go:91); also `ForceStart(y)` (collect/collect.go:82) -/
  | scas (y : Nat)
  /-- `Finish(y)`: about to load `check` (collect/collect.go:98-102) -/
  | fload (y : Nat)
  /-- … to lock, having loaded `x` (collect/collect.go:104) -/
  | fwait (y x : Nat)
  /-- … to look at `root` (collect/collect.go:105) -/
  | froot (y x : Nat)
  /-- … to set `root` or to record the span (collect/collect.go:109-116) -/
  | fset (y x : Nat)
  /-- … to unlock and return (collect/collect.go:106, 117) -/
  | fout (y : Nat)
  /-- … to unlock and call `Stop` (collect/collect.go:111) -/
  | frootOut (y : Nat)
  /-- `Stop`, called by the user or by `Finish(y)`: about to swap (collect/collect.go:123) -/
  | swap (y : Option Nat)
  /-- … to close the channel (collect/collect.go:124) -/
  | close (y : Option Nat)
  /-- … to return -/
  | ret (y : Option Nat)
  deriving DecidableEq

/-- The fields of the collector and the goroutines (collect/collect.go:42-54). -/
structure State where
  check : Chk
  mtx : Option Nat
  root : Option Nat
  /-- the spans recorded in `spansByParent`, oldest first -/
  coll : List Nat
  /-- how many times the channel was closed; a second time would panic -/
  closes : Nat
  pc : Nat → PC

/-- `NewSpanCollector` (collect/collect.go:59-69) -/
def init : State := ⟨.unset, none, none, [], 0, fun _ => .idle⟩

/-- What can be seen (collect/collect.go:42-126). -/
inductive Ev where
  /-- collection started on span `x` -/
  | started (x : Nat)
  | finishCall (t y : Nat)
  | finishRet (t y : Nat)
  | stopCall (t : Nat)
  | stopRet (t : Nat)
  deriving DecidableEq

/-- The event of returning from `Stop`, or from the `Finish` that called it (collect/collect.go:112, 122-126). -/
def retEv (t : Nat) : Option Nat → Ev
  | none => .stopRet t
  | some y => .finishRet t y

/-- One atomic access, or the statements under the lock (collect/collect.go:81-126). -/
inductive Step (traceOf : Nat → Nat) : State → Option Ev → State → Prop where
  | start (s : State) (t y : Nat) (h : s.pc t = .idle) :
      Step traceOf s none { s with pc := upd s.pc t (.sload y) }
  | sloadSet (s : State) (t y : Nat) (h : s.pc t = .sload y) (c : s.check ≠ .unset) :
      Step traceOf s none { s with pc := upd s.pc t .idle }
  | sloadNil (s : State) (t y : Nat) (h : s.pc t = .sload y) (c : s.check = .unset) :
      Step traceOf s none { s with pc := upd s.pc t (.smatch y) }
  | smatchNo (s : State) (t y : Nat) (h : s.pc t = .smatch y) :
      Step traceOf s none { s with pc := upd s.pc t .idle }
  | smatchYes (s : State) (t y : Nat) (h : s.pc t = .smatch y) :
      Step traceOf s none { s with pc := upd s.pc t (.scas y) }
  /-- `ForceStart(y)`; with a nil span it does nothing -/
  | force (s : State) (t y : Nat) (h : s.pc t = .idle) :
      Step traceOf s none { s with pc := upd s.pc t (.scas y) }
  | scasOk (s : State) (t y : Nat) (h : s.pc t = .scas y) (c : s.check = .unset) :
      Step traceOf s (some (.started y)) { s with check := .span y, pc := upd s.pc t .idle }
  | scasNo (s : State) (t y : Nat) (h : s.pc t = .scas y) (c : s.check ≠ .unset) :
      Step traceOf s none { s with pc := upd s.pc t .idle }
  | finish (s : State) (t y : Nat) (h : s.pc t = .idle) :
      Step traceOf s (some (.finishCall t y)) { s with pc := upd s.pc t (.fload y) }
  | floadNo (s : State) (t y : Nat) (h : s.pc t = .fload y)
      (c : ∀ x, s.check = .span x → traceOf x ≠ traceOf y) :
      Step traceOf s (some (.finishRet t y)) { s with pc := upd s.pc t .idle }
  | floadYes (s : State) (t y x : Nat) (h : s.pc t = .fload y) (c : s.check = .span x)
      (c' : traceOf x = traceOf y) :
      Step traceOf s none { s with pc := upd s.pc t (.fwait y x) }
  | flock (s : State) (t y x : Nat) (h : s.pc t = .fwait y x) (free : s.mtx = none) :
      Step traceOf s none { s with mtx := some t, pc := upd s.pc t (.froot y x) }
  | frootSet (s : State) (t y x : Nat) (h : s.pc t = .froot y x) (c : s.root ≠ none) :
      Step traceOf s none { s with pc := upd s.pc t (.fout y) }
  | frootNil (s : State) (t y x : Nat) (h : s.pc t = .froot y x) (c : s.root = none) :
      Step traceOf s none { s with pc := upd s.pc t (.fset y x) }
  | fsetRoot (s : State) (t y x : Nat) (h : s.pc t = .fset y x) (c : x = y) :
      Step traceOf s none { s with root := some y, pc := upd s.pc t (.frootOut y) }
  | fsetColl (s : State) (t y x : Nat) (h : s.pc t = .fset y x) (c : x ≠ y) :
      Step traceOf s none { s with coll := s.coll ++ [y], pc := upd s.pc t (.fout y) }
  | fout (s : State) (t y : Nat) (h : s.pc t = .fout y) :
      Step traceOf s (some (.finishRet t y)) { s with mtx := none, pc := upd s.pc t .idle }
  | frootOut (s : State) (t y : Nat) (h : s.pc t = .frootOut y) :
      Step traceOf s none { s with mtx := none, pc := upd s.pc t (.swap (some y)) }
  | stop (s : State) (t : Nat) (h : s.pc t = .idle) :
      Step traceOf s (some (.stopCall t)) { s with pc := upd s.pc t (.swap none) }
  | swapDone (s : State) (t : Nat) (y : Option Nat) (h : s.pc t = .swap y) (c : s.check = .done) :
      Step traceOf s none { s with pc := upd s.pc t (.ret y) }
  | swapNew (s : State) (t : Nat) (y : Option Nat) (h : s.pc t = .swap y) (c : s.check ≠ .done) :
      Step traceOf s none { s with check := .done, pc := upd s.pc t (.close y) }
  | close (s : State) (t : Nat) (y : Option Nat) (h : s.pc t = .close y) :
      Step traceOf s none { s with closes := s.closes + 1, pc := upd s.pc t (.ret y) }
  | ret (s : State) (t : Nat) (y : Option Nat) (h : s.pc t = .ret y) :
      Step traceOf s (some (retEv t y)) { s with pc := upd s.pc t .idle }

end Monkit.Collector
