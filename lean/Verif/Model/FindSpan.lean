import Verif.Go.Sys

/-!
# Looking for one span

collect/ctx.go:73-90 and collect/collect.go:160-197.  Spans start on any number of goroutines, each of which calls `Start` of the finder; one more
goroutine runs `FindSpan`.  To which traces the finder is attached is the matter of Model/AllTraces; here `Start` may be called at any time.
A nil matcher, with which `FindSpan` returns at once, is left out.
-/

namespace Monkit.FindSpan
open Go

/-- Where a goroutine that starts span `y` is (collect/collect.go:173-193). -/
inductive PC where
  | idle
  /-- about to load `doneFlag` (collect/collect.go:174) -/
  | load (y : Nat)
  /-- about to call the matcher (collect/collect.go:177) -/
  | ask (y : Nat)
  /-- in the matcher -/
  | asking (y : Nat)
  /-- in `Stop`, about to swap `doneFlag` (collect/collect.go:190) -/
  | swap (y : Nat)
  /-- about to close the channel (collect/collect.go:191) -/
  | close (y : Nat)
  /-- about to return -/
  | out (y : Nat)
  deriving DecidableEq

/-- Where `FindSpan` is (collect/ctx.go:84-89). -/
inductive Main where
  /-- in the `select` -/
  | watch
  /-- about to call the cancel function of `ObserveAllTraces` -/
  | cancel
  /-- in `Stop`, about to swap `doneFlag` -/
  | swap
  /-- about to close the channel -/
  | close
  /-- about to return -/
  | out
  | returned
  deriving DecidableEq

/-- The finder (collect/collect.go:160-164), the context's state and the goroutines; `closes` counts how often the channel was closed. -/
structure State where
  flag : Bool
  closes : Nat
  ctxDone : Bool
  pc : Nat → PC
  main : Main

/-- What can be seen (collect/collect.go:173-193, collect/ctx.go:84-89). -/
inductive Ev where
  /-- span `y` starts on goroutine `t` -/
  | start (t y : Nat)
  /-- the matcher is called, and answers -/
  | ask (t y : Nat)
  | answer (t y : Nat) (b : Bool)
  /-- `Start` returns -/
  | started (t y : Nat)
  /-- the matcher panics, and `Start` with it -/
  | panicked (t y : Nat)
  /-- the context is cancelled -/
  | ctxDone
  /-- the finder is detached from all traces -/
  | detach
  /-- `FindSpan` returns -/
  | ret
  deriving DecidableEq

/-- One atomic access or call (collect/collect.go:173-193, collect/ctx.go:84-89). -/
inductive Step : State → Option Ev → State → Prop where
  | start (s : State) (t y : Nat) (h : s.pc t = .idle) :
      Step s (some (.start t y)) { s with pc := upd s.pc t (.load y) }
  /-- collect/collect.go:174-176 -/
  | loadSet (s : State) (t y : Nat) (h : s.pc t = .load y) (c : s.flag = true) :
      Step s none { s with pc := upd s.pc t (.out y) }
  | loadZero (s : State) (t y : Nat) (h : s.pc t = .load y) (c : s.flag = false) :
      Step s none { s with pc := upd s.pc t (.ask y) }
  /-- collect/collect.go:177 -/
  | ask (s : State) (t y : Nat) (h : s.pc t = .ask y) :
      Step s (some (.ask t y)) { s with pc := upd s.pc t (.asking y) }
  | no (s : State) (t y : Nat) (h : s.pc t = .asking y) :
      Step s (some (.answer t y false)) { s with pc := upd s.pc t (.out y) }
  | yes (s : State) (t y : Nat) (h : s.pc t = .asking y) :
      Step s (some (.answer t y true)) { s with pc := upd s.pc t (.swap y) }
  /-- collect/collect.go:177: nothing in `Start` is deferred -/
  | panics (s : State) (t y : Nat) (h : s.pc t = .asking y) :
      Step s (some (.panicked t y)) { s with pc := upd s.pc t .idle }
  /-- collect/collect.go:190 -/
  | swapSet (s : State) (t y : Nat) (h : s.pc t = .swap y) (c : s.flag = true) :
      Step s none { s with pc := upd s.pc t (.out y) }
  | swapZero (s : State) (t y : Nat) (h : s.pc t = .swap y) (c : s.flag = false) :
      Step s none { s with flag := true, pc := upd s.pc t (.close y) }
  /-- collect/collect.go:191 -/
  | close (s : State) (t y : Nat) (h : s.pc t = .close y) :
      Step s none { s with closes := s.closes + 1, pc := upd s.pc t (.out y) }
  | started (s : State) (t y : Nat) (h : s.pc t = .out y) :
      Step s (some (.started t y)) { s with pc := upd s.pc t .idle }
  /-- someone cancels the context -/
  | ctxDone (s : State) : Step s (some .ctxDone) { s with ctxDone := true }
  /-- collect/ctx.go:87 -/
  | selectCtx (s : State) (h : s.main = .watch) (c : s.ctxDone = true) : Step s none { s with main := .cancel }
  /-- collect/ctx.go:88 -/
  | selectDone (s : State) (h : s.main = .watch) (c : 0 < s.closes) : Step s none { s with main := .cancel }
  /-- collect/ctx.go:84: the deferred cancel -/
  | detach (s : State) (h : s.main = .cancel) : Step s (some .detach) { s with main := .swap }
  /-- collect/ctx.go:82, collect/collect.go:190: the deferred `Stop` -/
  | mswapSet (s : State) (h : s.main = .swap) (c : s.flag = true) : Step s none { s with main := .out }
  | mswapZero (s : State) (h : s.main = .swap) (c : s.flag = false) : Step s none { s with flag := true, main := .close }
  | mclose (s : State) (h : s.main = .close) : Step s none { s with closes := s.closes + 1, main := .out }
  | ret (s : State) (h : s.main = .out) : Step s (some .ret) { s with main := .returned }

/-- collect/ctx.go:79-86, collect/collect.go:166-171: `FindSpan` at its `select`. -/
def init : State := ⟨false, 0, false, fun _ => .idle, .watch⟩

end Monkit.FindSpan
