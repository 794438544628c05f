import Verif.Go.Sys

/-!
# Sampling callbacks while /trace/remote waits (present/path.go, collect)

`/trace/remote` looks for a span with `collect.FindSpan`.  The matcher it passes runs in the goroutines that start spans; it sets
the trace it found under a mutex and, with the mutex held, calls the callback stored in the trace.  Callbacks are code of users; here a
callback starts spans, one after the other.  What a goroutine still has to do is a list; what is called comes before what called it.
-/

namespace Monkit.RemoteCb
open Go

/-- What the code depends on: which spans match the query (present/path.go:236), the trace of each span, and the spans
the callback of each trace starts (present/path.go:244-246). -/
structure World where
  matches_ : Nat → Bool
  trace : Nat → Nat
  callback : Nat → List Nat

/-- What is to be done next (collect/collect.go:171-178, present/path.go:235-250). -/
inductive Act where
  /-- `spanFinder.Start(s)`, for a span that starts (ctx.go:109-111) -/
  | start (s : Nat)
  /-- `traceMtx.Lock()` in the matcher -/
  | lock (s : Nat)
  /-- `if trace == nil` -/
  | inside (s : Nat)
  /-- the deferred `traceMtx.Unlock()` -/
  | unlock
  /-- `m.Stop()` -/
  | stop
  deriving DecidableEq

/-- `traceMtx`, `trace`, `doneFlag` and the goroutines (present/path.go:233-234, collect/collect.go:158-162). -/
structure State where
  mtx : Option Nat
  found : Option Nat
  done : Bool
  todo : Nat → List Act

/-- The query has just been made; goroutine `t` is going to start the spans `prog t` (present/path.go:233-235). -/
def init (prog : Nat → List Nat) : State := ⟨none, none, false, fun t => (prog t).map .start⟩

/-- One step of goroutine `t`, or the end of the query (collect/collect.go:171-190, present/path.go:235-250). -/
inductive Step (W : World) : State → State → Prop where
  /-- collect/collect.go:172-174 -/
  | late (s : State) (t x rest) : s.todo t = .start x :: rest → s.done = true → Step W s { s with todo := upd s.todo t rest }
  /-- present/path.go:236-238 -/
  | other (s : State) (t x rest) : s.todo t = .start x :: rest → s.done = false → W.matches_ x = false →
      Step W s { s with todo := upd s.todo t rest }
  | hit (s : State) (t x rest) : s.todo t = .start x :: rest → s.done = false → W.matches_ x = true →
      Step W s { s with todo := upd s.todo t (.lock x :: rest) }
  /-- present/path.go:239 -/
  | lock (s : State) (t x rest) : s.todo t = .lock x :: rest → s.mtx = none →
      Step W s { s with mtx := some t, todo := upd s.todo t (.inside x :: rest) }
  /-- present/path.go:241-246 -/
  | first (s : State) (t x rest) : s.todo t = .inside x :: rest → s.found = none →
      Step W s { s with found := some (W.trace x)
                        todo := upd s.todo t ((W.callback (W.trace x)).map .start ++ (.unlock :: .stop :: rest)) }
  | again (s : State) (t x rest y) : s.todo t = .inside x :: rest → s.found = some y →
      Step W s { s with todo := upd s.todo t (.unlock :: .stop :: rest) }
  /-- present/path.go:240 -/
  | unlock (s : State) (t rest) : s.todo t = .unlock :: rest → Step W s { s with mtx := none, todo := upd s.todo t rest }
  /-- collect/collect.go:175-177, 184-188 -/
  | stop (s : State) (t rest) : s.todo t = .stop :: rest → Step W s { s with done := true, todo := upd s.todo t rest }
  /-- the client went away: `FindSpan` returns and stops its finder (collect/ctx.go:80-86) -/
  | cancel (s : State) : s.done = false → Step W s { s with done := true }

/-- States reached by any schedule (present/path.go:233-250). -/
inductive Reach (W : World) (s₀ : State) : State → Prop where
  | start : Reach W s₀ s₀
  | step {s s'} (h : Reach W s₀ s) (st : Step W s s') : Reach W s₀ s'

end Monkit.RemoteCb
