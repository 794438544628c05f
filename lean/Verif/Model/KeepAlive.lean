import Verif.Go.Sys

/-!
# present/utils.go: keepAlive

present/utils.go:37-102.  One step is one action on shared memory.  The ticker may fire at any time.  Any number of goroutines call the returned stop
function.  `sync.Once` and `sync.Mutex` are modelled by their contracts.  A `ping` that never returns is a ping that is in progress for ever;
so is one that ends its goroutine with `runtime.Goexit`, which leaves the mutex locked (present/utils.go:65-71).
-/

namespace Monkit.KeepAlive
open Go

/-- An error (present/utils.go:37-102). -/
inductive Err where
  /-- an error that `ping` returned or gave to `panic` -/
  | given (n : Nat)
  /-- `fmt.Errorf("%v", rec)`: an error made of the recovered value (present/utils.go:96) -/
  | text (v : Nat)
  deriving DecidableEq

/-- Numbers stand for given errors (present/utils.go:37-102). -/
instance {n : Nat} : OfNat Err n := ⟨.given n⟩

/-- How a call of `ping` ends (present/utils.go:65, 89-102). -/
inductive Outcome where
  | ok
  | err (e : Err)
  /-- `panic(e)` with an error -/
  | panicErr (e : Err)
  /-- `panic(v)` with another value; `Err.text v` is the error made of it -/
  | panicVal (v : Nat)
  /-- `panic(nil)`, under the Go version of go.mod -/
  | panicNil
  deriving DecidableEq

/-- utils.go:89-102 `catchPanics`. -/
def catchPanics : Outcome → Option Err
  | .ok => none
  | .err e => some e
  | .panicErr e => some e
  | .panicVal v => some (.text v)
  | .panicNil => none

/-- Where the goroutine of keepAlive is (present/utils.go:50-74). -/
inductive Loop where
  /-- utils.go:54-59 waiting in `select` -/
  | select
  /-- utils.go:60 about to lock -/
  | lock
  /-- utils.go:61 holding the lock, about to check -/
  | check
  /-- utils.go:62 leaving, about to unlock -/
  | quit
  /-- utils.go:65 about to call `ping` -/
  | call
  /-- utils.go:65 in `ping` -/
  | inPing
  /-- utils.go:66 `ping` failed, about to set `pingErr` -/
  | failed (e : Err)
  /-- utils.go:67 about to unlock -/
  | unlockErr
  /-- utils.go:68 about to cancel -/
  | cancel
  /-- utils.go:71 about to unlock -/
  | unlock
  | finished
  deriving DecidableEq

/-- Where a caller of stop is (present/utils.go:76-86). -/
inductive Stop where
  | idle
  /-- utils.go:77 about to enter `once.Do` -/
  | once
  /-- in `once.Do`, about to close the channel -/
  | closing
  /-- utils.go:82 about to lock -/
  | lock
  /-- utils.go:84 about to set `stopped` -/
  | set
  /-- utils.go:85 about to read `pingErr` -/
  | read
  /-- about to unlock and return -/
  | ret (r : Option Err)
  deriving DecidableEq

/-- Who holds the mutex (present/utils.go:60-71, 82-83). -/
inductive Owner where
  | loop
  | stop (i : Nat)
  deriving DecidableEq

/-- A `sync.Once` (present/utils.go:77). -/
inductive Once where
  | fresh
  | running (i : Nat)
  | complete
  deriving DecidableEq

/-- The variables of `keepAlive` and the goroutines (present/utils.go:42-49). -/
structure State where
  mu : Option Owner
  once : Once
  /-- channel `done` is closed -/
  closed : Bool
  pingErr : Option Err
  stopped : Bool
  /-- `rctx` has been cancelled by `cancel` -/
  cancelled : Bool
  /-- `ctx` is done -/
  parentDone : Bool
  /-- a closed channel was closed -/
  panicked : Bool
  loop : Loop
  thr : Nat → Stop

/-- What can be seen (present/utils.go:37-87). -/
inductive Event where
  | ping
  | pong (o : Outcome)
  | cancel
  | parentDone
  | stopCall (i : Nat)
  | stopRet (i : Nat) (r : Option Err)
  deriving DecidableEq

/-- utils.go:53-86. -/
inductive Step : State → Option Event → State → Prop where
  /-- the environment cancels `ctx` -/
  | parent (s) : Step s (some .parentDone) { s with parentDone := true }
  /-- utils.go:55-56 -/
  | selectDone (s) (h : s.loop = .select) (hc : s.closed = true) : Step s none { s with loop := .finished }
  /-- utils.go:57-58 -/
  | selectCtx (s) (h : s.loop = .select) (hc : s.parentDone = true) : Step s none { s with loop := .finished }
  /-- utils.go:59: the ticker fired -/
  | selectTick (s) (h : s.loop = .select) : Step s none { s with loop := .lock }
  /-- utils.go:60 -/
  | lock (s) (h : s.loop = .lock) (free : s.mu = none) : Step s none { s with mu := some .loop, loop := .check }
  /-- utils.go:61 -/
  | checkStop (s) (h : s.loop = .check) (hc : s.stopped = true ∨ s.pingErr ≠ none) : Step s none { s with loop := .quit }
  | checkGo (s) (h : s.loop = .check) (h1 : s.stopped = false) (h2 : s.pingErr = none) : Step s none { s with loop := .call }
  /-- utils.go:62-63 -/
  | quit (s) (h : s.loop = .quit) : Step s none { s with mu := none, loop := .finished }
  /-- utils.go:65 -/
  | ping (s) (h : s.loop = .call) : Step s (some .ping) { s with loop := .inPing }
  | pongOk (s) (o : Outcome) (h : s.loop = .inPing) (ho : catchPanics o = none) : Step s (some (.pong o)) { s with loop := .unlock }
  | pongErr (s) (o : Outcome) (e : Err) (h : s.loop = .inPing) (ho : catchPanics o = some e) : Step s (some (.pong o)) { s with loop := .failed e }
  /-- utils.go:66 -/
  | setErr (s) (e : Err) (h : s.loop = .failed e) : Step s none { s with pingErr := some e, loop := .unlockErr }
  /-- utils.go:67 -/
  | unlockErr (s) (h : s.loop = .unlockErr) : Step s none { s with mu := none, loop := .cancel }
  /-- utils.go:68-69 -/
  | cancel (s) (h : s.loop = .cancel) : Step s (some .cancel) { s with cancelled := true, loop := .finished }
  /-- utils.go:71 -/
  | unlock (s) (h : s.loop = .unlock) : Step s none { s with mu := none, loop := .select }
  /-- utils.go:76: someone calls stop -/
  | stopCall (s) (i : Nat) (h : s.thr i = .idle) : Step s (some (.stopCall i)) { s with thr := upd s.thr i .once }
  /-- utils.go:77 `once.Do` -/
  | onceFirst (s) (i : Nat) (h : s.thr i = .once) (ho : s.once = .fresh) : Step s none { s with once := .running i, thr := upd s.thr i .closing }
  | onceDone (s) (i : Nat) (h : s.thr i = .once) (ho : s.once = .complete) : Step s none { s with thr := upd s.thr i .lock }
  /-- utils.go:77 `close(done)` -/
  | close (s) (i : Nat) (h : s.thr i = .closing) (hc : s.closed = false) :
      Step s none { s with closed := true, once := .complete, thr := upd s.thr i .lock }
  | closeAgain (s) (i : Nat) (h : s.thr i = .closing) (hc : s.closed = true) : Step s none { s with panicked := true, thr := upd s.thr i .idle }
  /-- utils.go:82 -/
  | stopLock (s) (i : Nat) (h : s.thr i = .lock) (free : s.mu = none) : Step s none { s with mu := some (.stop i), thr := upd s.thr i .set }
  /-- utils.go:84 -/
  | stopSet (s) (i : Nat) (h : s.thr i = .set) : Step s none { s with stopped := true, thr := upd s.thr i .read }
  /-- utils.go:85 -/
  | stopRead (s) (i : Nat) (h : s.thr i = .read) : Step s none { s with thr := upd s.thr i (.ret s.pingErr) }
  /-- utils.go:83, 85 -/
  | stopRet (s) (i : Nat) (r : Option Err) (h : s.thr i = .ret r) : Step s (some (.stopRet i r)) { s with mu := none, thr := upd s.thr i .idle }

/-- utils.go:42-53: before the goroutine has done anything. -/
def init : State := ⟨none, .fresh, false, none, false, false, false, false, .select, fun _ => .idle⟩

end Monkit.KeepAlive
