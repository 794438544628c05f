import Verif.Model.FindSpan
import Verif.Model.KeepAlive

/-!
# present/path.go:219-273: `/trace/remote`

The result of `/trace/remote`: `keepAlive` (Model/KeepAlive) and `FindSpan` (Model/FindSpan) run together with the matcher given to `FindSpan`, which
picks the first matching trace under a mutex.  `traceOf y` is the trace of span `y`; `accepts y` is `spanMatcher`, which is a function of the span.
Writing the answer is left out; it uses nothing but the trace's id.
-/

namespace Monkit.Remote
open Go

/-- Who holds `traceMtx` (present/path.go:233). -/
inductive Who where
  | thr (t : Nat)
  | main
  deriving DecidableEq

/-- Where a goroutine is in the matcher (present/path.go:235-249). -/
inductive MPC where
  | none
  /-- about to call `spanMatcher` (present/path.go:236) -/
  | pre (y : Nat)
  /-- about to lock (present/path.go:239) -/
  | want (y : Nat)
  /-- about to test and set `trace` (present/path.go:241-242) -/
  | test (y : Nat)
  /-- about to mark the trace as sampled (present/path.go:243) -/
  | set (y : Nat)
  /-- about to look for the callback (present/path.go:244) -/
  | look (y : Nat)
  /-- about to call it (present/path.go:245) -/
  | call (y : Nat)
  /-- about to unlock (present/path.go:240, 248) -/
  | unlock
  /-- about to return `b` -/
  | done (b : Bool)
  /-- the callback has panicked; about to unlock (present/path.go:240) -/
  | unlockFailed
  /-- about to panic -/
  | failed
  deriving DecidableEq

/-- How the request ends (present/path.go:250-273). -/
inductive Res where
  | trace (T : Nat)
  | err (e : KeepAlive.Err)
  /-- `trace.Id()` with a nil trace: a panic -/
  | crash
  deriving DecidableEq

/-- Where the goroutine of the request is (present/path.go:227-273). -/
inductive Main where
  /-- in `FindSpan` -/
  | finding
  /-- about to call `stop` (present/path.go:253), in it -/
  | stop
  | stopping
  /-- about to lock `traceMtx` (present/path.go:257) -/
  | lock
  /-- about to use `trace` (present/path.go:264, 269) -/
  | use
  /-- about to unlock (present/path.go:258) -/
  | unlock (r : Res)
  /-- about to call the deferred `stop` (present/path.go:231), in it -/
  | last (r : Res)
  | lasting (r : Res)
  | returned (r : Res)
  deriving DecidableEq

/-- The variables of the request and the goroutines (present/path.go:219-273). -/
structure State where
  k : KeepAlive.State
  f : FindSpan.State
  mtx : Option Who
  trace : Option Nat
  m : Nat → MPC
  main : Main

/-- What can be seen (present/path.go:219-273). -/
inductive Ev where
  | ka (e : KeepAlive.Event)
  | find (e : FindSpan.Ev)
  /-- the trace of span `y` is marked as sampled -/
  | sampled (t y : Nat)
  /-- the callback of the trace of span `y` is called -/
  | callback (t y : Nat)
  /-- the request ends -/
  | ends (r : Res)
  deriving DecidableEq

/-- The events of `FindSpan` that are nobody else's business (collect/ctx.go:75-90). -/
def FindSpan.Ev.own : FindSpan.Ev → Bool
  | .start _ _ | .started _ _ | .detach => true
  | _ => false

/-- The events of `keepAlive` that are nobody else's business; `ctx` is `context.TODO()`, which is never cancelled (present/path.go:227). -/
def KeepAlive.Event.own : KeepAlive.Event → Bool
  | .ping | .pong _ | .cancel => true
  | _ => false

/-- One step (present/path.go:219-273). -/
inductive Step (traceOf : Nat → Nat) (accepts : Nat → Bool) : State → Option Ev → State → Prop where
  | ka (s : State) (e : Option KeepAlive.Event) (k' : KeepAlive.State) (st : KeepAlive.Step s.k e k') (own : ∀ x, e = some x → KeepAlive.Event.own x = true) :
      Step traceOf accepts s (e.map .ka) { s with k := k' }
  | find (s : State) (e : Option FindSpan.Ev) (f' : FindSpan.State) (st : FindSpan.Step s.f e f') (own : ∀ x, e = some x → FindSpan.Ev.own x = true) :
      Step traceOf accepts s (e.map .find) { s with f := f' }
  /-- the context given to `FindSpan` is that of `keepAlive` (present/path.go:227, 235) -/
  | ctx (s : State) (f' : FindSpan.State) (st : FindSpan.Step s.f (some .ctxDone) f') (h : s.k.cancelled = true) :
      Step traceOf accepts s (some (.find .ctxDone)) { s with f := f' }
  | ask (s : State) (t y : Nat) (f' : FindSpan.State) (st : FindSpan.Step s.f (some (.ask t y)) f') :
      Step traceOf accepts s (some (.find (.ask t y))) { s with f := f', m := upd s.m t (.pre y) }
  | answer (s : State) (t y : Nat) (b : Bool) (f' : FindSpan.State) (st : FindSpan.Step s.f (some (.answer t y b)) f') (h : s.m t = .done b) :
      Step traceOf accepts s (some (.find (.answer t y b))) { s with f := f', m := upd s.m t .none }
  /-- present/path.go:236-238 -/
  | no (s : State) (t y : Nat) (h : s.m t = .pre y) (a : accepts y = false) : Step traceOf accepts s none { s with m := upd s.m t (.done false) }
  | yes (s : State) (t y : Nat) (h : s.m t = .pre y) (a : accepts y = true) : Step traceOf accepts s none { s with m := upd s.m t (.want y) }
  /-- present/path.go:239 -/
  | lock (s : State) (t y : Nat) (h : s.m t = .want y) (free : s.mtx = none) :
      Step traceOf accepts s none { s with mtx := some (.thr t), m := upd s.m t (.test y) }
  /-- present/path.go:241 -/
  | old (s : State) (t y : Nat) (h : s.m t = .test y) (c : s.trace ≠ none) : Step traceOf accepts s none { s with m := upd s.m t .unlock }
  /-- present/path.go:241-242 -/
  | new (s : State) (t y : Nat) (h : s.m t = .test y) (c : s.trace = none) :
      Step traceOf accepts s none { s with trace := some (traceOf y), m := upd s.m t (.set y) }
  /-- present/path.go:243 -/
  | sampled (s : State) (t y : Nat) (h : s.m t = .set y) : Step traceOf accepts s (some (.sampled t y)) { s with m := upd s.m t (.look y) }
  /-- present/path.go:244 -/
  | noCallback (s : State) (t y : Nat) (h : s.m t = .look y) : Step traceOf accepts s none { s with m := upd s.m t .unlock }
  | hasCallback (s : State) (t y : Nat) (h : s.m t = .look y) : Step traceOf accepts s none { s with m := upd s.m t (.call y) }
  /-- present/path.go:245 -/
  | callback (s : State) (t y : Nat) (h : s.m t = .call y) : Step traceOf accepts s (some (.callback t y)) { s with m := upd s.m t .unlock }
  /-- present/path.go:245: it panics -/
  | callbackPanics (s : State) (t y : Nat) (h : s.m t = .call y) : Step traceOf accepts s (some (.callback t y)) { s with m := upd s.m t .unlockFailed }
  /-- present/path.go:240 -/
  | unlockFailed (s : State) (t : Nat) (h : s.m t = .unlockFailed) : Step traceOf accepts s none { s with mtx := none, m := upd s.m t .failed }
  /-- present/path.go:235-249: the panic leaves the matcher -/
  | fails (s : State) (t y : Nat) (f' : FindSpan.State) (st : FindSpan.Step s.f (some (.panicked t y)) f') (h : s.m t = .failed) :
      Step traceOf accepts s (some (.find (.panicked t y))) { s with f := f', m := upd s.m t .none }
  /-- present/path.go:240, 248 -/
  | unlock (s : State) (t : Nat) (h : s.m t = .unlock) : Step traceOf accepts s none { s with mtx := none, m := upd s.m t (.done true) }
  /-- present/path.go:235-249: `FindSpan` returns -/
  | found (s : State) (f' : FindSpan.State) (st : FindSpan.Step s.f (some .ret) f') (h : s.main = .finding) :
      Step traceOf accepts s (some (.find .ret)) { s with f := f', main := .stop }
  /-- present/path.go:253 -/
  | stop (s : State) (k' : KeepAlive.State) (st : KeepAlive.Step s.k (some (.stopCall 0)) k') (h : s.main = .stop) :
      Step traceOf accepts s (some (.ka (.stopCall 0))) { s with k := k', main := .stopping }
  | stopOk (s : State) (k' : KeepAlive.State) (st : KeepAlive.Step s.k (some (.stopRet 0 none)) k') (h : s.main = .stopping) :
      Step traceOf accepts s (some (.ka (.stopRet 0 none))) { s with k := k', main := .lock }
  | stopErr (s : State) (k' : KeepAlive.State) (e : KeepAlive.Err) (st : KeepAlive.Step s.k (some (.stopRet 0 (some e))) k') (h : s.main = .stopping) :
      Step traceOf accepts s (some (.ka (.stopRet 0 (some e)))) { s with k := k', main := .last (.err e) }
  /-- present/path.go:257 -/
  | mlock (s : State) (h : s.main = .lock) (free : s.mtx = none) : Step traceOf accepts s none { s with mtx := some .main, main := .use }
  /-- present/path.go:264, 269 -/
  | use (s : State) (T : Nat) (h : s.main = .use) (c : s.trace = some T) : Step traceOf accepts s none { s with main := .unlock (.trace T) }
  | crash (s : State) (h : s.main = .use) (c : s.trace = none) : Step traceOf accepts s none { s with main := .unlock .crash }
  /-- present/path.go:258 -/
  | munlock (s : State) (r : Res) (h : s.main = .unlock r) : Step traceOf accepts s none { s with mtx := none, main := .last r }
  /-- present/path.go:231 -/
  | last (s : State) (r : Res) (k' : KeepAlive.State) (st : KeepAlive.Step s.k (some (.stopCall 0)) k') (h : s.main = .last r) :
      Step traceOf accepts s (some (.ka (.stopCall 0))) { s with k := k', main := .lasting r }
  | lastRet (s : State) (r : Res) (x : Option KeepAlive.Err) (k' : KeepAlive.State) (st : KeepAlive.Step s.k (some (.stopRet 0 x)) k')
      (h : s.main = .lasting r) : Step traceOf accepts s (some (.ka (.stopRet 0 x))) { s with k := k', main := .returned r }
  | ends (s : State) (r : Res) (h : s.main = .returned r) : Step traceOf accepts s (some (.ends r)) s

/-- present/path.go:227-235: `keepAlive` and `FindSpan` have been started. -/
def init : State := ⟨KeepAlive.init, FindSpan.init, none, none, fun _ => .none, .finding⟩

end Monkit.Remote
