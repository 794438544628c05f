import Verif.Go.Sys

/-!
# Which locks are taken, in which order

Only the locks: every function of ctx.go, span.go and registry.go that takes a lock is reduced to the
sequence of its `Lock` and `Unlock` calls (loops: any number of repetitions), and goroutines run sequences of such
functions.
-/

namespace Monkit.Locks
open Go

/-- The locks (ctx.go:29, registry.go:30-40, trace.go:47, scope.go:28, funcstats.go:38, meter.go:184). -/
inductive L where
  /-- ctx.go:29 `Span.mtx` of span `n` -/
  | span (n : Nat)
  /-- registry.go:37 `spanMtx` of registry `r` -/
  | roots (r : Nat)
  /-- registry.go:40 `orphanMtx` of registry `r` -/
  | orphans (r : Nat)
  /-- registry.go:34 `scopeMtx` -/
  | scopes (r : Nat)
  /-- registry.go:30 `watcherMtx` -/
  | watchers (r : Nat)
  /-- trace.go:47 `Trace.mtx` -/
  | trace (t : Nat)
  /-- collect/trace.go:26 `mtx` of one `ObserveAllTraces` -/
  | allTraces (m : Nat)
  /-- scope.go:28 `Scope.mtx`; a `RLock` is taken for a `Lock` -/
  | scope (s : Nat)
  /-- funcstats.go:38 `parentsAndMutex` -/
  | stats (f : Nat)
  /-- meter.go:184 `ticker.mtx` -/
  | ticker
  /-- a lock of its own, held only inside one function: counters, meters, values, timers,
  distributions, `DeltaTransformer`, `SpanCollector`, `keepAlive`, `AddErrorNameHandler` -/
  | own (i : Nat)
  deriving DecidableEq

/-- A lock is taken or released (spinlock.go:24-35 and sync.Mutex). -/
inductive Op where
  | lock (l : L)
  | unlock (l : L)
  deriving DecidableEq

open Op

/-- span.go:54-61 with registry.go:164-168, both branches. -/
inductive Orphan (n r : Nat) : List Op → Prop where
  | marked : Orphan n r [lock (.span n), lock (.orphans r), unlock (.orphans r), unlock (.span n)]
  | skipped : Orphan n r [lock (.span n), unlock (.span n)]

/-- The functions, as sequences of lock operations (ctx.go:59-158, span.go:38-193, registry.go:82-235). -/
inductive Call : List Op → Prop where
  /-- span.go:54-61 `orphan` -/
  | orphan {n r p} (h : Orphan n r p) : Call p
  /-- span.go:39-42, 49-51, 91-98, 174-176, 182-184, 189-191; ctx.go:127-132: `addChild` (up to the call of
  `orphan`), `removeChild`, `Children`, `Annotations`, `Annotate`, `Orphaned`, the exit function -/
  | span (n : Nat) : Call [lock (.span n), unlock (.span n)]
  /-- registry.go:152-162 `rootSpanStart`, `rootSpanEnd` -/
  | roots (r : Nat) : Call [lock (.roots r), unlock (.roots r)]
  /-- registry.go:170-174 `orphanEnd` -/
  | orphanEnd (r : Nat) : Call [lock (.orphans r), unlock (.orphans r)]
  /-- registry.go:178-191 `RootSpans` -/
  | rootSpans (r : Nat) : Call [lock (.roots r), unlock (.roots r), lock (.orphans r), unlock (.orphans r)]
  /-- registry.go:88-89 `ScopeNamed`, registry.go:212-217 `Scopes` -/
  | scopes (r : Nat) : Call [lock (.scopes r), unlock (.scopes r)]
  /-- registry.go:136-137, 145-146 `ObserveTraces` and its cancel -/
  | watchers (r : Nat) : Call [lock (.watchers r), unlock (.watchers r)]
  /-- trace.go:86-87, 113-114, 124-128, 134-140 -/
  | trace (t : Nat) : Call [lock (.trace t), unlock (.trace t)]
  /-- collect/trace.go:31-38, 42-50: `ObserveSpans` takes no lock -/
  | attach (m : Nat) : Call [lock (.allTraces m), unlock (.allTraces m)]
  /-- collect/trace.go:55-60: the cancel functions of the traces `ts` (trace.go:85-87) are called with the lock held -/
  | detach (m : Nat) (ts : List Nat) :
      Call (lock (.allTraces m) :: ts.flatMap (fun t => [lock (.trace t), unlock (.trace t)]) ++
        [unlock (.allTraces m)])
  /-- scope.go:49-51, 57-66, 109-119, 268-282, 289-292, 296-302, 315-317 -/
  | scope (s : Nat) : Call [lock (.scope s), unlock (.scope s)]
  /-- scope.go:57-66 when the source is a new meter: `NewMeter` registers it (meter.go:67, 189-197) with the scope's lock held -/
  | newMeter (s : Nat) : Call [lock (.scope s), lock .ticker, unlock .ticker, unlock (.scope s)]
  /-- meter.go:189-197 `register`, by `NewMeter` of a user, and meter.go:202-204, each round of `run` -/
  | ticker : Call [lock .ticker, unlock .ticker]
  /-- funcstats.go:68-73, 90-104, 116-118, 124-126, 134-139, 152-160, 179-181, 187-189, funcset.go:51-56,
  61-66.  (`end` also runs error name handlers with this lock held; they are assumed to take no lock.) -/
  | stats (f : Nat) : Call [lock (.stats f), unlock (.stats f)]
  /-- counter.go, meter.go, val.go, timer.go, transform.go:70-73, collect/collect.go:104-106, 138-142,
  present/utils.go:60-75, 82-85 (the ping is taken to use no lock of monkit), error_names.go:39-45 -/
  | own (i : Nat) : Call [lock (.own i), unlock (.own i)]

/-- What a goroutine does: calls, one after the other (code of users; see ctx.go:167-205). -/
inductive Prog : List Op → Prop where
  | nil : Prog []
  | call {p q} (h : Call p) (hq : Prog q) : Prog (p ++ q)

/-- `todo t`: what goroutine `t` has still to do; `owner l`: which goroutine holds `l` (ctx.go:29, registry.go:30-40, trace.go:47). -/
structure State where
  todo : Nat → List Op
  owner : L → Option Nat

/-- A goroutine does its next lock operation, if it can (spinlock.go:24-35 and sync.Mutex). -/
inductive Step : State → State → Prop where
  | lock (s : State) (t : Nat) (l : L) (rest : List Op) (h : s.todo t = lock l :: rest)
      (free : s.owner l = none) :
      Step s ⟨upd s.todo t rest, fun l' => if l' = l then some t else s.owner l'⟩
  | unlock (s : State) (t : Nat) (l : L) (rest : List Op) (h : s.todo t = unlock l :: rest) :
      Step s ⟨upd s.todo t rest, fun l' => if l' = l then none else s.owner l'⟩

/-- States reached by any schedule (spinlock.go:24-35 and sync.Mutex). -/
inductive Reach (s₀ : State) : State → Prop where
  | start : Reach s₀ s₀
  | step {s s'} (h : Reach s₀ s) (st : Step s s') : Reach s₀ s'

/-- Goroutines `0 … k-1` run the programs `prog`; nothing is locked (ctx.go:27-46, registry.go:26-42). -/
def start (k : Nat) (prog : Nat → List Op) : State :=
  ⟨fun t => if t < k then prog t else [], fun _ => none⟩

end Monkit.Locks
