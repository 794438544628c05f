import Verif.Go.Sys
import Verif.Model.SpanBag

/-!
# Spans: starting, finishing, orphaning, enumerating

ctx.go (`newSpan` and the exit function it returns), span.go, registry.go.

Every span is a process of its own: its start, its running and its exit happen one after the other,
on whatever goroutines; different spans interleave freely.  A step is one critical section, except that
`orphan` (which takes the registry's `orphanMtx` while holding the span's own lock) is two steps
during which the span's lock is held.

Not part of this model: the statistics of the function (`f.start`, `s.f.end`: see
`Verif/Model/FuncStats.lean`, `Highwater.lean`, `FuncSet.lean`), observers (`Verif/Model/Observers.lean`)
and the context (`Verif/Model/Ctx.lean`).
-/

namespace Monkit.Spans
open Go

/-- What is immutable about the spans of an execution (ctx.go:27-46): spans are numbered in such an
order that parents come before their children; `parent` is the local parent, `reg` the registry of the span's
function, `trace` its trace. -/
structure World where
  parent : Nat → Option Nat
  reg : Nat → Nat
  trace : Nat → Nat
  older : ∀ n p, parent n = some p → p < n

/-- Where a span is in its life (ctx.go:59-158). -/
inductive PC where
  /-- not created -/
  | new
  /-- in `newSpan`: about to count itself in (ctx.go:98) -/
  | inc
  /-- about to enter the parent's bag (ctx.go:102, span.go:39-42) or the registry's roots
  (ctx.go:105, registry.go:152-156) -/
  | pub
  /-- the parent was found done: about to orphan itself (span.go:43-45): to take its own lock / to
  enter the registry's orphans -/
  | selfOrphan
  | selfInsert
  /-- `newSpan` has got past all this; the span is running -/
  | running
  /-- in the exit function: about to mark itself done (ctx.go:126-132) -/
  | mark
  /-- about to orphan the children `cs` (ctx.go:133-135); `o` is the local `orphaned` -/
  | orphan (cs : List Nat) (o : Bool)
  /-- has taken the lock of child `c`, found it neither done nor orphaned, and is about to enter it in
  the orphans (span.go:57-59) -/
  | insert (c : Nat) (cs : List Nat) (o : Bool)
  /-- about to leave the parent's bag (ctx.go:138) or the roots (ctx.go:143) -/
  | leave (o : Bool)
  /-- about to leave the orphans (ctx.go:140) -/
  | unorphan
  /-- about to count itself out (ctx.go:146) -/
  | dec
  /-- the exit function is past all this -/
  | over
  deriving DecidableEq

/-- The mutable things: ctx.go:41-45 per span, registry.go:37-41 per registry, trace.go:40 per trace. -/
structure State where
  pc : Nat → PC
  done : Nat → Bool
  orphaned : Nat → Bool
  /-- the span's lock is held across steps (only `orphan` does so) -/
  locked : Nat → Bool
  bag : Nat → SpanBag
  roots : Nat → List Nat
  orphans : Nat → List Nat
  count : Nat → Int64

/-- `m[s] = struct{}{}` (registry.go:154, 166). -/
def put (s : Nat) (m : List Nat) : List Nat := if s ∈ m then m else s :: m

/-- `delete(m, s)` (registry.go:160, 172). -/
def drop (s : Nat) (m : List Nat) : List Nat := m.filter (· ≠ s)

/-- Steps; each is a step of span `n` (ctx.go:59-158). -/
inductive Step (W : World) : State → State → Prop where
  /-- A task is started; its context, hence its parent, must exist (ctx.go:59-96).  Other goroutines can get hold of a span, which is a context, as soon as
  it is listed among its parent's children or the roots. -/
  | create (s : State) (n : Nat) (h : s.pc n = .new)
      (hp : ∀ p, W.parent n = some p → s.pc p ≠ .new ∧ s.pc p ≠ .inc ∧ s.pc p ≠ .pub) :
      Step W s { s with pc := upd s.pc n .inc }
  /-- trace.go:143 `incrementSpans` -/
  | inc (s : State) (n : Nat) (h : s.pc n = .inc) :
      Step W s { s with count := upd s.count (W.trace n) (s.count (W.trace n) + 1),
                        pc := upd s.pc n .pub }
  /-- registry.go:152-156 `rootSpanStart` -/
  | root (s : State) (n : Nat) (h : s.pc n = .pub) (hp : W.parent n = none) :
      Step W s { s with roots := upd s.roots (W.reg n) (put n (s.roots (W.reg n))),
                        pc := upd s.pc n .running }
  /-- span.go:38-46 `addChild` -/
  | child (s : State) (n p : Nat) (h : s.pc n = .pub) (hp : W.parent n = some p)
      (free : s.locked p = false) :
      Step W s { s with bag := upd s.bag p ((s.bag p).add n),
                        pc := upd s.pc n (if s.done p then .selfOrphan else .running) }
  /-- span.go:54-61 `orphan` of the span itself: lock taken, flag set, about to insert -/
  | selfMark (s : State) (n : Nat) (h : s.pc n = .selfOrphan) (free : s.locked n = false)
      (hn : s.done n = false ∧ s.orphaned n = false) :
      Step W s { s with orphaned := upd s.orphaned n true, locked := upd s.locked n true,
                        pc := upd s.pc n .selfInsert }
  /-- … nothing to do -/
  | selfSkip (s : State) (n : Nat) (h : s.pc n = .selfOrphan) (free : s.locked n = false)
      (hn : ¬ (s.done n = false ∧ s.orphaned n = false)) :
      Step W s { s with pc := upd s.pc n .running }
  /-- registry.go:164-168 `orphanedSpan`, then unlock -/
  | selfInsert (s : State) (n : Nat) (h : s.pc n = .selfInsert) :
      Step W s { s with orphans := upd s.orphans (W.reg n) (put n (s.orphans (W.reg n))),
                        locked := upd s.locked n false, pc := upd s.pc n .running }
  /-- the exit function is called (ctx.go:113-123) -/
  | exit (s : State) (n : Nat) (h : s.pc n = .running) :
      Step W s { s with pc := upd s.pc n .mark }
  /-- ctx.go:126-132; the map of the bag is visited in the order `ord` -/
  | mark (s : State) (n : Nat) (ord : Map Nat Int32) (h : s.pc n = .mark) (free : s.locked n = false)
      (hord : ord.Perm (s.bag n).rest) :
      Step W s { s with done := upd s.done n true,
                        pc := upd s.pc n (.orphan ((s.bag n).iterate ord) (s.orphaned n)) }
  /-- ctx.go:133-135 with span.go:54-61, for one child -/
  | orphanMark (s : State) (n c : Nat) (cs : List Nat) (o : Bool) (h : s.pc n = .orphan (c :: cs) o)
      (free : s.locked c = false) (hc : s.done c = false ∧ s.orphaned c = false) :
      Step W s { s with orphaned := upd s.orphaned c true, locked := upd s.locked c true,
                        pc := upd s.pc n (.insert c cs o) }
  | orphanSkip (s : State) (n c : Nat) (cs : List Nat) (o : Bool) (h : s.pc n = .orphan (c :: cs) o)
      (free : s.locked c = false) (hc : ¬ (s.done c = false ∧ s.orphaned c = false)) :
      Step W s { s with pc := upd s.pc n (.orphan cs o) }
  | orphanInsert (s : State) (n c : Nat) (cs : List Nat) (o : Bool) (h : s.pc n = .insert c cs o) :
      Step W s { s with orphans := upd s.orphans (W.reg c) (put c (s.orphans (W.reg c))),
                        locked := upd s.locked c false, pc := upd s.pc n (.orphan cs o) }
  | orphanDone (s : State) (n : Nat) (o : Bool) (h : s.pc n = .orphan [] o) :
      Step W s { s with pc := upd s.pc n (.leave o) }
  /-- ctx.go:137-138 with span.go:48-52 `removeChild` -/
  | leaveParent (s : State) (n p : Nat) (o : Bool) (h : s.pc n = .leave o) (hp : W.parent n = some p)
      (free : s.locked p = false) :
      Step W s { s with bag := upd s.bag p ((s.bag p).remove n),
                        pc := upd s.pc n (if o then .unorphan else .dec) }
  /-- ctx.go:142-144 with registry.go:158-162 `rootSpanEnd` -/
  | leaveRoots (s : State) (n : Nat) (o : Bool) (h : s.pc n = .leave o) (hp : W.parent n = none) :
      Step W s { s with roots := upd s.roots (W.reg n) (drop n (s.roots (W.reg n))),
                        pc := upd s.pc n .dec }
  /-- registry.go:170-174 `orphanEnd` -/
  | unorphan (s : State) (n : Nat) (h : s.pc n = .unorphan) :
      Step W s { s with orphans := upd s.orphans (W.reg n) (drop n (s.orphans (W.reg n))),
                        pc := upd s.pc n .dec }
  /-- trace.go:144 `decrementSpans` -/
  | dec (s : State) (n : Nat) (h : s.pc n = .dec) :
      Step W s { s with count := upd s.count (W.trace n) (s.count (W.trace n) + (-1)),
                        pc := upd s.pc n .over }

/-- No spans (registry.go:58-65). -/
def init : State :=
  ⟨fun _ => .new, fun _ => false, fun _ => false, fun _ => false, fun _ => .empty, fun _ => [],
    fun _ => [], fun _ => 0⟩

/-- States reached from `s` by any schedule (ctx.go:59-158). -/
inductive Reach (W : World) (s₀ : State) : State → Prop where
  | start : Reach W s₀ s₀
  | step {s s'} (h : Reach W s₀ s) (st : Step W s s') : Reach W s₀ s'

/-- registry.go:178-196 `RootSpans` of registry `r`, if the two maps are visited in the orders `o1`
and `o2` (nothing happens in between). -/
def rootSpans (w : SpanSort) (o1 o2 : List Nat) : List Nat := sortBy w.le (o1 ++ o2)

/-- registry.go:198-203 `walkSpan`: the spans visited, in order; `ords` gives the order in which each
bag's map is visited.  `none` if the recursion is deeper than `fuel`. -/
def walk (w : SpanSort) (s : State) (ords : Nat → Map Nat Int32) : Nat → Nat → Option (List Nat)
  | 0, _ => none
  | fuel + 1, n =>
    ((children w (s.bag n) (ords n)).mapM (walk w s ords fuel)).map fun ls => n :: ls.flatten

/-- registry.go:206-208 `AllSpans`. -/
def allSpans (w : SpanSort) (s : State) (ords : Nat → Map Nat Int32) (o1 o2 : List Nat)
    (fuel : Nat) : Option (List Nat) :=
  ((rootSpans w o1 o2).mapM (walk w s ords fuel)).map List.flatten

end Monkit.Spans
