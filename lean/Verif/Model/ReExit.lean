import Verif.Model.Spans

/-!
# Exit functions that are called again

ctx.go:113-157: nothing keeps a program from calling the function that a Task returned more than once, for instance explicitly before a long wait and then again by `defer`.
Spans start, run and finish as in Model/Spans; besides, after the exit function of a span has returned, it may be called again, any number of times and on any goroutine.
Call `k` is such a further call of the exit function of span `of k`; it goes through the code of the exit function again.
-/

namespace Monkit.ReExit
open Go Spans

/-- The spans and the further calls; `.new` and `.over` are a call not yet made and one that has returned (ctx.go:113-157). -/
structure State where
  sp : Spans.State
  rp : Nat → PC

/-- A step of a span, or of one further call of an exit function (ctx.go:59-158). -/
inductive Step (W : World) (of : Nat → Nat) : State → State → Prop where
  | span (s : State) (sp' : Spans.State) (st : Spans.Step W s.sp sp') : Step W of s { s with sp := sp' }
  /-- the exit function, which has returned before, is called (ctx.go:113-123) -/
  | exit (s : State) (k : Nat) (h : s.rp k = .new) (ho : s.sp.pc (of k) = .over) : Step W of s { s with rp := upd s.rp k .mark }
  /-- ctx.go:126-132 -/
  | mark (s : State) (k : Nat) (ord : Map Nat Int32) (h : s.rp k = .mark) (free : s.sp.locked (of k) = false) (hord : ord.Perm (s.sp.bag (of k)).rest) :
      Step W of s { sp := { s.sp with done := upd s.sp.done (of k) true },
                    rp := upd s.rp k (.orphan ((s.sp.bag (of k)).iterate ord) (s.sp.orphaned (of k))) }
  /-- ctx.go:133-135 with span.go:54-61, for one child -/
  | orphanMark (s : State) (k c : Nat) (cs : List Nat) (o : Bool) (h : s.rp k = .orphan (c :: cs) o) (free : s.sp.locked c = false)
      (hc : s.sp.done c = false ∧ s.sp.orphaned c = false) :
      Step W of s { sp := { s.sp with orphaned := upd s.sp.orphaned c true, locked := upd s.sp.locked c true }, rp := upd s.rp k (.insert c cs o) }
  | orphanSkip (s : State) (k c : Nat) (cs : List Nat) (o : Bool) (h : s.rp k = .orphan (c :: cs) o) (free : s.sp.locked c = false)
      (hc : ¬ (s.sp.done c = false ∧ s.sp.orphaned c = false)) :
      Step W of s { s with rp := upd s.rp k (.orphan cs o) }
  | orphanInsert (s : State) (k c : Nat) (cs : List Nat) (o : Bool) (h : s.rp k = .insert c cs o) :
      Step W of s { sp := { s.sp with orphans := upd s.sp.orphans (W.reg c) (put c (s.sp.orphans (W.reg c))), locked := upd s.sp.locked c false },
                    rp := upd s.rp k (.orphan cs o) }
  | orphanDone (s : State) (k : Nat) (o : Bool) (h : s.rp k = .orphan [] o) : Step W of s { s with rp := upd s.rp k (.leave o) }
  /-- ctx.go:137-138 with span.go:48-52 -/
  | leaveParent (s : State) (k p : Nat) (o : Bool) (h : s.rp k = .leave o) (hp : W.parent (of k) = some p) (free : s.sp.locked p = false) :
      Step W of s { sp := { s.sp with bag := upd s.sp.bag p ((s.sp.bag p).remove (of k)) }, rp := upd s.rp k (if o then .unorphan else .dec) }
  /-- ctx.go:142-144 with registry.go:158-162 -/
  | leaveRoots (s : State) (k : Nat) (o : Bool) (h : s.rp k = .leave o) (hp : W.parent (of k) = none) :
      Step W of s { sp := { s.sp with roots := upd s.sp.roots (W.reg (of k)) (drop (of k) (s.sp.roots (W.reg (of k)))) }, rp := upd s.rp k .dec }
  /-- ctx.go:139-141 with registry.go:170-174 -/
  | unorphan (s : State) (k : Nat) (h : s.rp k = .unorphan) :
      Step W of s { sp := { s.sp with orphans := upd s.sp.orphans (W.reg (of k)) (drop (of k) (s.sp.orphans (W.reg (of k)))) }, rp := upd s.rp k .dec }
  /-- ctx.go:146 with trace.go:144 -/
  | dec (s : State) (k : Nat) (h : s.rp k = .dec) :
      Step W of s { sp := { s.sp with count := upd s.sp.count (W.trace (of k)) (s.sp.count (W.trace (of k)) + (-1)) }, rp := upd s.rp k .over }

/-- No spans and no calls (registry.go:58-65). -/
def init : State := ⟨Spans.init, fun _ => .new⟩

/-- States reached by any schedule (ctx.go:59-158). -/
inductive Reach (W : World) (of : Nat → Nat) : State → Prop where
  | start : Reach W of init
  | step {s s'} (h : Reach W of s) (st : Step W of s s') : Reach W of s'

end Monkit.ReExit
