import Verif.Model.WatchSpans
import Verif.Spec.Collector

/-!
# What `WatchForSpans` should return
-/

namespace Monkit.WatchSpans
open Collector (starts finishes)

/-- The part of the collector. -/
def collOf (tr : List Ev) : List Collector.Ev := tr.filterMap fun e => match e with | .coll e => some e | _ => none

/-- The part of the observation. -/
def allOf (tr : List Ev) : List AllTraces.Ev := tr.filterMap fun e => match e with | .all e => some e | _ => none

/-- Span `y` finished entirely after collection had started on `x` and before `x` began to finish. -/
def Window (x y : Nat) (tr : List Collector.Ev) : Prop :=
  ∃ t p q c, tr = p ++ .finishCall t y :: (q ++ .finishRet t y :: c) ∧ x ∈ starts p ∧ x ∉ finishes (p ++ .finishCall t y :: q)

/-- Span `y` is `x`, or finished in the window and is a child of such a span. -/
inductive InTree (traceOf : Nat → Nat) (idOf : Nat → Int) (parentOf : Nat → Option Int) (x : Nat) (tr : List Collector.Ev) : Nat → Prop where
  | root : InTree traceOf idOf parentOf x tr x
  | child {y z : Nat} (h : InTree traceOf idOf parentOf x tr y) (hp : parentOf z = some (idOf y)) (ht : traceOf z = traceOf x) (hne : z ≠ x) (hw : Window x z tr) :
      InTree traceOf idOf parentOf x tr z

end Monkit.WatchSpans
