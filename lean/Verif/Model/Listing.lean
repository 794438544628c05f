import Verif.Model.Spans

/-!
# Listing the spans while they come and go

registry.go:176-208: `RootSpans` and `AllSpans` hold no lock from beginning to end.  They read the roots, then the orphans, and `AllSpans` then the children of
one span after the other; spans start and finish (`Verif/Model/Spans.lean`) between any two of these readings.
-/

namespace Monkit.Spans
open Go

/-- Where a call of `RootSpans` or `AllSpans` is (registry.go:178-208). -/
inductive Listing where
  /-- about to read the roots (registry.go:179) -/
  | called
  /-- has read the roots `o`, about to read the orphans (registry.go:185) -/
  | roots (o : List Nat)
  /-- `todo` is what the unfinished loops (registry.go:193-195, span.go:100-102) still have to go through, innermost loop first; `seen` is what `cb` was called with -/
  | going (todo seen : List Nat)
  /-- `cb(n)` was called last; about to read the children of `n` (registry.go:200) -/
  | asking (n : Nat) (todo seen : List Nat)

/-- What a call made in state `s₀` on registry `r` can come to (registry.go:178-208): `Call W w r s₀ s k` says that the spans are in state `s` when the call is
at `k`.  Maps are visited in any order. -/
inductive Call (W : World) (w : SpanSort) (r : Nat) (s₀ : State) : State → Listing → Prop where
  | call : Call W w r s₀ s₀ .called
  /-- any span takes a step meanwhile (ctx.go:59-158) -/
  | span {s s' k} (h : Call W w r s₀ s k) (st : Step W s s') : Call W w r s₀ s' k
  /-- registry.go:179-184 -/
  | roots {s} (h : Call W w r s₀ s .called) (o : List Nat) (ho : o.Perm (s.roots r)) : Call W w r s₀ s (.roots o)
  /-- registry.go:185-192 -/
  | orphans {s o} (h : Call W w r s₀ s (.roots o)) (o' : List Nat) (ho : o'.Perm (s.orphans r)) :
      Call W w r s₀ s (.going (rootSpans w o o') [])
  /-- registry.go:199 -/
  | visit {s n todo seen} (h : Call W w r s₀ s (.going (n :: todo) seen)) : Call W w r s₀ s (.asking n todo (seen ++ [n]))
  /-- registry.go:200-202 with span.go:88-103 -/
  | children {s n todo seen} (h : Call W w r s₀ s (.asking n todo seen)) (free : s.locked n = false)
      (ord : Map Nat Int32) (ho : ord.Perm (s.bag n).rest) : Call W w r s₀ s (.going (Monkit.children w (s.bag n) ord ++ todo) seen)

/-- `RootSpans` has collected `l`, and calls `cb` with its elements in order (registry.go:193-195). -/
def Roots (W : World) (w : SpanSort) (r : Nat) (s₀ s : State) (l : List Nat) : Prop := Call W w r s₀ s (.going l [])

/-- `AllSpans` has returned, having called `cb` with the elements of `l` in order (registry.go:206-208). -/
def All (W : World) (w : SpanSort) (r : Nat) (s₀ s : State) (l : List Nat) : Prop := Call W w r s₀ s (.going [] l)

end Monkit.Spans
