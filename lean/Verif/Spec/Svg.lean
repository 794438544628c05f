import Verif.Model.Svg

/-!
# Specification: the drawing of spans
-/

namespace Monkit.Svg.Spec
open Go Monkit.Svg

/-- `Sorted spans sorted`: `sorted` is a result of sorting by start time. -/
def Sorted (spans sorted : List FSpan) : Prop := sorted.Perm spans ∧ sorted.Pairwise fun a b => a.start ≤ b.start

/-- `order` lists the keys of the layout map, in any order: the spans' ids and the ids of their parents. -/
def Keys (spans : List FSpan) (order : List Int64) : Prop :=
  order.Nodup ∧ ∀ k, k ∈ order ↔ ∃ s ∈ spans, s.id = k ∨ s.parent = some k

/-- Spans as the collector gives them: with distinct ids, none finishing before it starts.  A parent id of 0, which the handler of requests gives to spans
without a remote parent, is not the id of a span. -/
structure Proper (spans : List FSpan) : Prop where
  ids : (spans.map (·.id)).Nodup
  parents : ∀ s ∈ spans, s.parent = some 0 → ∀ p ∈ spans, p.id ≠ 0
  times : ∀ s ∈ spans, s.start ≤ s.finish

/-- The time covered by the spans is positive and less than `2^63 / 1200` ns (88 days). -/
def Extent (spans : List FSpan) : Prop :=
  (∀ s ∈ spans, ∃ a ∈ spans, ∃ b ∈ spans, a.start < b.finish) ∧
  ∀ a ∈ spans, ∀ b ∈ spans, (b.finish.toInt - a.start.toInt) * 1200 < 2 ^ 63

/-- The parent of `s` is in the list, and so on, up to a span without parent in the list. -/
inductive Rooted (spans : List FSpan) : FSpan → Prop where
  | root {s} : s ∈ spans → (∀ p ∈ spans, s.parent ≠ some p.id) → Rooted spans s
  | child {s p} : s ∈ spans → p ∈ spans → s.parent = some p.id → Rooted spans p → Rooted spans s

/-- Every span runs within its parent. -/
def Nested (spans : List FSpan) : Prop := ∀ s ∈ spans, ∀ p ∈ spans, s.parent = some p.id → p.start ≤ s.start ∧ s.finish ≤ p.finish

end Monkit.Svg.Spec

namespace Monkit.Svg.Spec
open Go Monkit.Svg

/-- The bar is within the picture, which is 1200 wide and `height` high; it may reach one unit over the right edge. -/
def Fits (height : Nat) (b : Bar) : Prop :=
  0 ≤ b.left.toInt ∧ b.left.toInt ≤ 1200 ∧ 1 ≤ b.width.toInt ∧ b.left.toInt + b.width.toInt ≤ 1201 ∧ b.top + b.height ≤ height

/-- The horizontal position of time `t` if `lo` is drawn at 0 and `hi` at 1200, rounded down. -/
def position (lo hi t : Int64) : Int := (t.toInt - lo.toInt) * 1200 / (hi.toInt - lo.toInt)

/-- The bar of span `s`: it reaches from its start to its finish, but is at least 1 wide. -/
def IsBar (lo hi : Int64) (s : FSpan) (b : Bar) : Prop :=
  b.id = s.id ∧ b.left.toInt = position lo hi s.start ∧ b.width.toInt = max (position lo hi s.finish - position lo hi s.start) 1

/-- The earliest start and the latest finish. -/
def Bounds (spans : List FSpan) (lo hi : Int64) : Prop :=
  (∃ s ∈ spans, s.start = lo) ∧ (∃ s ∈ spans, s.finish = hi) ∧ ∀ s ∈ spans, lo ≤ s.start ∧ s.finish ≤ hi

end Monkit.Svg.Spec
