import Verif.Model.Spans

namespace Monkit.Spans

/-- `n` runs from the beginning of the call (state `s₀`) to its end (state `s`): a span that has finished does not run again. -/
def Throughout (s₀ s : State) (n : Nat) : Prop := s₀.pc n = .running ∧ s.pc n = .running

/-- `n` is below registry `r` for the whole call: it runs throughout, as do all its ancestors up to one that belongs to `r` and that has no local parent or one
that had finished before the call. -/
inductive Anchored (W : World) (r : Nat) (s₀ s : State) : Nat → Prop where
  | root {n} (hr : W.reg n = r) (hp : W.parent n = none) (h : Throughout s₀ s n) : Anchored W r s₀ s n
  | orphan {n p} (hr : W.reg n = r) (hp : W.parent n = some p) (ho : s₀.pc p = .over) (h : Throughout s₀ s n) : Anchored W r s₀ s n
  | child {n p} (hp : W.parent n = some p) (ha : Anchored W r s₀ s p) (h : Throughout s₀ s n) : Anchored W r s₀ s n

end Monkit.Spans
