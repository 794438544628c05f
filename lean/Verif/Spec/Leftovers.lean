import Verif.Model.Whole
import Verif.Spec.Spans

/-!
# What is left of calls
-/

namespace Monkit.Spans

/-- Every call that was made has ended: its exit function has returned. -/
def Ended (s : State) : Prop := ∀ n, s.pc n = .new ∨ s.pc n = .over

/-- The call is under way: from the beginning of its start to the end of its exit function. -/
def UnderWay (s : State) (n : Nat) : Prop := s.pc n ≠ .new ∧ s.pc n ≠ .over

/-- What the roots of the registries `rs` and the children of the spans `ps` hold, entry by entry. -/
def held (s : State) (rs ps : List Nat) : List Nat := rs.flatMap s.roots ++ ps.flatMap fun p => (s.bag p).iterate (s.bag p).rest

/-- What the orphans of the registries `rs` hold, entry by entry. -/
def heldOrphans (s : State) (rs : List Nat) : List Nat := rs.flatMap s.orphans

end Monkit.Spans
