import Verif.Model.Whole
import Verif.Spec.FuncStats
import Verif.Spec.FuncConc
import Verif.Spec.Spans

/-!
# Vocabulary for programs of monitored calls
-/

namespace Monkit.Whole
open Monkit.Spec

variable {G E : Type}

/-- How a call ends. -/
def Act.outcome : Act E → Class E
  | .call _ e p _ _ => classify e p
  | _ => .success

/-- How long it takes. -/
def Act.duration : Act E → Int64
  | .call _ _ _ d _ => d
  | _ => 0

/-- Process `n` is a monitored call of function `f`. -/
def CallOf (P : Program E) (f n : Nat) : Prop := (P.act n).isCall = true ∧ (P.act n).func = f

/-- The exit function of call `n` has been called. -/
def ExitCalled (s : State G) (n : Nat) : Prop := s.sp.pc n = .mark ∨ Spans.Exiting s.sp n

/-- Something of process `n` is half way through: the start or the exit of a call, a `Reset` or a `Stats`. -/
def Busy (P : Program E) (s : State G) (n : Nat) : Prop :=
  if (P.act n).isCall then s.sp.pc n ≠ .new ∧ s.sp.pc n ≠ .running ∧ s.sp.pc n ≠ .over
  else (s.fn (P.act n).func).pc n ≠ .new ∧ ¬FuncConc.Returned ((s.fn (P.act n).func).pc n)

/-- No `Reset` of function `f` has been called. -/
def NoReset (P : Program E) (s : State G) (f : Nat) : Prop := ∀ n, P.act n = .reset f → (s.fn f).pc n = .new

/-- Fewer than 2⁶³ processes have called the statistics of `f`. -/
def Few (s : State G) (f : Nat) : Prop := ∃ N < 2 ^ 63, ∀ n, N ≤ n → (s.fn f).pc n = .new

end Monkit.Whole
