import Verif.Go.Sys

/-!
# Calls return

What it means that no call hangs: once no goroutine starts another call, those under way take only so many further steps,
whichever of them is scheduled when, and as long as one is under way, one can go on.  So if goroutines that can go on are scheduled at last, every call returns.
-/

namespace Returns
open Go
variable {S E P : Type} (step : S → Option E → S → Prop) (pc : S → Nat → P) (idle : P → Prop)

/-- Goroutines outside calls stay where they are. -/
def NoCall (s s' : S) : Prop := ∀ t, idle (pc s t) → pc s' t = pc s t

/-- `Run s n s'`: a schedule leads from `s` to `s'`, no goroutine starting a call; `n` times a goroutine in a call went on.
(Other steps are those of the environment.) -/
inductive Run (s : S) : Nat → S → Prop where
  | start : Run s 0 s
  | move {n s' e s''} : Run s n s' → step s' e s'' → NoCall pc idle s' s'' → pc s'' ≠ pc s' → Run s (n + 1) s''
  | other {n s' e s''} : Run s n s' → step s' e s'' → pc s'' = pc s' → Run s n s''

/-- All calls under way in `s` return. -/
def AllReturn (s : S) : Prop :=
  ∃ bound, ∀ n s', Run step pc idle s n s' →
    n ≤ bound ∧ ((∃ t, ¬ idle (pc s' t)) → ∃ e s'', step s' e s'' ∧ NoCall pc idle s' s'' ∧ pc s'' ≠ pc s')

end Returns
