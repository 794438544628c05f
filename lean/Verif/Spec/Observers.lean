import Verif.Model.Observers

/-! # The observable events, read -/

namespace Monkit.Observers
open Go

/-- The observers called by goroutine `t`, in order. -/
def callsOf (t : Nat) : List Ev → List Nat
  | [] => []
  | .called u n :: es => if u = t then n :: callsOf t es else callsOf t es
  | _ :: es => callsOf t es

/-- Observer `n` has been registered (by anyone). -/
def Registered (n : Nat) (tr : List Ev) : Prop := ∃ u, Ev.registered u n ∈ tr

/-- Somebody has called its cancel function. -/
def CancelCalled (n : Nat) (tr : List Ev) : Prop := ∃ u, Ev.cancelStart u n ∈ tr

/-- A call of its cancel function has returned. -/
def Cancelled (n : Nat) (tr : List Ev) : Prop := ∃ u, Ev.cancelled u n ∈ tr

end Monkit.Observers
