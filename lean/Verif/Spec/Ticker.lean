import Verif.Model.Ticker

/-!
# Rounds of the ticker
-/

namespace Monkit.Spec.Ticker
open Monkit.Ticker

/-- The meters that are ticked, in order. -/
def ticked (tr : List Event) : List Nat :=
  tr.filterMap fun e => match e with | .tick _ m _ => some m | _ => none

/-- The times that meters are given. -/
def times (tr : List Event) : List Int :=
  tr.filterMap fun e => match e with | .tick _ _ now => some now | _ => none

/-- The times read from the clock. -/
def clocks (tr : List Event) : List Int :=
  tr.filterMap fun e => match e with | .clock _ now => some now | _ => none

/-- An event at which a round begins or ends. -/
def edge : Event → Bool
  | .wake _ | .sleep _ => true
  | _ => false

/-- `NewMeter` has returned meter `m`. -/
def Made (m : Nat) (tr : List Event) : Prop := ∃ t, Event.made t m ∈ tr

/-- `NewMeter` has begun to make meter `m`. -/
def Begun (m : Nat) (tr : List Event) : Prop := ∃ t, Event.make t m ∈ tr

/-- How many goroutines of the ticker were started. -/
def spawns (tr : List Event) : Nat := (tr.filter fun e => match e with | .spawn _ => true | _ => false).length

end Monkit.Spec.Ticker
