import Verif.Go.Str

/-!
# present/trace.go: the colour of a bar

present/trace.go:295-307 and 373-389.  Errors are numbers; `wrapped e` tells whether `e` has a method `WrappedErr` and what it returns (`some none`: nil).
A loop that does not end is one that ends for no number of rounds.
-/

namespace Monkit.Colour
open Go

/-- A way in which errors wrap each other (present/trace.go:373-375 `wrappedError`). -/
abbrev Wrapping := Nat → Option (Option Nat)

/-- trace.go:377-389 `unwrapError` of an error that is not nil, if it returns within `n` rounds of the loop. -/
def unwrapError (wrapped : Wrapping) : Nat → Nat → Option Nat
  | 0, _ => none
  | n + 1, e => match wrapped e with
    | none => some e
    | some none => some e
    | some (some e') => unwrapError wrapped n e'

/-- trace.go:298-307: the colour, if the `switch` ends within `n` rounds of the loop; `canceled` is `context.Canceled`, `err` is `s.Err`. -/
def colour (wrapped : Wrapping) (canceled : Nat) (n : Nat) (panicked : Bool) (err : Option Nat) : Option Str :=
  if panicked then some b!"rgb(255,0,0)"
  else match err with
    | none => some b!"rgb(128,128,255)"
    | some e => (unwrapError wrapped n e).map fun r => if r = canceled then b!"rgb(255,255,0)" else b!"rgb(255,144,0)"

end Monkit.Colour
