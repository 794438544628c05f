import Verif.Model.Remote

/-!
# What is seen of a request of `/trace/remote`
-/

namespace Monkit.Remote

/-- The spans whose traces were marked as sampled, with the goroutines. -/
def samples (tr : List Ev) : List (Nat × Nat) := tr.filterMap fun e => match e with | .sampled t y => some (t, y) | _ => none

/-- The spans for whose traces the callback was called. -/
def callbacks (tr : List Ev) : List (Nat × Nat) := tr.filterMap fun e => match e with | .callback t y => some (t, y) | _ => none

/-- The part of `keepAlive`. -/
def kaOf (tr : List Ev) : List KeepAlive.Event := tr.filterMap fun e => match e with | .ka e => some e | _ => none

/-- The part of `FindSpan`. -/
def findOf (tr : List Ev) : List FindSpan.Ev := tr.filterMap fun e => match e with | .find e => some e | _ => none

end Monkit.Remote
