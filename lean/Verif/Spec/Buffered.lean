import Verif.Model.Buffered

/-!
# What arrives at the client (C76, C77)
-/

namespace Monkit.Buffered.Spec
open Go

/-- What the presenter writes if no write fails, and the error it then returns. -/
def wants : Prog → Str × Option Nat
  | .ret e => ([], e)
  | .write d k => (d ++ (wants (k none)).1, (wants (k none)).2)

/-- A presenter that writes pieces one after the other and returns the first error. -/
def listing : List Str → Prog
  | [] => .ret none
  | p :: ps => .write p fun | none => listing ps | some e => .ret (some e)

end Monkit.Buffered.Spec
