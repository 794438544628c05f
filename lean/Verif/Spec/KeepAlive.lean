import Verif.Model.KeepAlive

/-!
# Specification: keepAlive
-/

namespace Monkit.KeepAlive.Spec
open Go Monkit.KeepAlive

/-- A ping failed with error `e`: it returned it, or it panicked with it, or with something else of which an error was made.
`panic(nil)` does not count: under the Go version of go.mod nobody can see it. -/
inductive FailedWith : Outcome → Err → Prop where
  | err (e) : FailedWith (.err e) e
  | panicErr (e) : FailedWith (.panicErr e) e
  | panicVal (v) : FailedWith (.panicVal v) (.text v)

/-- `e` is the error of the first failed ping. -/
def FirstError (tr : List Event) (e : Err) : Prop :=
  ∃ t1 o t2, tr = t1 ++ .pong o :: t2 ∧ FailedWith o e ∧ ∀ o' e', Event.pong o' ∈ t1 → ¬ FailedWith o' e'

/-- No ping has failed. -/
def NoError (tr : List Event) : Prop := ∀ o e, Event.pong o ∈ tr → ¬ FailedWith o e

/-- The number of calls of `ping` that began and that ended. -/
def begun (tr : List Event) : Nat := tr.countP (· == .ping)
def ended (tr : List Event) : Nat := tr.countP fun e => match e with | .pong _ => true | _ => false

end Monkit.KeepAlive.Spec
