import Verif.Model.ObsPanic
import Verif.Spec.FuncStats

/-!
# What the calls are, observers that panic included

What happens to the functions themselves: an observer that panics ends the function it is told about.
-/

namespace Monkit.ObsPanic
open Monkit.Spec (Class)
variable {E : Type}

/-- What became of a call. -/
inductive Rec (E : Type) where
  /-- the function ran and ended so -/
  | ended (func : Nat) (cls : Class E) (dur : Int64)
  /-- an observer's `Start` panicked: the function did not run -/
  | cut (func : Nat)
  /-- a watcher of traces panicked: no span was made -/
  | unannounced
  /-- the Task had no Func: no span was made; `t` is the trace of the caller, if its context was handed on -/
  | broken (t : Option Nat)

/-- How a call counts. -/
def classOf (given : Bool) : Out E → Class E
  | .panic _ => .panic
  | .ret none => .success
  | .ret (some e) => if given then .error e else .success

/-- The first panic. -/
def firstPanic (b : Nat → Option Nat) (os : List Nat) : Option Nat := os.findSome? b

mutual
/-- The calls made and how the outermost ended.  `t` is the trace of the caller, if its context was handed on; `n` is how many traces there were before. -/
def plain (obs : Nat → List Nat) (t : Option Nat) (n : Nat) : Call E → List (Rec E) × Nat × Out E
  | .mk f given dur _ watch onStart onFinish body =>
    match (if t = none then watch else none), t.getD n with
    | some v, _ => ([.unannounced], n + 1, .panic v)
    | none, t' =>
      let n := if t = none then n + 1 else n
      match firstPanic onStart (obs t') with
      | some v => ([.cut f], n, .panic v)
      | none =>
        let b := plainBody obs t' n body
        (b.1 ++ [.ended f (classOf given b.2.2) dur], b.2.1,
          match firstPanic onFinish (obs t') with | some v => .panic v | none => b.2.2)
  | .broken v => ([.broken t], if t = none then n + 1 else n, .panic v)
def plainBody (obs : Nat → List Nat) (t n : Nat) : Body E → List (Rec E) × Nat × Out E
  | .ret err => ([], n, .ret err)
  | .panic v _ => ([], n, .panic v)
  | .call inherit c k =>
    let r := plain obs (if inherit then some t else none) n c
    let b := plainBody obs t r.2.1 (k r.2.2)
    (r.1 ++ b.1, b.2)
end

mutual
/-- No call of the program, whatever the calls before it do, has a `Start` that panics, or a Task without Func. -/
def StartsReturn : Call E → Prop
  | .mk _ _ _ _ _ onStart _ body => (∀ o, onStart o = none) ∧ StartsReturnBody body
  | .broken _ => False
def StartsReturnBody : Body E → Prop
  | .ret _ => True
  | .panic _ _ => True
  | .call _ c k => StartsReturn c ∧ ∀ o, StartsReturnBody (k o)
end

mutual
/-- Nobody in the program, whatever the calls before do, has observers other than `o` panic when a span finishes. -/
def OthersReturn (o : Nat) : Call E → Prop
  | .mk _ _ _ _ _ _ onFinish body => (∀ p, p ≠ o → onFinish p = none) ∧ OthersReturnBody o body
  | .broken _ => True
def OthersReturnBody (o : Nat) : Body E → Prop
  | .ret _ => True
  | .panic _ _ => True
  | .call _ c k => OthersReturn o c ∧ ∀ x, OthersReturnBody o (k x)
end

/-- The calls of `f` that ran. -/
def endedOf (f : Nat) : List (Rec E) → List (Class E × Int64)
  | [] => []
  | .ended g cls dur :: l => if g = f then (cls, dur) :: endedOf f l else endedOf f l
  | _ :: l => endedOf f l

/-- How many calls of `f` were cut short by the `Start` of an observer. -/
def cuts (f : Nat) : List (Rec E) → Nat
  | [] => 0
  | .cut g :: l => (if g = f then 1 else 0) + cuts f l
  | _ :: l => cuts f l

/-- How many times a Task without Func was called by functions with trace `t`. -/
def brokens (t : Nat) : List (Rec E) → Nat
  | [] => 0
  | .broken u :: l => (if u = some t then 1 else 0) + brokens t l
  | _ :: l => brokens t l

end Monkit.ObsPanic
