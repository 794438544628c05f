import Verif.Model.Calls
import Verif.Spec.FuncStats

/-!
# What the same calls do without monkit

The plain meaning of the programs of `Verif/Model/Calls.lean`: the exit functions do nothing.
-/

namespace Monkit.Calls
open Monkit.Spec (Class classify)
variable {E : Type}

/-- One completed call. -/
structure Rec (E : Type) where
  caller : Option Nat
  func : Nat
  cls : Class E
  dur : Int64

/-- How a call counts: a panic is a panic; an error counts if the exit function was given `&err`.  A call ended by `runtime.Goexit` counts as if it had returned what was left
in `err`. -/
def classOf (given : Bool) : Out E → Class E
  | .panic _ => .panic
  | .ret none => .success
  | .ret (some e) => if given then .error e else .success
  | .gone _ (some _) => .panic
  | .gone none none => .success
  | .gone (some e) none => if given then .error e else .success

/-- Does the callee see the caller's span? -/
def inherits : Pass → Bool
  | .own | .withValue _ _ => true
  | .reset | .nilCtx | .nilPtr => false

/-- Has the callee a context variable of its own? -/
def Pass.visible : Pass → Bool
  | .nilPtr => false
  | _ => true

mutual
/-- The calls made, in the order in which they ended, and how the outermost ended.  `vis`: the function has a context
variable, through which its callees see that it called them. -/
def plain (nilErr : Bool) (caller : Option Nat) (vis : Bool) : Call E → List (Rec E) × Out E
  | .mk f given _ dur _ body =>
    let b := plainBody nilErr (if vis then some f else none) body
    (b.1 ++ [⟨caller, f, classOf given b.2, dur⟩], b.2)
def plainBody (nilErr : Bool) (self : Option Nat) : Body E → List (Rec E) × Out E
  | .ret err => ([], .ret err)
  | .panic v _ => ([], .panic (raise nilErr v))
  | .goexit named => ([], .gone named none)
  | .call how c k =>
    let r := plain nilErr (if inherits how then self else none) how.visible c
    let b := plainBody nilErr self (k r.2)
    (r.1 ++ b.1, if r.2.isGone then b.2.leave else b.2)
end

mutual
/-- The program never panics with a nil value (under the old meaning of `panic(nil)`). -/
def NoNil : Call E → Prop
  | .mk _ _ _ _ _ body => NoNilBody body
def NoNilBody : Body E → Prop
  | .ret _ => True
  | .panic v _ => v ≠ none
  | .goexit _ => True
  | .call _ c k => NoNil c ∧ ∀ o, o ≠ .panic none → (∀ err, o ≠ .gone err (some none)) → NoNilBody (k o)
end

mutual
/-- How many calls of `f` are under way at once at most. -/
def depth (nilErr : Bool) (f : Nat) : Call E → Nat
  | .mk g _ _ _ _ body => (if g = f then 1 else 0) + depthBody nilErr f body
def depthBody (nilErr : Bool) (f : Nat) : Body E → Nat
  | .ret _ => 0
  | .panic _ _ => 0
  | .goexit _ => 0
  | .call _ c k => max (depth nilErr f c) (depthBody nilErr f (k (plain nilErr none true c).2))
end

/-- The observations of function `f` in a log. -/
def opsOf (f : Nat) (log : List (Nat × FuncStats.Op E)) : List (FuncStats.Op E) :=
  (log.filter (fun x => decide (x.1 = f))).map (·.2)

/-- The completed calls of function `f`. -/
def recsOf (f : Nat) (recs : List (Rec E)) : List (Rec E) := recs.filter (fun r => decide (r.func = f))

end Monkit.Calls
