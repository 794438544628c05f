import Verif.Model.Report

/-!
# Specification of a report
-/

namespace Monkit.Report.Spec
open Go

/-- `o` is the source called `k` of the scope called `n`: somebody was given it by these names. -/
def Named (tr : List Event) (n k : Str) (o : Nat) : Prop :=
  ∃ t u x, .ret t (.scopeNamed n) (.scope x) ∈ tr ∧ .ret u (.source x k) (.source o) ∈ tr

/-- Somebody asked for the source called `k` of the scope called `n`. -/
def AskedFor (tr : List Event) (n k : Str) : Prop :=
  ∃ t u x, .ret t (.scopeNamed n) (.scope x) ∈ tr ∧ .call u (.source x k) ∈ tr

/-- The record `r` in the source `o` was called. -/
def Called (tr : List Event) (o : Nat) (r : Rec) : Prop := ∃ t, .call t (.record o r) ∈ tr

/-- It has returned. -/
def Returned (tr : List Event) (o : Nat) (r : Rec) : Prop := ∃ t, .ret t (.record o r) .done ∈ tr

/-- What one report, called after `a` and returning `l` after `b` more, must be. -/
structure Good (a b : List Event) (l : List Line) : Prop where
  /-- every source somebody was given before the call is there, with every record that returned before the call -/
  complete : ∀ n k o, Named a n k o → ∃ e ∈ l, e.scope = n ∧ e.key = k ∧ ∀ r, Returned a o r → r ∈ e.hist
  /-- no source is there twice -/
  once : (l.map fun e => (e.scope, e.key)).Nodup
  /-- only sources somebody asked for are there -/
  asked : ∀ e ∈ l, AskedFor (a ++ b) e.scope e.key
  /-- with nothing but the records in that very source called before the return, each once -/
  sound : ∀ e ∈ l, e.hist.Nodup ∧ ∀ r ∈ e.hist, ∃ o, Named (a ++ b) e.scope e.key o ∧ Called (a ++ b) o r
  /-- scopes in order of names -/
  sorted : l.Pairwise fun e f => strLt f.scope e.scope = false

end Monkit.Report.Spec
