import Verif.Model.RegScopes

namespace Monkit.RegScopes.Spec
open Go Monkit.RegScopes

/-- The scopes created in a history. -/
def created (h : List Ev) : List Scope := h.filterMap fun | .made _ s => some s | _ => none

/-- For the last `Scopes` call of goroutine `t`: the scopes that existed when it looked, and those it has visited. -/
def look (t : Nat) : List Ev → List Scope × List Scope := fun h =>
  (h.foldl (fun (r : List Scope × List Scope × List Scope) e => match e with
    | .made _ s => (r.1 ++ [s], r.2)
    | .copied t' => if t' = t then (r.1, r.1, []) else r
    | .visit t' s => if t' = t then (r.1, r.2.1, r.2.2 ++ [s]) else r
    | _ => r) ([], [], [])).2

/-- What may happen after `h`. -/
def Legal (h : List Ev) : Ev → Prop
  -- a scope is made only for a name that has none, and is a new one
  | .made _ s => ∀ x ∈ created h, x.name ≠ s.name ∧ x.id ≠ s.id
  -- `ScopeNamed(n)` returns the scope made for `n`
  | .ret _ n s => s ∈ created h ∧ s.name = n
  -- scopes are visited in increasing order of names, each once
  | .visit t s => s ∈ (look t h).1 ∧ ∀ x ∈ (look t h).2, strLt x.name s.name = true
  -- and at the end all those that existed when `Scopes` looked have been visited
  | .done t => ∀ x ∈ (look t h).1, x ∈ (look t h).2
  | _ => True

end Monkit.RegScopes.Spec
