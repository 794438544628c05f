import Verif.Model.Scope

/-!
# Specification: a table of sources

What the accessors, `Gauge`, `Chain` and `Stats` may do, one after the other, in terms of what happened before.
-/

namespace Monkit.Scope.Spec
open Go Monkit.Scope

/-- The events that put something into the table. -/
def puts : Ev → Option (Str × Obj)
  | .made _ c o => some (c.key, o)
  | .gauge _ n o => some (n, o)
  | _ => none

/-- The table after a history: the last thing put under each name. -/
def table (h : List Ev) (n : Str) : Option Obj := ((h.filterMap puts).reverse.find? (fun x => x.1 = n)).map (·.2)

/-- The chained sources after a history. -/
def chained (h : List Ev) : List Nat := h.filterMap fun | .chain _ c => some c | _ => none

/-- An object that was never seen before. -/
def Fresh (h : List Ev) (o : Obj) : Prop := ∀ x ∈ h, ∀ n o', puts x = some (n, o') → o'.id ≠ o.id

/-- The accessor call goroutine `t` is in. -/
def pending : List Ev → Nat → Option Call → Option Call
  | [], _, r => r
  | .call t' c :: h, t, r => pending h t (if t' = t then some c else r)
  | .ret t' _ _ :: h, t, r => pending h t (if t' = t then none else r)
  | .panic t' _ :: h, t, r => pending h t (if t' = t then none else r)
  | _ :: h, t, r => pending h t r

/-- What may happen after `h`. -/
def Legal (h : List Ev) : Ev → Prop
  -- a goroutine calls one accessor at a time
  | .call t _ => pending h t none = none
  -- a constructor runs only for a call whose name holds nothing, and gives a new object of the kind asked for
  | .made t c o => pending h t none = some c ∧ table h c.key = none ∧ o.kind = c.kind ∧ o.kind ≠ .gauge ∧ Fresh h o
  -- an accessor returns what the name holds, if it is of the kind asked for
  | .ret t c o => pending h t none = some c ∧ table h c.key = some o ∧ o.kind = c.kind ∧ o.kind ≠ .gauge
  -- and panics only if the name holds something of another kind
  | .panic t c => pending h t none = some c ∧ ∃ o, table h c.key = some o ∧ o.kind ≠ c.kind
  -- a gauge takes the place of nothing or of a gauge
  | .gauge _ n o => (∀ o', table h n = some o' → o'.kind = .gauge) ∧ o.kind = .gauge ∧ Fresh h o
  | .gaugePanic _ n => ∃ o, table h n = some o ∧ o.kind ≠ .gauge
  -- `Stats` takes exactly what is in the table, each name once
  | .sources _ l => (l.map (·.1)).Nodup ∧ ∀ n o, (n, o) ∈ l ↔ table h n = some o
  -- and the chained sources
  | .chains _ l => l = chained h
  | _ => True

/-- Everything that happened was allowed. -/
def LegalHistory (tr : List Ev) : Prop := ∀ a e b, tr = a ++ e :: b → Legal a e

/-- Strings in which the separators of a source name do not appear: no ',' in the name, in the tag values and in the tag keys, and
no '=' in the tag keys. -/
def Plain (name : Str) (tags : List (Str × Str)) : Prop :=
  44 ∉ name ∧ ∀ x ∈ tags, 44 ∉ x.1 ∧ 61 ∉ x.1 ∧ 44 ∉ x.2

/-- Who did it. -/
def by' : Ev → Nat
  | .call t _ | .made t _ _ | .ret t _ _ | .panic t _ | .gaugeCall t _ | .gauge t _ _ | .gaugePanic t _ | .gaugeRet t _ | .chainCall t _ | .chain t _
  | .chainRet t _ | .statsCall t | .sources t _ | .chains t _ | .statsRet t => t

/-- What a goroutine is in the middle of. -/
inductive Phase where
  | idle
  | accessor (c : Call)
  | made (c : Call) (o : Obj)
  | gauge (n : Str)
  | gaugeSet (n : Str)
  | chain (c : Nat)
  | chainAdded (c : Nat)
  | stats
  | statsSources
  | statsChains

/-- What one goroutine does, one thing after the other; `none`: anything else. -/
def Phase.next : Phase → Ev → Option Phase
  -- an accessor makes at most one object, and returns it if it made one
  | .idle, .call _ c => some (.accessor c)
  | .accessor c, .made _ c' o => if c' = c then some (.made c o) else none
  | .accessor c, .ret _ c' _ => if c' = c then some .idle else none
  | .accessor c, .panic _ c' => if c' = c then some .idle else none
  | .made c o, .ret _ c' o' => if c' = c ∧ o' = o then some .idle else none
  -- `Gauge` returns if it has registered its gauge, and panics if it has not
  | .idle, .gaugeCall _ n => some (.gauge n)
  | .gauge n, .gauge _ n' _ => if n' = n then some (.gaugeSet n) else none
  | .gaugeSet n, .gaugeRet _ n' => if n' = n then some .idle else none
  | .gauge n, .gaugePanic _ n' => if n' = n then some .idle else none
  -- `Chain` adds its source, once, and returns
  | .idle, .chainCall _ c => some (.chain c)
  | .chain c, .chain _ c' => if c' = c then some (.chainAdded c) else none
  | .chainAdded c, .chainRet _ c' => if c' = c then some .idle else none
  -- `Stats` takes the sources, then the chained sources
  | .idle, .statsCall _ => some .stats
  | .stats, .sources _ _ => some .statsSources
  | .statsSources, .chains _ _ => some .statsChains
  | .statsChains, .statsRet _ => some .idle
  | _, _ => none

/-- What goroutine `t` is in the middle of after a history; `none` if it did something it should not. -/
def phase (tr : List Ev) (t : Nat) : Option Phase := (tr.filter (by' · = t)).foldlM Phase.next .idle

end Monkit.Scope.Spec
