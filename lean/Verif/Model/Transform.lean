import Verif.Go.Slice
import Verif.Model.Basic

/-!
# Transformers: registry.go:69-74, 230-235; transform.go:22-44

A callback is what it does to the state `σ` of the world; a transformer makes a callback from a callback; a source calls the callback
it is given.  These are arbitrary.
-/

namespace Monkit.Transform
open Go

variable {σ V : Type}

/-- One call of a Stats callback: key, field, value (stats.go:65-67). -/
abbrev Stat (V : Type) := Key × Str × V
/-- `func(key SeriesKey, field string, val float64)` (stats.go:65-67). -/
abbrev Cb (σ V : Type) := Stat V → σ → σ
/-- `CallbackTransformer`, transform.go:22-24. -/
abbrev Tr (σ V : Type) := Cb σ V → Cb σ V
/-- `StatSource`, stats.go:65-67. -/
abbrev Source (σ V : Type) := Cb σ V → σ → σ

/-- `for _, t := range transformers { cb = t.Transform(cb) }`, registry.go:231-233 and transform.go:39-41. -/
def applyAll (ts : List (Tr σ V)) (cb : Cb σ V) : Cb σ V := ts.foldl (fun cb t => t cb) cb

/-- transform.go:37-44 `TransformStatSource`. -/
def transformStatSource (s : Source σ V) (ts : List (Tr σ V)) : Source σ V := fun cb => s (applyAll ts cb)

/-- Registries and the slices of transformers that callers hold.  The part registries share (`registryInternal`) is left out here:
`Stats` of every one of them visits the same scopes (C44), given as a source (registry.go:44-54). -/
structure State (σ V : Type) where
  heap : Arrays (Tr σ V)
  /-- `r.transformers` of each registry; number 0 is the one made by `NewRegistry` (registry.go:58-65) -/
  regs : List Slice
  /-- slices the callers hold -/
  user : List Slice

/-- One new registry (registry.go:58-65). -/
def State.init : State σ V := ⟨[], [.nil], []⟩

/-- What can happen (registry.go:58-74). -/
inductive Op (σ V : Type) where
  /-- `regs[r].WithTransformers(user[u]...)`; the numbers are the runtime's choices of capacity.  A call with listed arguments is
  one with a slice made for it. -/
  | with (r u g1 g2 : Nat)
  /-- a caller makes a slice -/
  | alloc (ts : List (Tr σ V)) (extra : Nat)
  /-- a caller assigns to an element of a slice -/
  | write (u i : Nat) (t : Tr σ V)
  /-- a caller appends to a slice -/
  | append (u : Nat) (ts : List (Tr σ V)) (g : Nat)

/-- registry.go:69-74 `WithTransformers`, and what callers do with their own slices.  `nil` (the zero value of an interface) fills
unused places. -/
def step (nil : Tr σ V) (s : State σ V) : Op σ V → State σ V
  | .with r u g1 g2 =>
    match s.regs[r]?, s.user[u]? with
    | some rs, some us =>
      let a := s.heap.append nil .nil (rs.read s.heap) g1
      let b := a.1.append nil a.2 (us.read a.1) g2
      { s with heap := b.1, regs := s.regs ++ [b.2] }
    | _, _ => s
  | .alloc ts extra =>
    let a := s.heap.alloc nil ts extra
    { s with heap := a.1, user := s.user ++ [a.2] }
  | .write u i t =>
    match s.user[u]? with
    | some us => if i < us.len then { s with heap := s.heap.write us.arr i [t] } else s
    | none => s
  | .append u ts g =>
    match s.user[u]? with
    | some us =>
      let a := s.heap.append nil us ts g
      { s with heap := a.1, user := s.user ++ [a.2] }
    | none => s

/-- The state after a history (registry.go:58-74). -/
def run (nil : Tr σ V) (ops : List (Op σ V)) : State σ V := ops.foldl (step nil) State.init

/-- registry.go:230-235 `Stats` of registry `r`; `scopes` is what `r.Scopes(func(s *Scope) { s.Stats(cb) })` does. -/
def stats (s : State σ V) (r : Nat) (scopes : Source σ V) : Source σ V :=
  fun cb => scopes (applyAll (((s.regs[r]?).map (·.read s.heap)).getD []) cb)

end Monkit.Transform
