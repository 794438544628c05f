import Verif.Model.Spans
import Verif.Model.FuncConc

/-!
# Monitored calls on any number of goroutines: spans and statistics together

ctx.go:59-158 as a whole: what `newSpan` and the exit function do to the spans (Model/Spans) and to the statistics of the function (Model/FuncConc), in the order
in which the code does it.  Every monitored call, every `Reset` and every `Stats` of any function is a process; all of them interleave freely.

Not part of this model: observers (Model/Observers) and the context (Model/Ctx, Model/Tasks): who a call's parent is, is given.
`parents.Add` (funcstats.go:77) is one step here; funcset.go is Model/FuncSet.
-/

namespace Monkit.Whole
open Go

/-- What a process is: a monitored call of function `f` with its outcome, duration and reservoir window, or a `Reset` or a `Stats` of `f` (ctx.go:59-158, funcstats.go:65-175). -/
inductive Act (E : Type) where
  | call (f : Nat) (err : Option E) (panicked : Bool) (duration window : Int64)
  | reset (f : Nat)
  | stats (f : Nat)

/-- The function it is about (ctx.go:92, funcstats.go:65, 148). -/
def Act.func {E : Type} : Act E → Nat
  | .call f _ _ _ _ | .reset f | .stats f => f

/-- Is it a monitored call (ctx.go:59)? -/
def Act.isCall {E : Type} : Act E → Bool
  | .call _ _ _ _ _ => true
  | _ => false

/-- What it is to the statistics of its function (funcstats.go:65-175). -/
def Act.kind {E : Type} : Act E → FuncConc.Kind E
  | .call _ e p d w => .call e p d w
  | .reset _ => .reset
  | .stats _ => .report

/-- The processes: what they do, and of those that are calls the parent, the registry and the trace; the keys of the functions (ctx.go:27-46, func.go:22-31).
`parent` gives parents to calls only. -/
structure Program (E : Type) where
  W : Spans.World
  act : Nat → Act E
  key : Nat → Key

/-- `parent.f`, or nil (ctx.go:101, 104). -/
def Program.caller {E : Type} (P : Program E) (n : Nat) : Option Nat := (P.W.parent n).map fun p => (P.act p).func

/-- What is shared: the spans, and of every function the statistics and the set of parents (registry.go:26-42, ctx.go:27-46, funcstats.go:34-46).  `added` is not in the code: the
call has got past funcstats.go:77. -/
structure State (G : Type) where
  sp : Spans.State
  fn : Nat → FuncConc.State G
  parents : Nat → List (Option Nat)
  added : Nat → Bool

/-- Only process `n` moves (ctx.go:59-158). -/
def Moves {α : Type} (pc pc' : Nat → α) (n : Nat) : Prop := pc' n ≠ pc n ∧ ∀ m, m ≠ n → pc' m = pc m

/-- The set with one more element (funcset.go:41-58). -/
def insert (q : Option Nat) (l : List (Option Nat)) : List (Option Nat) := if q ∈ l then l else q :: l

/-- `Step K next name P n s s'`: process `n` takes a step (ctx.go:59-158, funcstats.go:65-175). -/
inductive Step {G E : Type} (K : DistKind Int64 ℚ) (next : G → UInt64 × G) (name : E → Str) (P : Program E) : Nat → State G → State G → Prop where
  /-- A step of `newSpan` or of the exit function that concerns the spans.  The span is entered in its parent's children, or the roots, after `f.start` has returned
  (ctx.go:101-105); the exit function marks it done after `f.end` has returned (ctx.go:123-127). -/
  | span (s : State G) (n : Nat) (sp' : Spans.State) (hc : (P.act n).isCall = true) (st : Spans.Step P.W s.sp sp') (mv : Moves s.sp.pc sp'.pc n)
      (started : s.sp.pc n = .pub → (s.fn (P.act n).func).pc n = .running)
      (ended : s.sp.pc n = .mark → ∃ rep, (s.fn (P.act n).func).pc n = .over rep) :
      Step K next name P n s { s with sp := sp' }
  /-- `f.parentsAndMutex.Add(parent)` (ctx.go:101, 104, funcstats.go:77), after the span was counted (ctx.go:98) -/
  | parent (s : State G) (n : Nat) (hc : (P.act n).isCall = true) (h : s.sp.pc n = .pub) (hn : s.added n = false) :
      Step K next name P n s { s with parents := upd s.parents (P.act n).func (insert (P.caller n) (s.parents (P.act n).func)), added := upd s.added n true }
  /-- A step of `f.start` (after line 77), `f.end`, `Reset` or `Stats` of the process's function.  `start` is called by `newSpan` (ctx.go:101, 104), and `end` by the exit
  function before all else (ctx.go:123). -/
  | func (s : State G) (n : Nat) (fn' : FuncConc.State G) (st : FuncConc.Step K next name (fun m => (P.act m).kind) (s.fn (P.act n).func) fn')
      (mv : Moves (s.fn (P.act n).func).pc fn'.pc n)
      (start : (P.act n).isCall = true → (s.fn (P.act n).func).pc n = .new → s.sp.pc n = .pub ∧ s.added n = true)
      (finish : (P.act n).isCall = true → (s.fn (P.act n).func).pc n = .running → s.sp.pc n = .mark) :
      Step K next name P n s { s with fn := upd s.fn (P.act n).func fn' }

/-- Nothing has happened; `g1`, `g2` are the states of the random generators (registry.go:58-65, func.go:33-42, funcstats.go:48-62). -/
def init {G E : Type} (K : DistKind Int64 ℚ) (P : Program E) (g1 g2 : Nat → G) : State G :=
  ⟨Spans.init, fun f => FuncConc.init K (P.key f) (g1 f) (g2 f), fun _ => [], fun _ => false⟩

/-- States reached by any schedule (ctx.go:59-158, funcstats.go:65-175). -/
inductive Reach {G E : Type} (K : DistKind Int64 ℚ) (next : G → UInt64 × G) (name : E → Str) (P : Program E) (s₀ : State G) : State G → Prop where
  | start : Reach K next name P s₀ s₀
  | step {n s s'} (h : Reach K next name P s₀ s) (st : Step K next name P n s s') : Reach K next name P s₀ s'

end Monkit.Whole
