import Verif.Model.Spans

/-!
# What RootSpans, Children and AllSpans are supposed to show

Stated with the tree of spans (`World`) and with which spans have been started, are running, have
finished; nothing here mentions bags, flags or the registry's maps, except `Visible`, which is about
what a reader of those maps can reach.
-/

namespace Monkit.Spans
open Go

/-- No start and no exit is half way through: every span is not yet created, running or finished. -/
def Quiet (s : State) : Prop := ∀ n, s.pc n = .new ∨ s.pc n = .running ∨ s.pc n = .over

/-- Span `n` has no local parent, or its local parent has finished. -/
def Top (W : World) (s : State) (n : Nat) : Prop := ∀ p, W.parent n = some p → s.pc p = .over

/-- `n` is running and the topmost span of the unbroken chain of running ancestors above it belongs to
registry `r`. -/
inductive Under (W : World) (s : State) (r : Nat) : Nat → Prop where
  | top (n : Nat) (h : s.pc n = .running) (ht : Top W s n) (hr : W.reg n = r) : Under W s r n
  | under (n p : Nat) (h : s.pc n = .running) (hp : W.parent n = some p) (hu : Under W s r p) :
      Under W s r n

/-- What can be reached at this instant from the root and orphan maps of any registry through the
bags of children. -/
inductive Visible (s : State) : Nat → Prop where
  | root (r n : Nat) (h : n ∈ s.roots r) : Visible s n
  | orphan (r n : Nat) (h : n ∈ s.orphans r) : Visible s n
  | child (p n : Nat) (h : n ∈ (s.bag p).iterate (s.bag p).rest) (hp : Visible s p) : Visible s n

/-- Proper ancestors. -/
inductive Ancestor (W : World) : Nat → Nat → Prop where
  | parent (n p : Nat) (h : W.parent n = some p) : Ancestor W p n
  | up (n p a : Nat) (h : W.parent n = some p) (ha : Ancestor W a p) : Ancestor W a n

/-- The span is between marking itself done and having orphaned all its children
(ctx.go:126-135). -/
def Orphaning (s : State) (n : Nat) : Prop :=
  (∃ cs o, s.pc n = .orphan cs o) ∨ ∃ c cs o, s.pc n = .insert c cs o

/-- The span is being started under a parent that has finished, and is between being entered in the parent's
children and being entered in the orphans (span.go:38-46). -/
def Joining (s : State) (n : Nat) : Prop := s.pc n = .selfOrphan ∨ s.pc n = .selfInsert

/-- The exit function of `n` has been called and has got past taking the span's lock
(ctx.go:126-132). -/
def Exiting (s : State) (n : Nat) : Prop :=
  s.pc n ≠ .new ∧ s.pc n ≠ .inc ∧ s.pc n ≠ .pub ∧ s.pc n ≠ .selfOrphan ∧ s.pc n ≠ .selfInsert ∧
  s.pc n ≠ .running ∧ s.pc n ≠ .mark

/-- Between the two atomic updates of the trace's span count (ctx.go:98 and ctx.go:146). -/
def Counted (s : State) (n : Nat) : Prop := s.pc n ≠ .new ∧ s.pc n ≠ .inc ∧ s.pc n ≠ .over

end Monkit.Spans
