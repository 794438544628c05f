import Verif.Model.Ctx

/-! # C28: contexts -/

namespace Monkit.Ctx

/-- The number of spans stacked in a context. -/
def layers : Ctx → Nat
  | .base _ _ => 0
  | .wrap _ _ c => layers c
  | .span _ c => layers c + 1
  | .reset c => layers c

/-- Tasks run one inside the other, each on the context left by the one before. -/
def nest (c : Ctx) : List Nat → Ctx
  | [] => c
  | s :: ss => nest (task [] c s) ss

/-- An observer that leaves what users can see alone: the current span, the users' values, cancellation. -/
def Transparent (o : Ctx → Ctx) : Prop :=
  ∀ c, spanFrom (o c) = spanFrom c ∧ (∀ k, (o c).value (.user k) = c.value (.user k)) ∧ (o c).sig = c.sig

theorem strip_value (c : Ctx) (k : Nat) : c.strip.value (.user k) = c.value (.user k) := by
  cases c <;> simp [strip, value]

theorem strip_sig (c : Ctx) : c.strip.sig = c.sig := by
  cases c <;> rfl

theorem observe_transparent {obs : List (Ctx → Ctx)} (h : ∀ o ∈ obs, Transparent o) (c : Ctx) :
    spanFrom (observe obs c) = spanFrom c ∧ (∀ k, (observe obs c).value (.user k) = c.value (.user k)) ∧
      (observe obs c).sig = c.sig := by
  induction obs generalizing c with
  | nil => exact ⟨rfl, fun _ => rfl, rfl⟩
  | cons o os ih =>
    obtain ⟨h1, h2, h3⟩ := ih (fun o ho => h o (by simp [ho])) (o c)
    obtain ⟨g1, g2, g3⟩ := h o (by simp) c
    exact ⟨h1.trans g1, fun k => (h2 k).trans (g2 k), h3.trans g3⟩

/-- C28.  Whatever the context, after a Task `SpanFromCtx` gives its span, every user's key has the value it had, and
deadline and cancellation are those it had – also with any `SpanObserver`s, and with `SpanCtxObserver`s
that respect that. -/
theorem C28_task_context (c : Ctx) (s : Nat) (obs : List (Ctx → Ctx)) (h : ∀ o ∈ obs, Transparent o) :
    spanFrom (task obs c s) = some s ∧ (∀ k, (task obs c s).value (.user k) = c.value (.user k)) ∧
      (task obs c s).sig = c.sig := by
  obtain ⟨h1, h2, h3⟩ := observe_transparent h (c.push s)
  refine ⟨h1.trans rfl, fun k => (h2 k).trans ?_, h3.trans (strip_sig c)⟩
  simp [push, value, strip_value]

/-- C28.  Nested Tasks add one layer altogether, however many there are. -/
theorem C28_layers_do_not_accumulate (c : Ctx) (ss : List Nat) : (nest c ss).layers ≤ c.layers + 1 := by
  have key : ∀ (ss : List Nat) (c : Ctx) (n : Nat), c.strip.layers ≤ n → c.layers ≤ n + 1 →
      (nest c ss).layers ≤ n + 1 := by
    intro ss
    induction ss with
    | nil => intro c n _ h; exact h
    | cons s ss ih =>
      intro c n h _
      refine ih (task [] c s) n ?_ ?_
      · simpa [task, observe, push, strip] using h
      · simpa [task, observe, push, layers] using h
  refine key ss c c.layers ?_ (Nat.le_succ _)
  cases c <;> simp [strip, layers]

/-- … and the last one is current, over the values of the first context. -/
theorem C28_nested (c : Ctx) (ss : List Nat) (s : Nat) :
    spanFrom (nest c (ss ++ [s])) = some s ∧ ∀ k, (nest c (ss ++ [s])).value (.user k) = c.value (.user k) := by
  induction ss generalizing c with
  | nil =>
    have := C28_task_context c s [] (by simp)
    exact ⟨this.1, this.2.1⟩
  | cons x xs ih =>
    have h := ih (task [] c x)
    have := C28_task_context c x [] (by simp)
    exact ⟨h.1, fun k => (h.2 k).trans (this.2.1 k)⟩

/-- C28.  `ResetContextSpan` hides the span and nothing else. -/
theorem C28_reset (c : Ctx) : spanFrom (resetSpan c) = none ∧ (∀ k, (resetSpan c).value (.user k) = c.value (.user k)) ∧
    (resetSpan c).sig = c.sig := by
  refine ⟨rfl, fun k => ?_, rfl⟩
  simp [resetSpan, value]

/-- Three Tasks on a context carrying a value, with an observer that adds a value of its own. -/
example : (nest (background.withValue 7 70) [1, 2, 3]).layers = 1 ∧
    spanFrom (task [id, fun c => c.withValue 8 80] (nest (background.withValue 7 70) [1, 2]) 3) = some 3 := by decide

/-- Observers as in `C28_task_context`: the identity, and one that wraps the context. -/
example : Transparent id ∧ ∃ o : Ctx → Ctx, Transparent o ∧ o background ≠ background := by
  refine ⟨fun c => ⟨rfl, fun _ => rfl, rfl⟩, fun c => .wrap (fun _ v => v) none c, fun c => ⟨?_, fun _ => rfl, rfl⟩, by simp [background]⟩
  cases c <;> simp [spanFrom, value]

end Monkit.Ctx
