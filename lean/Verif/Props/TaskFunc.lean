import Verif.Model.TaskFunc

/-!
# C63: Task.Func
-/

namespace Monkit.TaskFunc
open Go

theorem upd_apply {α : Type} (f : Nat → α) (t : Nat) (v : α) (t' : Nat) : upd f t v t' = if t' = t then v else f t' := rfl

theorem taskFunc_eq (f) : taskFunc f = f := by
  simp [taskFunc, dispatch, taskArgs, result]

/-- **C63**.  `Func()` on the Task of a Func (`Func.Task`, `Func.ResetTrace`, `Scope.TaskNamed`) returns that Func. -/
theorem C63_func_task (g : FuncId) : taskFunc (some g) = some g := taskFunc_eq _

/-- No arguments make a Task called by users behave as `Func()` does: they cannot name the secret context. -/
theorem C63_users_not_dispatched (n : Option Nat) (f : Option FuncId) (args : List Arg) : dispatch (.user n) f args = .no := by
  simp [dispatch]

/-- A function that is no Task and leaves the location alone makes `Func()` panic. -/
theorem C63_not_a_task (returnsNil : Bool) : result returnsNil none = none := by cases returnsNil <;> rfl

/-- The goroutine has looked for the Func: this happens at most once. -/
def lookups (tr : List Event) : Nat := tr.countP fun e => match e with | .found _ _ => true | .notFound _ => true | _ => false

theorem lookups_snoc (tr e) : lookups (tr ++ [e]) = lookups tr + (match e with | .found _ _ => 1 | .notFound _ => 1 | _ => 0) := by
  cases e <;> simp [lookups, List.countP_append]

structure Inv (tr : List Event) (s : State) : Prop where
  running : ∀ i, s.once = .running i ↔ s.thr i = .finding
  done : lookups tr = if s.once = .complete then 1 else 0
  unset : s.once ≠ .complete → s.f = none
  set : ∀ g, s.f = some g ↔ ∃ i, Event.found i g ∈ tr
  start : ∀ i, s.thr i = .start → s.once = .complete
  span : ∀ i g, Event.span i g ∈ tr → s.f = some g
  func : ∀ i g, Event.func i g ∈ tr → s.f = some g
  failed : ∀ i, Event.notFound i ∈ tr → s.f = none ∧ s.once = .complete

theorem inv_init : Inv [] init := by
  constructor <;> simp [init, lookups]

set_option maxHeartbeats 1000000 in
theorem inv_step (tr s e s') (h : Inv tr s) (st : Step s e s') : Inv (tr ++ e.toList) s' := by
  obtain ⟨h1, h2, h3, h4, h5, h6, h7, h8⟩ := h
  cases st
  all_goals
    try simp only [taskFunc_eq] at *
  all_goals
    constructor
  all_goals
    try simp only [upd_apply, Option.toList_some, Option.toList_none, List.append_nil, lookups_snoc, List.mem_append, List.mem_singleton]
  case found.set i g hi =>
    have hn : s.f = none := h3 (by rw [(h1 i).2 hi]; simp)
    intro x
    constructor
    · intro hx; cases hx; exact ⟨i, .inr rfl⟩
    · rintro ⟨k, hk | hk⟩
      · rw [(h4 x).2 ⟨k, hk⟩] at hn; cases hn
      · cases hk; rfl
  all_goals
    grind

variable {tr : List Event} {s : State}

theorem inv_exec (h : Exec Step init tr s) : Inv tr s := Exec.induct Inv inv_init inv_step h

/-- **C63**.  `Func()` does nothing but return: an execution without the calls of `Func()` is an execution too, and leads to the same state. -/
theorem C63_no_side_effects (h : Exec Step init tr s) :
    Exec Step init (tr.filter fun e => match e with | .func _ _ => false | .funcPanic _ => false | _ => true) s := by
  induction h with
  | start => exact .start
  | @step tr s s' e h st ih =>
    rw [List.filter_append]
    cases st with
    | func i g h1 hf => simpa using ih
    | funcPanic i h1 hf => simpa using ih
    | call i n args h1 hd => exact Exec.step _ ih (.call s i n args h1 hd)
    | onceFirst i h1 ho => exact Exec.step _ ih (.onceFirst s i h1 ho)
    | onceDone i h1 ho => exact Exec.step _ ih (.onceDone s i h1 ho)
    | found i g h1 => exact Exec.step _ ih (.found s i g h1)
    | notFound i h1 => exact Exec.step _ ih (.notFound s i h1)
    | span i g h1 hf => exact Exec.step _ ih (.span s i g h1 hf)
    | spanPanic i h1 hf => exact Exec.step _ ih (.spanPanic s i h1 hf)

/-- **C63**.  What `Func()` returns on a Task of `Scope.Task` is the Func of every span that the Task has started or will start. -/
theorem C63_same_func (h : Exec Step init tr s) {i j : Nat} {g g' : FuncId} (h1 : Event.func i g ∈ tr) (h2 : Event.span j g' ∈ tr) : g = g' := by
  have a := (inv_exec h).func i g h1
  have b := (inv_exec h).span j g' h2
  rw [a] at b; cases b; rfl

/-- The Func of a Task is looked for at most once, and all its spans are of that Func. -/
theorem C63_looked_up_once (h : Exec Step init tr s) : lookups tr ≤ 1 ∧ ∀ i g, Event.span i g ∈ tr → ∃ j, Event.found j g ∈ tr := by
  have i := inv_exec h
  refine ⟨by rw [i.done]; split <;> omega, fun k g hk => (i.set g).1 (i.span k g hk)⟩

/-- **C63**.  Once the Task has run, `Func()` returns its Func and does not panic.

Partial: before that it panics, see `C63_fresh_violated`. -/
theorem C63_after_run_partial (h : Exec Step init tr s) {j : Nat} {g : FuncId} (hr : Event.span j g ∈ tr) (i : Nat) :
    (∀ x s', Step s (some (.func i x)) s' → x = g) ∧ (∀ s', ¬ Step s (some (.funcPanic i)) s') ∧ (s.thr i = .idle → Step s (some (.func i g)) s) := by
  have hf := (inv_exec h).span j g hr
  refine ⟨fun x s' st => ?_, fun s' st => ?_, fun hi => .func s i g hi (by rw [taskFunc_eq, hf])⟩
  · cases st with | func _ _ _ h2 => rw [taskFunc_eq, hf] at h2; cases h2; rfl
  · cases st with | funcPanic _ _ h2 => rw [taskFunc_eq, hf] at h2; cases h2

/-- C63 is false of a Task of `Scope.Task` whose Func has not been found: `Func()` panics, whatever else is going on. -/
theorem C63_fresh_violated (h : Exec Step init tr s) (hn : ∀ j g, Event.found j g ∉ tr) (i : Nat) :
    (∀ x s', ¬ Step s (some (.func i x)) s') ∧ (s.thr i = .idle → Step s (some (.funcPanic i)) s) := by
  have hf : s.f = none := by
    cases hs : s.f with
    | none => rfl
    | some g => obtain ⟨j, hj⟩ := ((inv_exec h).set g).1 hs; exact absurd hj (hn j g)
  refine ⟨fun x s' st => ?_, fun hi => .funcPanic s i hi (by rw [taskFunc_eq, hf])⟩
  cases st with | func _ _ _ h2 => rw [taskFunc_eq, hf] at h2; cases h2

/-- If the first call cannot make the Func (its name is taken by something else), every later call panics, and so does `Func()`, for ever. -/
theorem C63_failed_lookup (h : Exec Step init tr s) {j : Nat} (hn : Event.notFound j ∈ tr) :
    (∀ i g, Event.span i g ∉ tr) ∧ ∀ i g, Event.func i g ∉ tr := by
  have inv := inv_exec h
  have hf := (inv.failed j hn).1
  exact ⟨fun i g hx => (by rw [inv.span i g hx] at hf; cases hf), fun i g hx => (by rw [inv.func i g hx] at hf; cases hf)⟩

/-- `Func()` before the first call panics, after it returns the Func. -/
theorem example_run : ∃ s, Exec Step init [.funcPanic 0, .call 0, .call 1, .found 1 42, .span 1 42, .func 1 42, .span 0 42] s := by
  have e0 := Exec.step _ (.start (s₀ := init)) (Step.funcPanic _ 0 rfl rfl)
  have e1 := Exec.step _ e0 (Step.call _ 0 none [] rfl rfl)
  have e2 := Exec.step _ e1 (Step.call _ 1 (some 3) [.other 5] rfl rfl)
  have e3 := Exec.step _ e2 (Step.onceFirst _ 1 rfl rfl)
  have e4 := Exec.step _ e3 (Step.found _ 1 42 rfl)
  have e5 := Exec.step _ e4 (Step.span _ 1 42 rfl rfl)
  have e6 := Exec.step _ e5 (Step.func _ 1 42 rfl rfl)
  have e7 := Exec.step _ e6 (Step.onceDone _ 0 rfl rfl)
  have e8 := Exec.step _ e7 (Step.span _ 0 42 rfl rfl)
  exact ⟨_, e8⟩

end Monkit.TaskFunc
