import Verif.Model.Tasks
import Verif.Props.Ctx

/-! # C29: which trace and parent a new span gets -/

namespace Monkit.Tasks

/-- The span of the context a pointer leads to, if any. -/
def current (p : Option (Option Ctx)) : Option Nat := (p.bind id).bind Ctx.spanFrom

/-- Everything in use was made before: spans' traces and parents, and announced traces. -/
structure WF (w : World) : Prop where
  trace : ∀ s ∈ w.spans, s.trace < w.traces
  parent : ∀ (i : Nat) (s : SpanI) (q : Nat), w.spans[i]? = some s → s.parent = some q → q < i
  ann : ∀ t ∈ w.announced, t < w.traces

/-- A trace nobody has seen before. -/
def Fresh (w : World) (t : Nat) : Prop := t ∉ w.announced ∧ ∀ s ∈ w.spans, s.trace ≠ t

theorem spanFrom_clean (p : Option (Option Ctx)) : (cleanCtx p).spanFrom = current p := by
  rcases p with _ | _ | c <;> rfl

/-- What a start leaves behind, in terms of the old and the new world, the pointer and the new span. -/
structure Started (w w' : World) (obs : Nat → List (Ctx → Ctx)) (p p' : Option (Option Ctx)) (s : Nat) (f : Nat) (id : Int64)
    (trace : Nat) (parent : Option Nat) (parentId : Option Int64) : Prop where
  /-- one span more -/
  spans : w'.spans = w.spans ++ [⟨id, f, trace, parent, parentId⟩]
  index : s = w.spans.length
  /-- the variable holds the new context; a nil pointer stays one -/
  ptr : p' = p.map fun c => some (Ctx.task (obs trace) (c.getD .background) s)

theorem wf_newSpan {w : World} (h : WF w) {obs : Nat → List (Ctx → Ctx)} {c : Ctx} {f : Nat} {tr : Option Nat}
    {pid : Option Int64} {i : Int64} (hc : ∀ q, c.spanFrom = some q → q < w.spans.length)
    (ht : ∀ t, tr = some t → t < w.traces) : WF (newSpan w obs c f tr pid i).1 := by
  have ext : ∀ (w' : World) (x : SpanI), WF w' → x.trace < w'.traces → (∀ q, x.parent = some q → q < w'.spans.length) →
      WF { w' with spans := w'.spans ++ [x] } := by
    intro w' x h hx hq
    refine ⟨?_, ?_, h.ann⟩
    · intro s hs
      rcases List.mem_append.mp hs with hs | hs
      · exact h.trace s hs
      · simp at hs; subst hs; exact hx
    · intro j s q hj hs
      rcases Nat.lt_trichotomy j w'.spans.length with hl | hl | hl
      · simp only [List.getElem?_append_left hl] at hj
        exact h.parent j s q hj hs
      · subst hl
        simp at hj
        subst hj
        exact hq q hs
      · simp only [List.getElem?_append_right (Nat.le_of_lt hl)] at hj
        have : j - w'.spans.length ≠ 0 := by omega
        cases hk : j - w'.spans.length with
        | zero => exact absurd hk this
        | succ k => rw [hk] at hj; simp at hj
  cases tr with
  | some t =>
    refine ext w _ h (ht t rfl) ?_
    intro q hq; cases pid <;> simp at hq
  | none =>
    cases hs : c.spanFrom with
    | some q =>
      simp only [newSpan, hs]
      have hlt := hc q hs
      refine ext w _ h ?_ ?_
      · simp only [List.getElem?_eq_getElem hlt, Option.map_some, Option.getD_some]
        exact h.trace _ (List.getElem_mem hlt)
      · intro q' hq'
        cases pid <;> simp at hq'
        subst hq'; exact hlt
    | none =>
      simp only [newSpan, hs, newTrace, announce]
      refine ext { spans := w.spans, traces := w.traces + 1, announced := w.announced ++ [w.traces] } _ ?_ ?_ ?_
      · refine ⟨fun s hs => Nat.lt_succ_of_lt (h.trace s hs), h.parent, ?_⟩
        intro t ht
        rcases List.mem_append.mp ht with ht | ht
        · exact Nat.lt_succ_of_lt (h.ann t ht)
        · simp at ht; subst ht; exact Nat.lt_succ_self _
      · exact Nat.lt_succ_self _
      · intro q hq; cases pid <;> simp at hq

theorem fresh_traces {w : World} (h : WF w) : Fresh w w.traces :=
  ⟨fun hm => Nat.lt_irrefl _ (h.ann _ hm), fun s hs e => Nat.lt_irrefl w.traces (by have := h.trace s hs; omega)⟩

/-- C29, a Task on a context with a span: a child of that span, on its trace; nothing is announced. -/
theorem C29_task_child (w : World) (h : WF w) (obs : Nat → List (Ctx → Ctx)) (p : Option (Option Ctx)) (f : Nat) (i : Int64)
    (q : Nat) (sq : SpanI) (hq : current p = some q) (hsq : w.spans[q]? = some sq) :
    ∃ w' p' s, task w obs p f i = (w', p', s) ∧ Started w w' obs p p' s f i sq.trace (some q) none ∧
      w'.announced = w.announced ∧ parentIdOf w' ⟨i, f, sq.trace, some q, none⟩ = some sq.id := by
  refine ⟨_, _, _, rfl, ?_, ?_, ?_⟩
  · constructor
    · simp only [task, newSpan, spanFrom_clean, hq, hsq]; rfl
    · simp only [task, newSpan, spanFrom_clean, hq]
    · simp only [task, newSpan, spanFrom_clean, hq, hsq]
      rcases p with _ | _ | c <;> rfl
  · simp only [task, newSpan, spanFrom_clean, hq]
  · have hl : q < w.spans.length := by
      rcases Nat.lt_or_ge q w.spans.length with h | h
      · exact h
      · rw [List.getElem?_eq_none h] at hsq; cases hsq
    simp only [task, newSpan, spanFrom_clean, hq, parentIdOf, List.getElem?_append_left hl, hsq, Option.map_some]

/-- C29, a Task without a span (nil pointer, nil context, or a context without a span): a root span on a fresh trace, announced once. -/
theorem C29_task_root (w : World) (h : WF w) (obs : Nat → List (Ctx → Ctx)) (p : Option (Option Ctx)) (f : Nat) (i : Int64)
    (hq : current p = none) :
    ∃ w' p' s t, task w obs p f i = (w', p', s) ∧ Fresh w t ∧ Started w w' obs p p' s f i t none none ∧
      w'.announced = w.announced ++ [t] ∧ parentIdOf w' ⟨i, f, t, none, none⟩ = none := by
  refine ⟨_, _, _, w.traces, rfl, fresh_traces h, ?_, ?_, rfl⟩
  · constructor
    · simp only [task, newSpan, spanFrom_clean, hq]; rfl
    · simp only [task, newSpan, spanFrom_clean, hq]; rfl
    · simp only [task, newSpan, spanFrom_clean, hq]
      rcases p with _ | _ | c <;> rfl
  · simp only [task, newSpan, spanFrom_clean, hq]; rfl

/-- C29, `ResetTrace`: whatever the context, a root span on a fresh trace, announced once. -/
theorem C29_reset_trace (w : World) (h : WF w) (obs : Nat → List (Ctx → Ctx)) (p : Option (Option Ctx)) (f : Nat) (i : Int64) :
    ∃ w' p' s t, resetTrace w obs p f i = (w', p', s) ∧ Fresh w t ∧ Started w w' obs p p' s f i t none none ∧
      w'.announced = w.announced ++ [t] ∧ parentIdOf w' ⟨i, f, t, none, none⟩ = none := by
  refine ⟨_, _, _, w.traces, rfl, fresh_traces h, ?_, rfl, rfl⟩
  constructor
  · rfl
  · rfl
  · rcases p with _ | _ | c <;> rfl

/-- C29, `RemoteTrace`: a root span (no local parent) with the given parent id; on the given trace, which is announced; without
one, on the trace of the context's span, without announcement; without that, on a fresh trace, announced. -/
theorem C29_remote_trace (w : World) (h : WF w) (obs : Nat → List (Ctx → Ctx)) (p : Option (Option Ctx)) (f : Nat)
    (pid : Int64) (trace : Option Nat) (i : Int64) :
    ∃ w' p' s t, remoteTrace w obs p f pid trace i = (w', p', s) ∧
      Started w w' obs p p' s f i t none (some pid) ∧ parentIdOf w' ⟨i, f, t, none, some pid⟩ = some pid ∧
      (∀ t', trace = some t' → t = t' ∧ w'.announced = w.announced ++ [t]) ∧
      (trace = none → ∀ q sq, current p = some q → w.spans[q]? = some sq → t = sq.trace ∧ w'.announced = w.announced) ∧
      (trace = none → current p = none → Fresh w t ∧ w'.announced = w.announced ++ [t]) := by
  cases trace with
  | some t =>
    refine ⟨_, _, _, t, rfl, ?_, rfl, ?_, by simp, by simp⟩
    · constructor
      · rfl
      · rfl
      · rcases p with _ | _ | c <;> rfl
    · intro t' e; cases e; exact ⟨rfl, rfl⟩
  | none =>
    cases hq : current p with
    | some q =>
      refine ⟨_, _, _, ((w.spans[q]?).map (·.trace)).getD 0, rfl, ?_, rfl, by simp, ?_, by simp⟩
      · constructor
        · simp only [remoteTrace, newSpan, spanFrom_clean, hq]; rfl
        · simp only [remoteTrace, newSpan, spanFrom_clean, hq]
        · simp only [remoteTrace, newSpan, spanFrom_clean, hq]
          rcases p with _ | _ | c <;> rfl
      · intro _ q' sq e hsq
        cases e
        simp only [remoteTrace, newSpan, spanFrom_clean, hq, hsq]
        exact ⟨rfl, trivial⟩
    | none =>
      refine ⟨_, _, _, w.traces, rfl, ?_, rfl, by simp, by simp, fun _ _ => ⟨fresh_traces h, ?_⟩⟩
      · constructor
        · simp only [remoteTrace, newSpan, spanFrom_clean, hq]; rfl
        · simp only [remoteTrace, newSpan, spanFrom_clean, hq]; rfl
        · simp only [remoteTrace, newSpan, spanFrom_clean, hq]
          rcases p with _ | _ | c <;> rfl
      · simp only [remoteTrace, newSpan, spanFrom_clean, hq]; rfl

/-- The world a process starts with. -/
def World.init : World := ⟨[], 0, []⟩

/-- What programs do: start spans on contexts they have been given, and make traces. -/
inductive Reach : World → Prop where
  | init : Reach .init
  | newTrace {w : World} : Reach w → Reach (newTrace w).1
  | task {w : World} (obs : Nat → List (Ctx → Ctx)) (p : Option (Option Ctx)) (f : Nat) (i : Int64) :
      Reach w → (∀ q, current p = some q → q < w.spans.length) → Reach (task w obs p f i).1
  | resetTrace {w : World} (obs : Nat → List (Ctx → Ctx)) (p : Option (Option Ctx)) (f : Nat) (i : Int64) :
      Reach w → (∀ q, current p = some q → q < w.spans.length) → Reach (resetTrace w obs p f i).1
  | remoteTrace {w : World} (obs : Nat → List (Ctx → Ctx)) (p : Option (Option Ctx)) (f : Nat) (pid : Int64) (t : Option Nat)
      (i : Int64) : Reach w → (∀ q, current p = some q → q < w.spans.length) → (∀ x, t = some x → x < w.traces) →
      Reach (remoteTrace w obs p f pid t i).1

/-- The hypothesis `WF` of the theorems above holds in every world a program can reach. -/
theorem C29_reachable {w : World} (h : Reach w) : WF w := by
  induction h with
  | init => constructor <;> simp [World.init]
  | newTrace _ ih =>
    exact ⟨fun s hs => Nat.lt_succ_of_lt (ih.trace s hs), ih.parent, fun t ht => Nat.lt_succ_of_lt (ih.ann t ht)⟩
  | task obs p f i _ hp ih =>
    exact wf_newSpan (obs := obs) ih (by rw [spanFrom_clean]; exact hp) (by simp)
  | @resetTrace w obs p f i _ hp ih =>
    refine wf_newSpan (obs := obs) (f := f) (tr := some w.traces) (pid := none) (i := i) (w := announce (newTrace w).1 w.traces) ?_ (by rw [spanFrom_clean]; exact hp) ?_
    · refine ⟨fun s hs => Nat.lt_succ_of_lt (ih.trace s hs), ih.parent, ?_⟩
      intro t ht
      rcases List.mem_append.mp ht with ht | ht
      · exact Nat.lt_succ_of_lt (ih.ann t ht)
      · simp at ht; subst ht; exact Nat.lt_succ_self _
    · intro t e; cases e; exact Nat.lt_succ_self _
  | @remoteTrace w obs p f pid t i _ hp ht ih =>
    cases t with
    | none => exact wf_newSpan (obs := obs) ih (by rw [spanFrom_clean]; exact hp) (by simp)
    | some t =>
      refine wf_newSpan (obs := obs) (f := f) (tr := some t) (pid := some pid) (i := i) (w := announce w t) ?_ (by rw [spanFrom_clean]; exact hp) (fun x e => ht x e)
      refine ⟨ih.trace, ih.parent, ?_⟩
      intro x hx
      rcases List.mem_append.mp hx with hx | hx
      · exact ih.ann x hx
      · simp at hx; subst hx; exact ht x rfl

/-- A Task on a nil context variable, a Task on what it leaves there, a Task on a nil pointer. -/
example : let r1 := task World.init (fun _ => []) (some none) 0 10
    let r2 := task r1.1 (fun _ => []) r1.2.1 1 11
    let r3 := task r2.1 (fun _ => []) none 2 12
    r3.1.spans = [⟨10, 0, 0, none, none⟩, ⟨11, 1, 0, some 0, none⟩, ⟨12, 2, 1, none, none⟩] ∧
      r3.1.announced = [0, 1] ∧ current r2.2.1 = some 1 := by decide

end Monkit.Tasks
