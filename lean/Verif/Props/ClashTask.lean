import Verif.Model.ClashTask

/-!
# C118, C27: what is left of the calls of a Task whose name is taken
-/

namespace Monkit.ClashTask

theorem calls_failed (ps : List Bool) (s : State) (hd : s.done = true) (hf : s.f = false) :
    (calls true ps s).1.spans = s.spans + Int64.ofNat (ps.count true) ∧ (calls true ps s).2 = List.replicate ps.length .panic := by
  induction ps generalizing s with
  | nil => simp [calls]
  | cons p ps ih =>
    cases p
    · have e : call true false s = (s, .panic) := by simp [call, newSpan, hd, hf]
      simp only [calls, e, List.length_cons, List.replicate_succ]
      obtain ⟨h1, h2⟩ := ih s hd hf
      exact ⟨by simpa using h1, by rw [h2]⟩
    · have e : call true true s = ({ s with spans := s.spans + 1 }, .panic) := by simp [call, newSpan, hd, hf]
      simp only [calls, e, List.length_cons, List.replicate_succ]
      obtain ⟨h1, h2⟩ := ih { s with spans := s.spans + 1 } hd hf
      refine ⟨?_, by rw [h2]⟩
      rw [h1, List.count_cons_self, Int64.ofNat_add, Int64.add_assoc, Int64.add_comm 1]
      rfl

/-- **C118, Tasks**: every call of a Task whose name is taken panics.  The first leaves `Trace.Spans` of the caller's trace as it was, and so do all others whose callers have no span. -/
theorem C118_task_partial (n : Int64) (p : Bool) (k : Nat) :
    (calls true (p :: List.replicate k false) (new n)).1.spans = n ∧
      (calls true (p :: List.replicate k false) (new n)).2 = List.replicate (k + 1) .panic := by
  have e : call true p (new n) = (⟨true, false, n⟩, .panic) := rfl
  obtain ⟨h1, h2⟩ := calls_failed (List.replicate k false) ⟨true, false, n⟩ rfl rfl
  simp only [calls, e]
  refine ⟨by rw [h1]; simp [List.count_replicate], by rw [h2, List.length_replicate]; rfl⟩

/-- C118 is false of the code: each further call by a function that has a span adds 1 to `Trace.Spans`, for good, although no span is started: `k + 1` calls that all panic leave the trace of one running span with
`1 + k`.  So `Trace.Spans` does not count the running spans (C27). -/
theorem C118_task_violated (k : Nat) :
    (calls true (List.replicate (k + 1) true) (new 1)).2 = List.replicate (k + 1) .panic ∧
      (calls true (List.replicate (k + 1) true) (new 1)).1.spans = 1 + Int64.ofNat k := by
  have e : call true true (new 1) = (⟨true, false, 1⟩, .panic) := rfl
  obtain ⟨h1, h2⟩ := calls_failed (List.replicate k true) ⟨true, false, 1⟩ rfl rfl
  simp only [List.replicate_succ, calls, e]
  exact ⟨by rw [h2, List.length_replicate], by rw [h1]; simp⟩

/-- Two calls: both panic, and the trace of the caller's single span counts two. -/
example : calls true [true, true] (new 1) = (⟨true, false, 2⟩, [.panic, .panic]) := rfl

/-- A name that is free: the span is started and counted. -/
example : calls false [true] (new 1) = (⟨true, true, 2⟩, [.started]) := rfl

end Monkit.ClashTask
