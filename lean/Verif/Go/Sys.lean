/-!
# Interleaved executions

A concurrent program is given by a step relation on its global state (shared memory plus the
position of every goroutine).  One step is one atomic action of one goroutine and may emit an event.
`Exec` collects every finite schedule.
-/

namespace Go

/-- `Exec step s₀ tr s`: some schedule leads from `s₀` to `s`, emitting the events `tr` (oldest first). -/
inductive Exec {S E : Type} (step : S → Option E → S → Prop) (s₀ : S) : List E → S → Prop where
  | start : Exec step s₀ [] s₀
  | step {tr s s'} (e : Option E) (h : Exec step s₀ tr s) (st : step s e s') :
      Exec step s₀ (tr ++ e.toList) s'

variable {S E : Type} {step : S → Option E → S → Prop} {s₀ : S}

/-- An invariant of trace and state that holds initially and is kept by every step holds always. -/
theorem Exec.induct (I : List E → S → Prop) (h0 : I [] s₀)
    (hs : ∀ tr s e s', I tr s → step s e s' → I (tr ++ e.toList) s') {tr : List E} {s : S}
    (h : Exec step s₀ tr s) : I tr s := by
  induction h with
  | start => exact h0
  | step e _ st ih => exact hs _ _ e _ ih st

/-- Every prefix of the trace of an execution is the trace of an execution. -/
theorem Exec.pref {tr : List E} {s : S} (h : Exec step s₀ tr s) (a b : List E) (hab : tr = a ++ b) :
    ∃ s', Exec step s₀ a s' := by
  induction h generalizing b with
  | start =>
    have : a = [] := by cases a with | nil => rfl | cons => simp at hab
    subst this
    exact ⟨_, .start⟩
  | @step tr s s' e h st ih =>
    rcases List.eq_nil_or_concat b with rfl | ⟨b', x, rfl⟩
    · exact ⟨_, by rw [List.append_nil] at hab; rw [← hab]; exact .step e h st⟩
    · cases e with
      | none => exact ih (b' ++ [x]) (by simpa using hab)
      | some y =>
        rw [List.concat_eq_append, ← List.append_assoc] at hab
        exact ih b' (List.append_inj' hab rfl).1

/-- An execution whose trace contains an event can be cut at the step that emitted it. -/
theorem Exec.split {tr : List E} {s : S} (h : Exec step s₀ tr s) (a : List E) (e : E) (b : List E)
    (hab : tr = a ++ e :: b) :
    ∃ s1 s2, Exec step s₀ a s1 ∧ step s1 (some e) s2 ∧ Exec step s2 b s := by
  induction h generalizing b with
  | start => cases a <;> simp at hab
  | @step tr s s' e' h st ih =>
    cases e' with
    | none =>
      obtain ⟨s1, s2, h1, h2, h3⟩ := ih b (by simpa using hab)
      exact ⟨s1, s2, h1, h2, by simpa using Exec.step none h3 st⟩
    | some y =>
      rcases List.eq_nil_or_concat b with rfl | ⟨b', x, rfl⟩
      · have := List.append_inj' hab rfl
        obtain ⟨rfl, h2⟩ := this
        cases h2
        exact ⟨_, _, h, st, .start⟩
      · rw [List.concat_eq_append] at hab ⊢
        have hab' : tr ++ [y] = (a ++ e :: b') ++ [x] := by simpa using hab
        obtain ⟨h1, h2⟩ := List.append_inj' hab' rfl
        cases h2
        obtain ⟨s1, s2, g1, g2, g3⟩ := ih b' h1
        exact ⟨s1, s2, g1, g2, .step _ g3 st⟩

/-- Executions compose. -/
theorem Exec.append {s s' : S} {tr tr' : List E} (h : Exec step s₀ tr s) (h' : Exec step s tr' s') :
    Exec step s₀ (tr ++ tr') s' := by
  induction h' with
  | start => simpa using h
  | step e _ st ih => rw [← List.append_assoc]; exact .step e ih st

/-- Function update. -/
def upd {α : Type} (f : Nat → α) (t : Nat) (v : α) : Nat → α := fun t' => if t' = t then v else f t'

@[simp] theorem upd_same {α : Type} (f : Nat → α) (t : Nat) (v : α) : upd f t v t = v := by
  simp [upd]

theorem upd_other {α : Type} (f : Nat → α) {t t' : Nat} (v : α) (h : t' ≠ t) :
    upd f t v t' = f t' := by
  simp [upd, h]

/-! ## Counting goroutines in a given position -/

/-- `n` goroutines are in a position satisfying `P`. -/
def Census {α : Type} (thr : Nat → α) (P : α → Bool) (n : Nat) : Prop :=
  ∃ A : List Nat, A.Nodup ∧ (∀ t, t ∈ A ↔ P (thr t) = true) ∧ A.length = n

theorem census_zero {α : Type} {thr : Nat → α} {P : α → Bool} (h : ∀ t, P (thr t) = false) :
    Census thr P 0 := ⟨[], by simp, by simp [h], rfl⟩

theorem Census.eq_zero {α : Type} {thr : Nat → α} {P : α → Bool} {n : Nat} (c : Census thr P n)
    (h : ∀ t, P (thr t) = false) : n = 0 := by
  obtain ⟨A, _, h2, h3⟩ := c
  cases A with
  | nil => exact h3.symm
  | cons x xs => have := (h2 x).mp (by simp); rw [h x] at this; cases this

theorem Census.pos {α : Type} {thr : Nat → α} {P : α → Bool} {n : Nat} (c : Census thr P n) (t : Nat)
    (h : P (thr t) = true) : 0 < n := by
  obtain ⟨A, _, h2, h3⟩ := c
  have := (h2 t).mpr h
  cases A with
  | nil => cases this
  | cons x xs => simp at h3; omega

theorem Census.unique {α : Type} {thr : Nat → α} {P : α → Bool} {n m : Nat} (c : Census thr P n)
    (c' : Census thr P m) : n = m := by
  obtain ⟨A, h1, h2, rfl⟩ := c
  obtain ⟨B, g1, g2, rfl⟩ := c'
  have : A.Perm B := (List.perm_ext_iff_of_nodup h1 g1).mpr fun t => (h2 t).trans (g2 t).symm
  exact this.length_eq

/-- Moving one goroutine changes the number accordingly. -/
theorem Census.upd {α : Type} {thr : Nat → α} {P : α → Bool} {n : Nat} (c : Census thr P n) (t : Nat)
    (v : α) : ∃ m, Census (Go.upd thr t v) P m ∧ m + (P (thr t)).toNat = n + (P v).toNat := by
  obtain ⟨A, h1, h2, h3⟩ := c
  cases hold : P (thr t) <;> cases hnew : P v
  · refine ⟨n, ⟨A, h1, fun t' => ?_, h3⟩, by simp⟩
    by_cases ht : t' = t
    · subst ht; rw [upd_same, h2, hold, hnew]
    · rw [upd_other _ _ ht, h2]
  · refine ⟨n + 1, ⟨t :: A, ?_, fun t' => ?_, by simp [h3]⟩, by simp⟩
    · rw [List.nodup_cons]; exact ⟨fun h => by simp [h2, hold] at h, h1⟩
    · by_cases ht : t' = t
      · subst ht; simp [hnew]
      · rw [upd_other _ _ ht, List.mem_cons, h2]; simp [ht]
  · have hm := (h2 t).mpr hold
    refine ⟨(A.erase t).length, ⟨A.erase t, h1.erase t, fun t' => ?_, rfl⟩, ?_⟩
    · rw [h1.mem_erase_iff]
      by_cases ht : t' = t
      · subst ht; simp [hnew]
      · rw [upd_other _ _ ht, h2]; simp [ht]
    · rw [List.length_erase_of_mem hm, ← h3]
      have : 0 < A.length := List.length_pos_of_mem hm
      simp; omega
  · refine ⟨n, ⟨A, h1, fun t' => ?_, h3⟩, by simp⟩
    by_cases ht : t' = t
    · subst ht; rw [upd_same, h2, hold, hnew]
    · rw [upd_other _ _ ht, h2]

end Go
