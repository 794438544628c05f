import Verif.Spec.DeltaReports
import Mathlib.Tactic.ByContra

/-! # Lemmas about reports with deltas -/

namespace Monkit.DeltaReports
open Go

theorem recorded_append (p q : List Ev) : recorded (p ++ q) = recorded p + recorded q := by
  induction p with
  | nil => simp [recorded]
  | cons e p ih => cases e <;> simp [recorded, ih] <;> omega

theorem readTotals_append (p q : List Ev) : readTotals (p ++ q) = readTotals p ++ readTotals q := by
  induction p with
  | nil => rfl
  | cons e p ih => cases e <;> simp [readTotals, ih]

theorem mem_readTotals {tr : List Ev} {v : Nat} : v ∈ readTotals tr ↔ ∃ n, .read n v ∈ tr := by
  induction tr with
  | nil => simp [readTotals]
  | cons e p ih => cases e <;> simp [readTotals, ih]; grind

theorem readTotals_last {l : List Nat} {x : Nat} (p : List Ev) (hp : readTotals p = l ++ [x]) :
    ∃ a n' b, p = a ++ .read n' x :: b ∧ readTotals b = [] := by
  induction p generalizing l with
  | nil => simp [readTotals] at hp
  | cons e p ih =>
    cases e with
    | mark k => obtain ⟨a, n', b, h1, h2⟩ := ih (l := l) (by simpa [readTotals] using hp); exact ⟨.mark k :: a, n', b, by rw [h1]; rfl, h2⟩
    | out k w d => obtain ⟨a, n', b, h1, h2⟩ := ih (l := l) (by simpa [readTotals] using hp); exact ⟨.out k w d :: a, n', b, by rw [h1]; rfl, h2⟩
    | read k w =>
      cases l with
      | nil =>
        simp [readTotals] at hp
        exact ⟨[], k, p, by rw [hp.1]; rfl, hp.2⟩
      | cons y l =>
        simp [readTotals] at hp
        obtain ⟨a, n', b, h1, h2⟩ := ih (l := l) hp.2; exact ⟨.read k w :: a, n', b, by rw [h1]; rfl, h2⟩

/-- Goroutine `n` is in the report in which it read `v`. -/
def Since (tr : List Ev) (n v : Nat) : Prop :=
  ∃ p q, tr = p ++ .read n v :: q ∧ (∀ w, .read n w ∉ q) ∧ ∀ w d, .out n w d ∉ q

theorem Since.more {tr n v} (h : Since tr n v) (e : Option Ev) (h1 : ∀ w, e ≠ some (.read n w)) (h2 : ∀ w d, e ≠ some (.out n w d)) :
    Since (tr ++ e.toList) n v := by
  obtain ⟨p, q, rfl, hr, ho⟩ := h
  refine ⟨p, q ++ e.toList, by simp, fun w hh => ?_, fun w d hh => ?_⟩
  · rcases List.mem_append.1 hh with hh | hh
    · exact hr _ hh
    · exact h1 w (by simpa using hh)
  · rcases List.mem_append.1 hh with hh | hh
    · exact ho _ _ hh
    · exact h2 w d (by simpa using hh)

/-- What is known of a report. -/
def PCok (tr : List Ev) (n : Nat) : PC → Prop
  | .idle => True
  | .read v => Since tr n v
  | .swapped v o => Since tr n v ∧ ∀ l, o = some l → l ∈ readTotals tr

theorem PCok.more {tr n c} (h : PCok tr n c) (e : Option Ev) (h1 : ∀ w, e ≠ some (.read n w)) (h2 : ∀ w d, e ≠ some (.out n w d)) :
    PCok (tr ++ e.toList) n c := by
  cases c with
  | idle => trivial
  | read v => exact Since.more h e h1 h2
  | swapped v o => exact ⟨h.1.more e h1 h2, fun l hl => by rw [readTotals_append]; exact List.mem_append_left _ (h.2 l hl)⟩

/-- What holds at any time. -/
structure Inv (tr : List Ev) (s : State) : Prop where
  total : s.total = recorded tr
  reads : ∀ p n v q, tr = p ++ .read n v :: q → v = recorded p
  last : ∀ l, s.last = some l → l ∈ readTotals tr
  pc : ∀ n, PCok tr n (s.pc n)

theorem inv_step (tr : List Ev) (s : State) (e : Option Ev) (s' : State) (h : Inv tr s) (st : Step s e s') : Inv (tr ++ e.toList) s' := by
  have keep : (∀ n w, e ≠ some (.read n w)) → ∀ p n v q, tr ++ e.toList = p ++ .read n v :: q → v = recorded p := by
    intro hne p n v q hq
    cases e with
    | none => exact h.reads p n v q (by simpa using hq)
    | some x =>
      rcases List.eq_nil_or_concat q with rfl | ⟨q', y, rfl⟩
      · have := List.append_inj' hq rfl
        simp at this
        exact absurd (by rw [this.2]) (hne n v)
      · rw [List.concat_eq_append] at hq
        have : tr ++ [x] = (p ++ .read n v :: q') ++ [y] := by simpa using hq
        exact h.reads p n v q' (List.append_inj' this rfl).1
  cases st with
  | mark k =>
    refine ⟨by rw [recorded_append, ← h.total]; simp [recorded], keep (by simp), fun l hl => ?_, fun n => (h.pc n).more _ (by simp) (by simp)⟩
    rw [readTotals_append]; exact List.mem_append_left _ (h.last l hl)
  | read n hpc =>
    refine ⟨by rw [recorded_append, ← h.total]; simp [recorded], fun p n' v q hq => ?_, fun l hl => ?_, fun k => ?_⟩
    · rcases List.eq_nil_or_concat q with rfl | ⟨q', y, rfl⟩
      · have := List.append_inj' hq rfl
        simp at this
        rw [← this.1, ← this.2.2]; exact h.total
      · rw [List.concat_eq_append] at hq
        have : tr ++ [.read n s.total] = (p ++ .read n' v :: q') ++ [y] := by simpa using hq
        exact h.reads p n' v q' (List.append_inj' this rfl).1
    · rw [readTotals_append]; exact List.mem_append_left _ (h.last l hl)
    · by_cases hk : k = n
      · subst hk
        simp only [upd_same]
        exact ⟨tr, [], rfl, by simp, by simp⟩
      · simp only [upd_other _ _ hk]
        exact (h.pc k).more _ (fun w hw => by cases hw; exact hk rfl) (by simp)
  | swap n v hpc =>
    have hp := h.pc n
    rw [hpc] at hp
    simp only [Option.toList, List.append_nil]
    refine ⟨h.total, h.reads, fun l hl => ?_, fun k => ?_⟩
    · cases hl
      obtain ⟨p, q, rfl, -⟩ := hp
      rw [mem_readTotals]; exact ⟨n, by simp⟩
    · by_cases hk : k = n
      · subst hk
        simp only [upd_same]
        exact ⟨hp, h.last⟩
      · simp only [upd_other _ _ hk]
        exact h.pc k
  | out n v o hpc =>
    refine ⟨by rw [recorded_append, ← h.total]; simp [recorded], keep (by simp), fun l hl => ?_, fun k => ?_⟩
    · rw [readTotals_append]; exact List.mem_append_left _ (h.last l hl)
    · by_cases hk : k = n
      · subst hk; simp only [upd_same]; trivial
      · simp only [upd_other _ _ hk]
        exact (h.pc k).more _ (by simp) (fun w d hw => by cases hw; exact hk rfl)

theorem inv {tr : List Ev} {s : State} (h : Exec Step init tr s) : Inv tr s :=
  h.induct Inv ⟨rfl, fun p _ _ _ h => by simp at h, fun l h => by simp [init] at h, fun _ => by simp only [init, PCok]⟩ inv_step

theorem OneAtATime.pre {p q : List Ev} (h : OneAtATime (p ++ q)) : OneAtATime p :=
  fun p' n v q' n' v' r e => h p' n v q' n' v' (r ++ q) (by rw [e]; simp)

/-- Reports one at a time: nobody is in a report, or one is. -/
def Alone (tr : List Ev) (s : State) : Prop :=
  ((∀ n, s.pc n = .idle) ∧ s.last = (readTotals tr).getLast?) ∨
  (∃ n v rs, (∀ k, k ≠ n → s.pc k = .idle) ∧ readTotals tr = rs ++ [v] ∧
    ((s.pc n = .read v ∧ s.last = rs.getLast?) ∨ (s.pc n = .swapped v rs.getLast? ∧ s.last = some v)))

theorem alone {tr : List Ev} {s : State} (h : Exec Step init tr s) (ho : OneAtATime tr) : Alone tr s := by
  induction h with
  | start => exact .inl ⟨fun _ => rfl, rfl⟩
  | @step tr s s' e h st ih =>
    have hi := inv h
    have ih := ih ho.pre
    cases st with
    | mark k =>
      have e : readTotals (tr ++ (some (Ev.mark k)).toList) = readTotals tr := by rw [readTotals_append]; simp [readTotals]
      simpa only [Alone, e] using ih
    | read n hpc =>
      have e : readTotals (tr ++ (some (Ev.read n s.total)).toList) = readTotals tr ++ [s.total] := by rw [readTotals_append]; simp [readTotals]
      rcases ih with ⟨h1, h2⟩ | ⟨n', v, rs, h1, h2, h3⟩
      · exact .inr ⟨n, s.total, readTotals tr, fun k hk => by simp only [upd_other _ _ hk]; exact h1 k, e, .inl ⟨by simp only [upd_same], h2⟩⟩
      · exfalso
        have : Since tr n' v := by
          have hp := hi.pc n'
          rcases h3 with h3 | h3
          · rw [h3.1] at hp; exact hp
          · rw [h3.1] at hp; exact hp.1
        obtain ⟨p, q, rfl, -, hq⟩ := this
        obtain ⟨d, hd⟩ := ho p n' v q n s.total [] (by simp)
        exact hq _ _ hd
    | swap n v hpc =>
      rcases ih with ⟨h1, h2⟩ | ⟨n', v', rs, h1, h2, h3⟩
      · rw [h1 n] at hpc; cases hpc
      · have hn : n = n' := by
          by_contra hne
          rw [h1 n hne] at hpc; cases hpc
        subst hn
        rcases h3 with h3 | h3
        · rw [h3.1] at hpc; cases hpc
          refine .inr ⟨n, v, rs, fun k hk => by simp only [upd_other _ _ hk]; exact h1 k hk, by simpa using h2, .inr ⟨?_, rfl⟩⟩
          simp only [upd_same, h3.2]
        · rw [h3.1] at hpc; cases hpc
    | out n v o hpc =>
      have e : readTotals (tr ++ (some (Ev.out n v (o.map fun l : Nat => (v : Int) - (l : Int)))).toList) = readTotals tr := by rw [readTotals_append]; simp [readTotals]
      rcases ih with ⟨h1, h2⟩ | ⟨n', v', rs, h1, h2, h3⟩
      · rw [h1 n] at hpc; cases hpc
      · have hn : n = n' := by
          by_contra hne
          rw [h1 n hne] at hpc; cases hpc
        subst hn
        rcases h3 with h3 | h3
        · rw [h3.1] at hpc; cases hpc
        · rw [h3.1] at hpc; cases hpc
          refine .inl ⟨fun k => ?_, by rw [e, h2]; simpa using h3.2⟩
          by_cases hk : k = n
          · subst hk; simp only [upd_same]
          · simp only [upd_other _ _ hk]; exact h1 k hk

end Monkit.DeltaReports
