import Verif.Proofs.DeltaReports

/-!
# C122: the deltas of a total that only grows are what it has grown by

False of the code if reports overlap: between reading a total and exchanging it nothing is locked.
-/

namespace Monkit.DeltaReports
open Go

/-- **C122, in any schedule**: the total that is passed on is what had been recorded when the report read it; the delta is the difference to another total that was read, which is to say to what had been recorded
at some other moment; and it is negative only if another report read its total during this one. -/
theorem C122_delta_partial {tr : List Ev} {s : State} {n v : Nat} {d : Option Int} (h : Exec Step init (tr ++ [.out n v d]) s) :
    ∃ p q, tr = p ++ .read n v :: q ∧ (∀ w, .read n w ∉ q) ∧ v = recorded p ∧
      ∀ x, d = some x → ∃ p' n' v' q', tr = p' ++ .read n' v' :: q' ∧ v' = recorded p' ∧ x = (v : Int) - v' ∧
        (x < 0 → n' ≠ n ∧ .read n' v' ∈ q) := by
  obtain ⟨s1, s2, h1, h2, -⟩ := h.split tr (.out n v d) [] rfl
  have hi := inv h1
  generalize he : Ev.out n v d = e at h2
  cases h2 with
  | out n' v' o hpc =>
    cases he
    have hp := hi.pc n
    rw [hpc] at hp
    obtain ⟨⟨p, q, rfl, hr, -⟩, hl⟩ := hp
    have hv := hi.reads p n v q rfl
    refine ⟨p, q, rfl, hr, hv, fun x hx => ?_⟩
    cases o with
    | none => cases hx
    | some l =>
      cases hx
      obtain ⟨n', hn'⟩ := mem_readTotals.1 (hl l rfl)
      obtain ⟨p', q', e'⟩ := List.append_of_mem hn'
      have hv' := hi.reads p' n' l q' e'
      refine ⟨p', n', l, q', e', hv', rfl, fun hx => ?_⟩
      dsimp only at hx
      have hq : Ev.read n' l ∈ q := by
        rcases List.mem_append.1 hn' with hm | hm
        · exfalso
          obtain ⟨a, b, rfl⟩ := List.append_of_mem hm
          have := hi.reads a n' l (b ++ .read n v :: q) (by simp)
          rw [recorded_append] at hv
          omega
        · rcases List.mem_cons.1 hm with hm | hm
          · cases hm; omega
          · exact hm
      exact ⟨fun hh => by subst hh; exact hr l hq, hq⟩
  | _ => cases he

/-- **C122, one report at a time**: the first report has no delta; the delta of every other is what has been recorded between its reading and that of the report before it, and so is not negative. -/
theorem C122_alone_partial {tr : List Ev} {s : State} {n v : Nat} {d : Option Int} (h : Exec Step init (tr ++ [.out n v d]) s)
    (ho : OneAtATime tr) :
    (d = none ∧ readTotals tr = [v]) ∨
    ∃ p n' v' q r, tr = p ++ .read n' v' :: (q ++ .read n v :: r) ∧ readTotals q = [] ∧ readTotals r = [] ∧ d = some (recorded q : Int) := by
  obtain ⟨s1, s2, h1, h2, -⟩ := h.split tr (.out n v d) [] rfl
  have hi := inv h1
  generalize he : Ev.out n v d = e at h2
  cases h2 with
  | out n' v' o hpc =>
    cases he
    rcases alone h1 ho with ⟨ha, -⟩ | ⟨n', v', rs, ha, hrs, h3⟩
    · rw [ha n] at hpc; cases hpc
    · have hn : n = n' := by
        by_contra hne
        rw [ha n hne] at hpc; cases hpc
      subst hn
      rcases h3 with h3 | h3
      · rw [h3.1] at hpc; cases hpc
      · rw [h3.1] at hpc; cases hpc
        have hp := hi.pc n
        rw [h3.1] at hp
        obtain ⟨⟨p, r, rfl, hr, -⟩, -⟩ := hp
        have hr0 : readTotals p = rs ∧ readTotals r = [] := by
          rcases List.eq_nil_or_concat (readTotals r) with e0 | ⟨l, x, e0⟩
          · rw [readTotals_append] at hrs
            simp only [readTotals, e0] at hrs
            exact ⟨(List.append_inj' hrs rfl).1, e0⟩
          · exfalso
            have hx : x ∈ readTotals r := by rw [e0]; simp
            obtain ⟨m, hm⟩ := mem_readTotals.1 hx
            obtain ⟨a, b, rfl⟩ := List.append_of_mem hm
            obtain ⟨d, hd⟩ := ho p n v a m x b rfl
            have hs := hi.pc n
            rw [h3.1] at hs
            obtain ⟨⟨p2, q2, e2, hr2, ho2⟩, -⟩ := hs
            -- the read of the report under way is unique after its last output
            have := congrArg List.length e2
            rcases List.append_eq_append_iff.1 e2 with ⟨c, hc1, hc2⟩ | ⟨c, hc1, hc2⟩
            · cases c with
              | nil =>
                simp at hc2
                exact ho2 v d (by rw [← hc2]; exact List.mem_append_left _ hd)
              | cons y c =>
                rw [List.cons_append] at hc2
                injection hc2 with _ hc2
                exact hr v (by rw [hc2]; simp)
            · cases c with
              | nil =>
                simp at hc2
                exact ho2 v d (by rw [hc2]; exact List.mem_append_left _ hd)
              | cons y c =>
                rw [List.cons_append] at hc2
                injection hc2 with _ hc2
                exact ho2 v d (by rw [hc2]; simp [hd])
        obtain ⟨rfl, hr0⟩ := hr0
        rcases List.eq_nil_or_concat (readTotals p) with e0 | ⟨l, x, e0⟩
        · rw [e0]; left; simp [hrs, e0]
        · right
          rw [List.concat_eq_append] at e0
          obtain ⟨a, n', b, rfl, hb⟩ := readTotals_last p e0
          refine ⟨a, n', x, b, r, by simp, hb, hr0, ?_⟩
          have h1 := hi.reads (a ++ .read n' x :: b) n v r rfl
          have h2 := hi.reads a n' x (b ++ .read n v :: r) (by simp)
          rw [e0]
          simp only [List.getLast?_append, List.getLast?_singleton, Option.some_or, Option.map_some, Option.some.injEq]
          rw [recorded_append] at h1
          simp only [recorded] at h1
          omega
  | _ => cases he

/-- C122 is false of the code: two reports go on at once; one reads the total, something is recorded, the other reads and exchanges, and then the first exchanges.  Its delta is -1, of a total that never
got smaller. -/
theorem C122_negative_violated : ∃ s, Exec Step init [.mark 5, .read 0 5, .out 0 5 none, .read 1 5, .mark 1, .read 2 6, .out 2 6 (some 1), .out 1 5 (some (-1))] s := by
  have h : Exec Step init _ _ := .start
  have h := Exec.step _ h (.mark _ 5)
  have h := Exec.step _ h (.read _ 0 rfl)
  have h := Exec.step _ h (.swap _ 0 _ rfl)
  have h := Exec.step _ h (.out _ 0 _ _ rfl)
  have h := Exec.step _ h (.read _ 1 rfl)
  have h := Exec.step _ h (.mark _ 1)
  have h := Exec.step _ h (.read _ 2 rfl)
  have h := Exec.step _ h (.swap _ 2 _ rfl)
  have h := Exec.step _ h (.out _ 2 _ _ rfl)
  have h := Exec.step _ h (.swap _ 1 _ rfl)
  have h := Exec.step _ h (.out _ 1 _ _ rfl)
  exact ⟨_, h⟩

/-- The hypotheses of `C122_alone_partial` can be met: two reports, one after the other. -/
example : ∃ s, Exec Step init ([.mark 5, .read 0 5, .out 0 5 none, .mark 2, .read 1 7] ++ [.out 1 7 (some 2)]) s ∧
    OneAtATime [.mark 5, .read 0 5, .out 0 5 none, .mark 2, .read 1 7] := by
  have h : Exec Step init _ _ := .start
  have h := Exec.step _ h (.mark _ 5)
  have h := Exec.step _ h (.read _ 0 rfl)
  have h := Exec.step _ h (.swap _ 0 _ rfl)
  have h := Exec.step _ h (.out _ 0 _ _ rfl)
  have h := Exec.step _ h (.mark _ 2)
  have h := Exec.step _ h (.read _ 1 rfl)
  have h := Exec.step _ h (.swap _ 1 _ rfl)
  have h := Exec.step _ h (.out _ 1 _ _ rfl)
  refine ⟨_, h, fun p n v q n' v' r e => ?_⟩
  rcases p with _ | ⟨_, _ | ⟨_, _ | ⟨_, _ | ⟨_, _ | ⟨_, p⟩⟩⟩⟩⟩ <;> simp at e
  · rcases q with _ | ⟨_, q⟩
    · simp at e
    · simp only [List.cons_append, List.cons.injEq] at e
      obtain ⟨-, ⟨rfl, rfl⟩, rfl, -⟩ := e
      exact ⟨none, List.mem_cons_self⟩

end Monkit.DeltaReports
