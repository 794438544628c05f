import Verif.Spec.Returns
import Mathlib.Tactic.ByContra

namespace Returns
open Go
variable {S E P : Type} {step : S → Option E → S → Prop} {pc : S → Nat → P} {idle : P → Prop}

/-- Only finitely many goroutines have ever been in a call. -/
theorem finite {s₀ : S} (h0 : ∀ t, idle (pc s₀ t)) (one : ∀ tr s e s', Exec step s₀ tr s → step s e s' → ∃ t, ∀ u, u ≠ t → pc s' u = pc s u)
    {tr s} (h : Exec step s₀ tr s) : ∃ N, ∀ t, N ≤ t → idle (pc s t) := by
  induction h with
  | start => exact ⟨0, fun t _ => h0 t⟩
  | @step tr s s' e h st ih =>
    obtain ⟨N, hN⟩ := ih
    obtain ⟨t, ht⟩ := one _ _ _ _ h st
    refine ⟨max N (t + 1), fun u hu => ?_⟩
    rw [ht u (by omega)]
    exact hN u (by omega)

theorem run_exec {s₀ : S} {tr s} (h : Exec step s₀ tr s) {n s'} (r : Run step pc idle s n s') : ∃ tr', Exec step s₀ tr' s' := by
  induction r with
  | start => exact ⟨_, h⟩
  | move _ st _ _ ih => obtain ⟨tr', h'⟩ := ih; exact ⟨_, .step _ h' st⟩
  | other _ st _ ih => obtain ⟨tr', h'⟩ := ih; exact ⟨_, .step _ h' st⟩

/-- Somebody has the mutex if it is held. -/
theorem owner_upd {P : Type} {locked : P → Bool} {thr : Nat → P} {t : Nat} {v : P} {held held' : Bool} (ih : held = true → ∃ u, locked (thr u) = true)
    (h : held' = true → locked v = true ∨ (held = true ∧ locked (thr t) = false)) : held' = true → ∃ u, locked (upd thr t v u) = true := by
  intro hh
  rcases h hh with h | ⟨h1, h2⟩
  · exact ⟨t, by simp [h]⟩
  · obtain ⟨u, hu⟩ := ih h1
    refine ⟨u, ?_⟩
    rw [upd_other _ _ (by rintro rfl; rw [hu] at h2; cases h2)]
    exact hu

/-- Sum over the goroutines below `N`. -/
def sumTo : Nat → (Nat → Nat) → Nat
  | 0, _ => 0
  | N + 1, f => sumTo N f + f N

theorem sum_le (N : Nat) (f g : Nat → Nat) (h : ∀ t, t < N → f t ≤ g t) : sumTo N f ≤ sumTo N g := by
  induction N with
  | zero => simp [sumTo]
  | succ N ih =>
    have := ih fun t ht => h t (by omega)
    have := h N (by omega)
    simp only [sumTo]
    omega

/-- One goroutine loses `k`, the others gain at most `d` each. -/
theorem sum_trade (N : Nat) (f g : Nat → Nat) (d k : Nat) {t : Nat} (ht : t < N) (h : ∀ u, u < N → u ≠ t → f u ≤ g u + d) (hl : f t + k ≤ g t) :
    sumTo N f + k ≤ sumTo N g + (N - 1) * d := by
  induction N with
  | zero => omega
  | succ N ih =>
    simp only [sumTo, Nat.add_sub_cancel]
    rcases Nat.lt_succ_iff_lt_or_eq.1 ht with h1 | h1
    · have := ih h1 (fun u hu hne => h u (by omega) hne)
      have := h N (by omega) (by omega)
      obtain ⟨M, rfl⟩ : ∃ M, N = M + 1 := ⟨N - 1, by omega⟩
      simp only [Nat.add_sub_cancel, Nat.succ_mul] at *
      omega
    · subst h1
      have : ∀ M, M ≤ t → sumTo M f ≤ sumTo M g + M * d := by
        intro M hM
        induction M with
        | zero => simp [sumTo]
        | succ M ih =>
          have := ih (by omega) 
          have := h M (by omega) (by omega)
          simp only [sumTo, Nat.succ_mul]
          omega
      have := this t (Nat.le_refl _)
      omega

theorem sum_lt (N : Nat) (f g : Nat → Nat) (h : ∀ t, t < N → f t ≤ g t) {t : Nat} (ht : t < N) (hl : f t < g t) : sumTo N f < sumTo N g := by
  have := sum_trade N f g 0 1 ht (fun u hu _ => h u hu) hl
  omega

/-- Only one goroutine changes. -/
theorem sum_trade' (N : Nat) (f g : Nat → Nat) {t : Nat} (ht : t < N) (h : ∀ u, u < N → u ≠ t → f u = g u) : sumTo N f + g t = sumTo N g + f t := by
  induction N with
  | zero => omega
  | succ N ih =>
    simp only [sumTo]
    rcases Nat.lt_succ_iff_lt_or_eq.1 ht with h1 | h1
    · have := ih h1 (fun u hu hne => h u (by omega) hne)
      have := h N (by omega) (by omega)
      omega
    · subst h1
      have : ∀ M, M ≤ t → sumTo M f = sumTo M g := by
        intro M hM
        induction M with
        | zero => rfl
        | succ M ih =>
          have := ih (by omega)
          have := h M (by omega) (by omega)
          simp only [sumTo]
          omega
      have := this t (Nat.le_refl _)
      omega

/-- Termination by a potential that sums up the goroutines below any bound. -/
theorem allReturn_pot {s₀ : S} (h0 : ∀ t, idle (pc s₀ t)) (one : ∀ tr s e s', Exec step s₀ tr s → step s e s' → ∃ t, ∀ u, u ≠ t → pc s' u = pc s u)
    (pot : Nat → S → Nat)
    (dec : ∀ tr s e s' N t, Exec step s₀ tr s → step s e s' → (∀ u, N ≤ u → idle (pc s u)) → t < N → ¬ idle (pc s t) → pc s' t ≠ pc s t →
      (∀ u, u ≠ t → pc s' u = pc s u) → pot N s' < pot N s)
    (same : ∀ tr s e s' N, Exec step s₀ tr s → step s e s' → (∀ u, N ≤ u → idle (pc s u)) → pc s' = pc s → pot N s' ≤ pot N s)
    (go : ∀ tr s t, Exec step s₀ tr s → ¬ idle (pc s t) → ∃ u e s', ¬ idle (pc s u) ∧ step s e s' ∧ pc s' u ≠ pc s u)
    {tr s} (h : Exec step s₀ tr s) : AllReturn step pc idle s := by
  obtain ⟨N, hN⟩ := finite h0 one h
  have key : ∀ n s', Run step pc idle s n s' → (∀ t, N ≤ t → idle (pc s' t)) ∧ n + pot N s' ≤ pot N s := by
    intro n s' r
    induction r with
    | start => exact ⟨hN, by simp⟩
    | @move n s' e s'' r st nc hne ih =>
      obtain ⟨h1, h2⟩ := ih
      obtain ⟨tr', h'⟩ := run_exec h r
      refine ⟨fun t ht => by rw [nc t (h1 t ht)]; exact h1 t ht, ?_⟩
      obtain ⟨t, ht⟩ : ∃ t, pc s'' t ≠ pc s' t := by
        by_contra hh
        exact hne (funext fun t => Classical.not_not.1 fun hx => hh ⟨t, hx⟩)
      obtain ⟨v, hv⟩ := one _ _ _ _ h' st
      have htv : t = v := by
        by_contra hh
        exact ht (hv t hh)
      subst htv
      have := dec _ _ _ _ N t h' st h1 (by
        by_contra hh
        exact ht (nc t (h1 t (by omega)))) (fun hi => ht (nc t hi)) ht hv
      omega
    | @other n s' e s'' r st heq ih =>
      obtain ⟨h1, h2⟩ := ih
      obtain ⟨tr', h'⟩ := run_exec h r
      have := same _ _ _ _ N h' st h1 heq
      exact ⟨fun t ht => by rw [heq]; exact h1 t ht, by omega⟩
  refine ⟨pot N s, fun n s' r => ⟨by have := (key n s' r).2; omega, fun ⟨t, ht⟩ => ?_⟩⟩
  obtain ⟨tr', h'⟩ := run_exec h r
  obtain ⟨u, e, s'', hu, st, hm⟩ := go _ _ t h' ht
  obtain ⟨v, hv⟩ := one _ _ _ _ h' st
  have huv : u = v := by
    by_contra hh
    exact hm (hv u hh)
  subst huv
  exact ⟨e, s'', st, fun w hw => hv w (by rintro rfl; exact hu hw), fun hh => hm (by rw [hh])⟩

/-- Termination by ranks of positions that depend on the size of something shared, which only calls under way can make larger. -/
theorem allReturn_size {s₀ : S} (h0 : ∀ t, idle (pc s₀ t)) (size : S → Nat) (grow : P → Nat) (rank : Nat → P → Nat)
    (mono : ∀ M M' p, M ≤ M' → rank M p ≤ rank M' p)
    (one : ∀ tr s e s', Exec step s₀ tr s → step s e s' → ∃ t, (∀ u, u ≠ t → pc s' u = pc s u) ∧ (¬ idle (pc s t) → pc s' t ≠ pc s t →
      size s' + grow (pc s' t) ≤ size s + grow (pc s t) ∧ ∀ M, size s ≤ M → rank M (pc s' t) < rank M (pc s t)))
    (same : ∀ tr s e s', Exec step s₀ tr s → step s e s' → pc s' = pc s → size s' ≤ size s)
    (go : ∀ tr s t, Exec step s₀ tr s → ¬ idle (pc s t) → ∃ u e s', ¬ idle (pc s u) ∧ step s e s' ∧ pc s' u ≠ pc s u)
    {tr s} (h : Exec step s₀ tr s) : AllReturn step pc idle s := by
  refine allReturn_pot h0 (fun tr s e s' h st => ?_) (fun N s => sumTo N fun t => rank (size s + sumTo N fun t => grow (pc s t)) (pc s t))
    (fun tr s e s' N t h st hN ht hb hm ho => ?_)
    (fun tr s e s' N h st hN heq => ?_) go h
  · obtain ⟨t, ht, _⟩ := one tr s e s' h st
    exact ⟨t, ht⟩
  · obtain ⟨v, hv, hd⟩ := one tr s e s' h st
    have htv : t = v := by
      by_contra hh
      exact hm (hv t hh)
    subst htv
    obtain ⟨h1, h2⟩ := hd hb hm
    have hM : size s' + sumTo N (fun t => grow (pc s' t)) ≤ size s + sumTo N (fun t => grow (pc s t)) := by
      rcases Nat.le_total (grow (pc s t)) (grow (pc s' t)) with hg | hg
      · have := sum_trade' N (fun u => grow (pc s' u)) (fun u => grow (pc s u)) ht (fun u _ hu => by rw [ho u hu])
        omega
      · have := sum_trade' N (fun u => grow (pc s' u)) (fun u => grow (pc s u)) ht (fun u _ hu => by rw [ho u hu])
        omega
    refine sum_lt N _ _ (fun u hu => ?_) ht (Nat.lt_of_le_of_lt (mono _ _ _ hM) (h2 _ (by omega)))
    by_cases hut : u = t
    · subst hut
      exact Nat.le_of_lt (Nat.lt_of_le_of_lt (mono _ _ _ hM) (h2 _ (by omega)))
    · rw [ho u hut]; exact mono _ _ _ hM
  · rw [heq]
    exact sum_le N _ _ fun t _ => mono _ _ _ (Nat.add_le_add_right (same tr s e s' h st heq) _)

/-- Termination by ranks of positions. -/
theorem allReturn {s₀ : S} (h0 : ∀ t, idle (pc s₀ t)) (rank : P → Nat)
    (one : ∀ tr s e s', Exec step s₀ tr s → step s e s' → ∃ t, (∀ u, u ≠ t → pc s' u = pc s u) ∧
      (¬ idle (pc s t) → pc s' t ≠ pc s t → rank (pc s' t) < rank (pc s t)))
    (go : ∀ tr s t, Exec step s₀ tr s → ¬ idle (pc s t) → ∃ u e s', ¬ idle (pc s u) ∧ step s e s' ∧ pc s' u ≠ pc s u)
    {tr s} (h : Exec step s₀ tr s) : AllReturn step pc idle s := by
  refine allReturn_pot h0 (fun tr s e s' h st => ?_) (fun N s => sumTo N fun t => rank (pc s t)) (fun tr s e s' N t h st hN ht hb hm ho => ?_)
    (fun tr s e s' N h st hN heq => by rw [heq]; exact Nat.le_refl _) go h
  · obtain ⟨t, ht, _⟩ := one tr s e s' h st
    exact ⟨t, ht⟩
  · obtain ⟨v, hv, hd⟩ := one tr s e s' h st
    have htv : t = v := by
      by_contra hh
      exact hm (hv t hh)
    subst htv
    refine sum_lt N _ _ (fun u hu => ?_) ht (hd hb hm)
    by_cases hut : u = t
    · subst hut
      exact Nat.le_of_lt (hd hb hm)
    · rw [ho u hut]; exact Nat.le_refl _

end Returns
