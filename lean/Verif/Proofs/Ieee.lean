import Verif.Go.Ieee
import Verif.Proofs.Float
import Mathlib.Tactic.ByContra

/-!
# Lemmas on IEEE rounding with subnormal numbers and overflow
-/

namespace Go.Float

theorem rhe_mono {x y : ℚ} (h : x ≤ y) : rhe x ≤ rhe y := by
  rcases eq_or_lt_of_le h with rfl | h
  · exact le_refl _
  by_contra hc
  push Not at hc
  have h1 := (abs_le.1 (rhe_half x)).2
  have h2 := (abs_le.1 (rhe_half y)).1
  have h3 : (rhe y : ℚ) + 1 ≤ rhe x := by exact_mod_cast hc
  linarith

theorem rhe_neg (x : ℚ) : rhe (-x) = -rhe x := by
  have h1 := Int.floor_le x
  have h2 := Int.lt_floor_add_one x
  rcases eq_or_lt_of_le h1 with h | h
  · rw [← h, rhe_int]
    have := rhe_int (-⌊x⌋)
    push_cast at this
    exact this
  · have hf : ⌊-x⌋ = -⌊x⌋ - 1 := by
      rw [Int.floor_eq_iff]; push_cast; constructor <;> linarith
    unfold rhe
    rw [hf]
    push_cast
    split_ifs <;> first | omega | (exfalso; linarith)

theorem rn_neg (p : ℕ) (x : ℚ) : rn p (-x) = -rn p x := by
  unfold rn
  have : ulpExp p (-x) = ulpExp p x := by unfold ulpExp; rw [abs_neg]
  rw [this, neg_div, rhe_neg]
  by_cases h : x = 0
  · simp [h]
  · simp [h]

section
variable {f : Format} (hp : 0 < f.p)
include hp

theorem small_bounds {x : ℚ} (h : |x| ≤ (2 : ℚ) ^ (f.low + f.p - 1)) : |rhe (x / (2 : ℚ) ^ f.low)| ≤ 2 ^ (f.p - 1) := by
  have hl := two_zpow_pos f.low
  have e : (2 : ℚ) ^ (f.low + f.p - 1) = 2 ^ (f.p - 1) * (2 : ℚ) ^ f.low := by
    rw [show f.low + f.p - 1 = ((f.p - 1 : ℕ) : ℤ) + f.low by omega, zpow_add₀ (by norm_num), zpow_natCast]
  have h2 : |x / (2 : ℚ) ^ f.low| ≤ ((2 ^ (f.p - 1) : ℕ) : ℚ) := by
    rw [abs_div, abs_of_pos hl, div_le_iff₀ hl]
    push_cast
    rw [← e]; exact h
  have := rhe_abs_le h2
  exact_mod_cast this

theorem near_rep (x : ℚ) : Rep f.p (f.near x) := by
  unfold Format.near
  split
  · next h => exact rep_of_le (le_trans (small_bounds hp h.le) (pow_le_pow_right₀ (by norm_num) (by omega))) hp
  · exact rn_rep hp x

theorem near_multiple (x : ℚ) : ∃ n : ℤ, f.near x = (n : ℚ) * (2 : ℚ) ^ f.low := by
  unfold Format.near
  split
  · exact ⟨_, rfl⟩
  · next h =>
    push Not at h
    have h1 : (2 : ℚ) ^ (f.low + f.p - 1) ≤ |rn f.p x| := by
      have r := rep_two_zpow hp (f.low + f.p - 1)
      rcases le_total 0 x with h0 | h0
      · rw [abs_of_nonneg h0] at h
        have := rn_mono hp h
        rw [rn_of_rep hp r] at this
        exact le_trans this (le_abs_self _)
      · rw [abs_of_nonpos h0] at h
        have := rn_mono hp (show x ≤ -(2 : ℚ) ^ (f.low + f.p - 1) by linarith)
        rw [rn_of_rep hp (rep_neg r)] at this
        have h2 := neg_le_abs (rn f.p x)
        linarith
    obtain ⟨n, hn⟩ := rep_multiple (rn_rep hp x) h1
    exact ⟨n, by rw [hn, show f.low + f.p - 1 - f.p + 1 = f.low by ring]⟩

theorem near_abs_le {x : ℚ} {e : ℤ} (he : f.low + f.p - 1 ≤ e) (h : |x| ≤ (2 : ℚ) ^ e) : |f.near x| ≤ (2 : ℚ) ^ e := by
  unfold Format.near
  split
  · next hs =>
    have h1 := small_bounds hp hs.le
    have hl := two_zpow_pos f.low
    rw [abs_mul, abs_of_pos hl]
    have h2 : |(rhe (x / (2 : ℚ) ^ f.low) : ℚ)| ≤ 2 ^ (f.p - 1) := by exact_mod_cast h1
    refine le_trans (mul_le_mul_of_nonneg_right h2 hl.le) ?_
    rw [← zpow_natCast, ← zpow_add₀ (by norm_num)]
    exact zpow_le_zpow_right₀ (by norm_num) (by omega)
  · have r := rep_two_zpow hp e
    obtain ⟨a, b⟩ := abs_le.1 h
    have h1 := rn_mono hp a
    have h2 := rn_mono hp b
    rw [rn_of_rep hp (rep_neg r)] at h1
    rw [rn_of_rep hp r] at h2
    exact abs_le.2 ⟨h1, h2⟩

theorem near_mono {x y : ℚ} (h : x ≤ y) : f.near x ≤ f.near y := by
  have hl := two_zpow_pos f.low
  have r := rep_two_zpow hp (f.low + f.p - 1)
  have hx : |x| < (2 : ℚ) ^ (f.low + f.p - 1) → |f.near x| ≤ (2 : ℚ) ^ (f.low + f.p - 1) := fun h => near_abs_le hp (le_refl _) h.le
  have hy : |y| < (2 : ℚ) ^ (f.low + f.p - 1) → |f.near y| ≤ (2 : ℚ) ^ (f.low + f.p - 1) := fun h => near_abs_le hp (le_refl _) h.le
  by_cases h1 : |x| < (2 : ℚ) ^ (f.low + f.p - 1) <;> by_cases h2 : |y| < (2 : ℚ) ^ (f.low + f.p - 1)
  · unfold Format.near
    rw [if_pos h1, if_pos h2]
    have := rhe_mono (div_le_div_of_nonneg_right h hl.le)
    exact mul_le_mul_of_nonneg_right (by exact_mod_cast this) hl.le
  · refine le_trans (abs_le.1 (hx h1)).2 ?_
    unfold Format.near
    rw [if_neg h2]
    push Not at h2
    have h3 : (2 : ℚ) ^ (f.low + f.p - 1) ≤ y := by
      rcases le_abs.1 h2 with h3 | h3
      · exact h3
      · have := (abs_lt.1 h1).1; linarith
    have := rn_mono hp h3
    rwa [rn_of_rep hp r] at this
  · refine le_trans ?_ (abs_le.1 (hy h2)).1
    unfold Format.near
    rw [if_neg h1]
    push Not at h1
    have h3 : x ≤ -(2 : ℚ) ^ (f.low + f.p - 1) := by
      rcases le_abs.1 h1 with h3 | h3
      · have := (abs_lt.1 h2).2; linarith
      · linarith
    have := rn_mono hp h3
    rwa [rn_of_rep hp (rep_neg r)] at this
  · unfold Format.near
    rw [if_neg h1, if_neg h2]
    exact rn_mono hp h

theorem near_of_rep {x : ℚ} (h : Rep f.p x) (h2 : ∃ n : ℤ, x = (n : ℚ) * (2 : ℚ) ^ f.low) : f.near x = x := by
  unfold Format.near
  split
  · obtain ⟨n, rfl⟩ := h2
    rw [mul_div_cancel_right₀ _ (two_zpow_pos f.low).ne', rhe_int]
  · exact rn_of_rep hp h

theorem near_zero : f.near 0 = 0 := near_of_rep hp (rep_zero _) ⟨0, by simp⟩

theorem near_nonneg {x : ℚ} (h : 0 ≤ x) : 0 ≤ f.near x := by
  have := near_mono hp h
  rwa [near_zero hp] at this

theorem near_two_zpow {e : ℤ} (h : f.low ≤ e) : f.near ((2 : ℚ) ^ e) = (2 : ℚ) ^ e := by
  refine near_of_rep hp (rep_two_zpow hp e) ⟨2 ^ (e - f.low).toNat, ?_⟩
  push_cast
  rw [← zpow_natCast, ← zpow_add₀ (by norm_num)]
  congr 1
  omega

end

theorem near_eq_rn {f : Format} {x : ℚ} (h : x = 0 ∨ (2 : ℚ) ^ (f.low + f.p - 1) ≤ |x|) : f.near x = rn f.p x := by
  unfold Format.near
  rcases h with rfl | h
  · rw [rn_zero]; split
    · have := rhe_int 0
      simp at this
      simp [this]
    · rfl
  · rw [if_neg (by push Not; exact h)]

theorem round_fin {f : Format} {x : ℚ} (h : |f.near x| < (2 : ℚ) ^ f.top) : f.round x = .fin (f.near x) := if_pos h

/-- A float is converted without overflow if it is closer to the greatest float than to the power of two above it. -/
theorem near_lt_top {f : Format} (hp : 1 < f.p) (ht : f.low + f.p ≤ f.top) {x : ℚ} (h : |x| < (2 : ℚ) ^ f.top - (2 : ℚ) ^ (f.top - f.p - 1)) :
    |f.near x| < (2 : ℚ) ^ f.top := by
  have hp0 : 0 < f.p := by omega
  have key : ∀ x : ℚ, 0 ≤ x → x < (2 : ℚ) ^ f.top - (2 : ℚ) ^ (f.top - f.p - 1) → rn f.p x < (2 : ℚ) ^ f.top := by
    intro x h0 hx
    by_contra hc
    push Not at hc
    have hu := two_zpow_pos (f.top - f.p - 1)
    have e1 : (2 : ℚ) ^ (f.top - f.p) = 2 * (2 : ℚ) ^ (f.top - f.p - 1) := by
      rw [show f.top - f.p = (f.top - f.p - 1) + 1 by ring, zpow_add₀ (by norm_num), zpow_one]; ring_nf
    have e2 : (2 : ℚ) ^ f.top = 2 ^ f.p * (2 : ℚ) ^ (f.top - f.p) := by
      rw [← zpow_natCast, ← zpow_add₀ (by norm_num)]; congr 1; ring
    have r : Rep f.p ((2 : ℚ) ^ f.top - (2 : ℚ) ^ (f.top - f.p)) := by
      refine ⟨2 ^ f.p - 1, f.top - f.p, ?_, by push_cast; rw [e2]; ring⟩
      have : (1 : ℤ) ≤ 2 ^ f.p := one_le_pow₀ (by norm_num)
      rw [abs_of_nonneg (by omega)]; omega
    rcases le_or_gt x ((2 : ℚ) ^ f.top - (2 : ℚ) ^ (f.top - f.p)) with hle | hgt
    · have := rn_mono hp0 hle
      rw [rn_of_rep hp0 r] at this
      have := two_zpow_pos (f.top - f.p)
      linarith
    · have h1 := rn_nearest hp0 x r
      rw [abs_of_neg (a := (2 : ℚ) ^ f.top - (2 : ℚ) ^ (f.top - f.p) - x) (by linarith), abs_of_nonneg (by linarith)] at h1
      rw [e1] at h1
      linarith
  unfold Format.near
  split
  · next hs =>
    have h1 := near_abs_le (f := f) hp0 (e := f.low + f.p - 1) (le_refl _) hs.le
    unfold Format.near at h1
    rw [if_pos hs] at h1
    exact lt_of_le_of_lt h1 (zpow_lt_zpow_right₀ (by norm_num) (by omega))
  · rcases le_total 0 x with h0 | h0
    · rw [abs_of_nonneg h0] at h
      rw [abs_of_nonneg (rn_nonneg hp0 h0)]
      exact key x h0 h
    · rw [abs_of_nonpos h0] at h
      have e : rn f.p x = -rn f.p (-x) := by
        rw [rn_neg, neg_neg]
      rw [e, abs_neg, abs_of_nonneg (rn_nonneg hp0 (by linarith))]
      exact key (-x) (by linarith) h

end Go.Float
