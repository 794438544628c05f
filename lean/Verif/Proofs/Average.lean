import Verif.Proofs.FloatDist
import Verif.Proofs.DistAvg
import Mathlib.Tactic.Linarith
import Mathlib.Tactic.Positivity
import Mathlib.Tactic.Ring
import Mathlib.Tactic.FieldSimp

/-!
# Rounding errors of sums and averages of floats (for C113)
-/

namespace Monkit.Dist
open Go.Float

/-- The error of one rounding: relative, or absolute near zero. -/
theorem near_error {f : Format} (x : ℚ) : |f.near x - x| ≤ |x| / (2 : ℚ) ^ f.p + (2 : ℚ) ^ f.low := by
  have hl := two_zpow_pos f.low
  unfold Format.near
  split
  · have h := rhe_half (x / (2 : ℚ) ^ f.low)
    have e : (rhe (x / (2 : ℚ) ^ f.low) : ℚ) * (2 : ℚ) ^ f.low - x = ((rhe (x / (2 : ℚ) ^ f.low) : ℚ) - x / (2 : ℚ) ^ f.low) * (2 : ℚ) ^ f.low := by
      rw [sub_mul, div_mul_cancel₀ _ hl.ne']
    rw [e, abs_mul, abs_of_pos hl]
    have h1 : 0 ≤ |x| / (2 : ℚ) ^ f.p := by positivity
    nlinarith
  · have := rn_rel (p := f.p) x
    linarith

variable {f : Format} (hp : 0 < f.p)

include hp in
/-- A sum of at most `n` floats of magnitude at most `m`: it does not overflow, and its error is bounded. -/
theorem sum_error (n : ℕ) (m : ℚ) (hm : 0 ≤ m) (hn : 4 * (n : ℚ) ≤ (2 : ℚ) ^ f.p) (ht : f.low + f.p ≤ f.top)
    (hb : 2 * n * (m + 2 * (2 : ℚ) ^ f.low) ≤ (2 : ℚ) ^ (f.top - 1)) (l : List ℚ) (hl : l.length ≤ n) (hx : ∀ x ∈ l, |x| ≤ m) :
    ∃ s, (l.map F.fin).foldl (F.add f) (.fin 0) = .fin s ∧
      |s - l.sum| ≤ l.length * (2 * n * (m + 2 * (2 : ℚ) ^ f.low) / (2 : ℚ) ^ f.p + (2 : ℚ) ^ f.low) := by
  induction l using List.reverseRecOn with
  | nil => exact ⟨0, rfl, by simp⟩
  | append_singleton l x ih =>
    rw [List.length_append] at hl
    simp only [List.length_cons, List.length_nil] at hl
    obtain ⟨s, e, he⟩ := ih (by omega) (fun y hy => hx y (by simp [hy]))
    have hη := two_zpow_pos f.low
    generalize hηd : (2 : ℚ) ^ f.low = η at *
    have hP : (0 : ℚ) < (2 : ℚ) ^ f.p := by positivity
    have hk : ((l.length : ℚ)) + 1 ≤ n := by exact_mod_cast hl
    have hk0 : (0 : ℚ) ≤ l.length := by positivity
    -- the size of the partial sums
    have hsum : |l.sum| ≤ l.length * m := by
      have h1 := sum_bounds (l := l) (lo := -m) (hi := m) fun y hy => by
        have := abs_le.1 (hx y (by simp [hy])); exact this
      rw [abs_le]; constructor <;> linarith [h1.1, h1.2]
    have hx' := hx x (by simp)
    have hfrac : 2 * n * (m + 2 * η) / (2 : ℚ) ^ f.p ≤ (m + 2 * η) / 2 := by
      rw [div_le_div_iff₀ hP (by norm_num)]
      nlinarith
    have herr : |s - l.sum| ≤ l.length * ((m + 2 * η) / 2 + η) := le_trans he (mul_le_mul_of_nonneg_left (by linarith) hk0)
    have hsx : |s + x| ≤ 2 * n * (m + 2 * η) := by
      have t1 := abs_add_le s x
      have t2 := abs_add_le (s - l.sum) l.sum
      rw [sub_add_cancel] at t2
      nlinarith
    have hfit : |f.near (s + x)| < (2 : ℚ) ^ f.top := by
      refine lt_of_le_of_lt (near_abs_le hp (by omega) (le_trans hsx hb)) ?_
      exact zpow_lt_zpow_right₀ (by norm_num) (by omega)
    refine ⟨f.near (s + x), ?_, ?_⟩
    · rw [List.map_append, List.foldl_append, e]
      exact round_fin hfit
    · have h1 := near_error (f := f) (s + x)
      rw [hηd] at h1
      have h2 : |s + x| / (2 : ℚ) ^ f.p ≤ 2 * n * (m + 2 * η) / (2 : ℚ) ^ f.p := by gcongr
      have t := abs_add_le (f.near (s + x) - (s + x)) (s - l.sum)
      have e' : f.near (s + x) - (s + x) + (s - l.sum) = f.near (s + x) - (l ++ [x]).sum := by simp; ring
      rw [e'] at t
      rw [List.length_append]
      push_cast
      simp only [List.length_cons, List.length_nil]
      push_cast
      linarith

include hp in
/-- The error of an average. -/
theorem average_error (m : ℚ) (ht : f.low + f.p ≤ f.top) (l : List ℚ) (hne : l ≠ []) (hx : ∀ x ∈ l, |x| ≤ m) (hn : 4 * ((l.length : ℚ) + 1) ≤ (2 : ℚ) ^ f.p)
    (hb : 2 * l.length * (m + 2 * (2 : ℚ) ^ f.low) ≤ (2 : ℚ) ^ (f.top - 1)) :
    ∃ a, F.quo f ((l.map F.fin).foldl (F.add f) (.fin 0)) l.length = .fin a ∧
      |a - l.sum / l.length| ≤ 2 * (l.length + 1) * m / (2 : ℚ) ^ f.p + 3 * (2 : ℚ) ^ f.low := by
  obtain ⟨x0, hx0⟩ := List.exists_mem_of_ne_nil l hne
  have hm : 0 ≤ m := le_trans (abs_nonneg _) (hx x0 hx0)
  have hlen : 0 < l.length := List.length_pos_iff.2 hne
  have hk : (0 : ℚ) < l.length := by exact_mod_cast hlen
  have hk1 : (1 : ℚ) ≤ l.length := by exact_mod_cast hlen
  obtain ⟨s, e, he⟩ := sum_error hp l.length m hm (by linarith) ht hb l (le_refl _) hx
  rw [e]
  have hη := two_zpow_pos f.low
  generalize hηd : (2 : ℚ) ^ f.low = η at *
  have hP : (0 : ℚ) < (2 : ℚ) ^ f.p := by positivity
  have hd : |s / l.length - l.sum / l.length| ≤ 2 * l.length * (m + 2 * η) / (2 : ℚ) ^ f.p + η := by
    rw [← sub_div, abs_div, abs_of_pos hk, div_le_iff₀ hk]
    linarith
  have hsum : |l.sum / l.length| ≤ m := by
    rw [abs_div, abs_of_pos hk, div_le_iff₀ hk]
    have h1 := sum_bounds (l := l) (lo := -m) (hi := m) fun y hy => abs_le.1 (hx y hy)
    rw [abs_le]; constructor <;> linarith [h1.1, h1.2]
  have hfrac : 2 * l.length * (m + 2 * η) / (2 : ℚ) ^ f.p ≤ (m + 2 * η) / 2 := by
    rw [div_le_div_iff₀ hP (by norm_num)]
    nlinarith
  have hsa : |s / l.length| ≤ 2 * (m + 2 * η) := by
    have t := abs_add_le (s / l.length - l.sum / l.length) (l.sum / l.length)
    rw [sub_add_cancel] at t
    linarith
  have hfit : |f.near (s / l.length)| < (2 : ℚ) ^ f.top := by
    refine lt_of_le_of_lt (near_abs_le hp (e := f.top - 1) (by omega) (le_trans hsa (le_trans ?_ hb))) (zpow_lt_zpow_right₀ (by norm_num) (by omega))
    nlinarith
  refine ⟨f.near (s / l.length), round_fin hfit, ?_⟩
  have h1 := near_error (f := f) (s / l.length)
  rw [hηd] at h1
  have h2 : |s / l.length| / (2 : ℚ) ^ f.p ≤ 2 * (m + 2 * η) / (2 : ℚ) ^ f.p := by gcongr
  have t := abs_add_le (f.near (s / l.length) - s / l.length) (s / l.length - l.sum / l.length)
  rw [sub_add_sub_cancel] at t
  have h3 : 2 * l.length * (m + 2 * η) / (2 : ℚ) ^ f.p + 2 * (m + 2 * η) / (2 : ℚ) ^ f.p = 2 * (l.length + 1) * m / (2 : ℚ) ^ f.p + 4 * (l.length + 1) / (2 : ℚ) ^ f.p * η := by
    field_simp; ring
  have h4 : 4 * ((l.length : ℚ) + 1) / (2 : ℚ) ^ f.p * η ≤ η := by
    have : 4 * ((l.length : ℚ) + 1) / (2 : ℚ) ^ f.p ≤ 1 := by rw [div_le_one hP]; exact hn
    nlinarith
  linarith

end Monkit.Dist
