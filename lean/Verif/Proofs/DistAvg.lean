import Verif.Proofs.DistQuery

/-!
# The float32 average
-/

namespace Monkit.Dist
open Monkit.Spec Go.Float

theorem sum_bounds {l : List ℚ} {lo hi : ℚ} (h : ∀ x ∈ l, lo ≤ x ∧ x ≤ hi) :
    l.length * lo ≤ l.sum ∧ l.sum ≤ l.length * hi := by
  induction l with
  | nil => simp
  | cons a as ih =>
    obtain ⟨i1, i2⟩ := ih fun x hx => h x (by simp [hx])
    obtain ⟨j1, j2⟩ := h a (by simp)
    simp only [List.length_cons, List.sum_cons]; push_cast
    constructor <;> linarith

/-- Adding integers in float32 is exact while the sums stay within `2^24`. -/
theorem foldl_exact (l : List ℚ) (s : ℤ) (M : ℤ) (hM : ∀ x ∈ l, ∃ k : ℤ, x = k ∧ |k| ≤ M)
    (hb : |s| + l.length * M ≤ 2 ^ 24) :
    l.foldl (fun s x => rn 24 (s + x)) (s : ℚ) = s + l.sum := by
  induction l generalizing s with
  | nil => simp
  | cons a as ih =>
    obtain ⟨k, rfl, hk⟩ := hM a (by simp)
    have hMn : 0 ≤ M := le_trans (abs_nonneg _) hk
    have habs : |s + k| ≤ |s| + |k| := abs_add_le s k
    simp only [List.length_cons] at hb; push_cast at hb
    have has : (0 : ℤ) ≤ as.length * M := by positivity
    have hr : Rep 24 ((s + k : ℤ) : ℚ) := by
      have := rep_of_le (p := 24) (m := s + k) (e := 0) (by nlinarith) (by norm_num)
      simpa using this
    have e : rn 24 ((s : ℚ) + k) = ((s + k : ℤ) : ℚ) := by
      rw [← Int.cast_add]; exact rn_of_rep (by norm_num) hr
    simp only [List.foldl_cons, List.sum_cons]
    rw [e, ih (s + k) (fun x hx => hM x (by simp [hx])) (by nlinarith)]
    push_cast; ring

theorem rep_len {l : List ℚ} (h64 : l.length ≤ 64) : rn 24 (l.length : ℚ) = l.length :=
  rn_of_rep (by norm_num) (rep_nat (by have : (64 : ℕ) < 2 ^ 24 := by norm_num
                                       omega))

theorem f32avg_exact {l : List ℚ} {M : ℤ} (hne : l ≠ []) (h64 : l.length ≤ 64)
    (hM : ∀ x ∈ l, ∃ k : ℤ, x = k ∧ |k| ≤ M) (hb : l.length * M ≤ 2 ^ 24)
    {lo hi : ℚ} (rlo : Rep 24 lo) (rhi : Rep 24 hi) (h : ∀ x ∈ l, lo ≤ x ∧ x ≤ hi) :
    lo ≤ f32avg l ∧ f32avg l ≤ hi := by
  have hn : (0 : ℚ) < l.length := by exact_mod_cast List.length_pos_iff.mpr hne
  have e := foldl_exact l 0 M hM (by simpa using hb)
  simp only [Int.cast_zero, zero_add] at e
  obtain ⟨b1, b2⟩ := sum_bounds h
  unfold f32avg
  rw [e, rep_len h64]
  have h24 : 0 < 24 := by norm_num
  constructor
  · have := rn_mono h24 (x := lo) (y := l.sum / l.length) (by rw [le_div_iff₀ hn]; linarith)
    rwa [rn_of_rep h24 rlo] at this
  · have := rn_mono h24 (y := hi) (x := l.sum / l.length) (by rw [div_le_iff₀ hn]; linarith)
    rwa [rn_of_rep h24 rhi] at this

/-- One unit of relative rounding error. -/
def u : ℚ := 1 / 2 ^ 24

theorem u_pos : 0 < u := by norm_num [u]

theorem foldl_error (l : List ℚ) (B : ℚ) (hB : ∀ x ∈ l, |x| ≤ B) (s S A E : ℚ)
    (hA : |S| ≤ A) (hE : 0 ≤ E) (h : |s - S| ≤ E * A) :
    |l.foldl (fun s x => rn 24 (s + x)) s - (S + l.sum)| ≤
      ((1 + E) * (1 + u) ^ l.length - 1) * (A + l.length * B) := by
  induction l generalizing s S A E with
  | nil => simpa using h
  | cons a as ih =>
    have ha := hB a (by simp)
    have hB0 : 0 ≤ B := le_trans (abs_nonneg _) ha
    have hA0 : 0 ≤ A := le_trans (abs_nonneg _) hA
    have hu := u_pos
    have r := rn_rel (p := 24) (s + a)
    have hSa : |S + a| ≤ A + B := le_trans (abs_add_le _ _) (by linarith)
    have d1 : |(s + a) - (S + a)| ≤ E * (A + B) := by
      have : (s + a) - (S + a) = s - S := by ring
      rw [this]; nlinarith
    have hsa : |s + a| ≤ (1 + E) * (A + B) := by
      have : s + a = (S + a) + ((s + a) - (S + a)) := by ring
      rw [this]; refine le_trans (abs_add_le _ _) ?_; linarith
    have d2 : |rn 24 (s + a) - (S + a)| ≤ ((1 + E) * (1 + u) - 1) * (A + B) := by
      have : rn 24 (s + a) - (S + a) = (rn 24 (s + a) - (s + a)) + ((s + a) - (S + a)) := by ring
      rw [this]
      refine le_trans (abs_add_le _ _) ?_
      have : |s + a| / 2 ^ 24 ≤ u * ((1 + E) * (A + B)) := by
        have : |s + a| / 2 ^ 24 = u * |s + a| := by unfold u; ring
        rw [this]; exact mul_le_mul_of_nonneg_left hsa hu.le
      calc _ ≤ u * ((1 + E) * (A + B)) + E * (A + B) := by
            refine add_le_add (le_trans r ?_) d1
            simpa using this
        _ = _ := by ring
    have := ih (fun x hx => hB x (by simp [hx])) (rn 24 (s + a)) (S + a) (A + B)
      ((1 + E) * (1 + u) - 1) hSa (by nlinarith) d2
    simp only [List.foldl_cons, List.sum_cons, List.length_cons]
    calc _ = |as.foldl (fun s x => rn 24 (s + x)) (rn 24 (s + a)) - (S + a + as.sum)| := by
          rw [add_assoc S a]
      _ ≤ _ := this
      _ = _ := by push_cast; ring

/-- The float32 average of at most 64 numbers of absolute value at most `B` differs from their mean by at most
`B · 2⁻¹⁷`. -/
theorem f32avg_error {l : List ℚ} (hne : l ≠ []) (h64 : l.length ≤ 64) {B : ℚ} (hB : ∀ x ∈ l, |x| ≤ B) :
    |f32avg l - l.sum / l.length| ≤ ((1 + u) ^ 65 - 1) * B := by
  have hnN : 0 < l.length := List.length_pos_iff.mpr hne
  have hn : (0 : ℚ) < l.length := by exact_mod_cast hnN
  obtain ⟨x0, hx0⟩ := List.exists_mem_of_ne_nil l hne
  have hB0 : 0 ≤ B := le_trans (abs_nonneg _) (hB x0 hx0)
  have hu := u_pos
  have e := foldl_error l B hB 0 0 0 0 (by simp) (le_refl _) (by simp)
  simp only [zero_add, add_zero, one_mul] at e
  set s := l.foldl (fun s x => rn 24 (s + x)) 0 with hs
  have hp : (1 : ℚ) ≤ (1 + u) ^ l.length := one_le_pow₀ (by linarith)
  have hsum : |l.sum / l.length| ≤ B := by
    rw [abs_div, abs_of_pos hn, div_le_iff₀ hn]
    obtain ⟨b1, b2⟩ := sum_bounds (l := l) (lo := -B) (hi := B) fun x hx => abs_le.mp (hB x hx)
    rw [abs_le]; constructor <;> linarith
  have e1 : |s / l.length - l.sum / l.length| ≤ ((1 + u) ^ l.length - 1) * B := by
    rw [← sub_div, abs_div, abs_of_pos hn, div_le_iff₀ hn]; linarith
  have e2 : |s / l.length| ≤ (1 + u) ^ l.length * B := by
    have : s / l.length = l.sum / l.length + (s / l.length - l.sum / l.length) := by ring
    rw [this]; refine le_trans (abs_add_le _ _) ?_; linarith
  have r := rn_rel (p := 24) (s / l.length)
  have r' : |rn 24 (s / l.length) - s / l.length| ≤ u * ((1 + u) ^ l.length * B) := by
    refine le_trans r ?_
    have : |s / l.length| / 2 ^ 24 = u * |s / l.length| := by unfold u; ring
    rw [this]; exact mul_le_mul_of_nonneg_left e2 hu.le
  have hf : f32avg l = rn 24 (s / l.length) := by unfold f32avg; rw [rep_len h64]
  rw [hf]
  have hpow : (1 + u) ^ (l.length + 1) ≤ (1 + u) ^ 65 := pow_le_pow_right₀ (by linarith) (by omega)
  calc |rn 24 (s / l.length) - l.sum / l.length|
      = |(rn 24 (s / l.length) - s / l.length) + (s / l.length - l.sum / l.length)| := by
        congr 1; ring
    _ ≤ u * ((1 + u) ^ l.length * B) + ((1 + u) ^ l.length - 1) * B :=
        le_trans (abs_add_le _ _) (add_le_add r' e1)
    _ = ((1 + u) ^ (l.length + 1) - 1) * B := by ring
    _ ≤ _ := mul_le_mul_of_nonneg_right (by linarith) hB0

theorem u_bound : (1 + u) * (1 + u) ^ 65 - 1 ≤ 1 / 2 ^ 17 := by norm_num [u]

end Monkit.Dist
