import Verif.Go.Float
import Mathlib.Tactic.Linarith
import Mathlib.Tactic.Ring
import Mathlib.Tactic.FieldSimp
import Mathlib.Tactic.Positivity
import Mathlib.Tactic.GCongr
import Mathlib.Tactic.Push
import Mathlib.Tactic.NormNum

namespace Go.Float

theorem rhe_nearest (x : ℚ) (n : ℤ) : |(rhe x : ℚ) - x| ≤ |(n : ℚ) - x| := by
  have h1 := Int.floor_le x
  have h2 := Int.lt_floor_add_one x
  have hf : n ≤ ⌊x⌋ ∨ ⌊x⌋ + 1 ≤ n := by omega
  have key : |(n : ℚ) - x| ≥ min (x - ⌊x⌋) (⌊x⌋ + 1 - x) := by
    rcases hf with h | h
    · have : (n : ℚ) ≤ ⌊x⌋ := by exact_mod_cast h
      rw [abs_of_nonpos (by linarith)]
      exact le_trans (min_le_left _ _) (by linarith)
    · have : ((⌊x⌋ : ℚ) + 1) ≤ n := by exact_mod_cast h
      rw [abs_of_nonneg (by linarith)]
      exact le_trans (min_le_right _ _) (by linarith)
  refine le_trans ?_ key
  unfold rhe
  split_ifs with a b c
  · rw [abs_of_nonpos (by linarith)]
    refine le_min (by linarith) (by linarith)
  · push_cast
    rw [abs_of_nonneg (by linarith)]
    refine le_min (by linarith) (by linarith)
  · rw [abs_of_nonpos (by linarith)]
    refine le_min (by linarith) (by linarith)
  · push_cast
    rw [abs_of_nonneg (by linarith)]
    refine le_min (by linarith) (by linarith)

theorem rhe_half (x : ℚ) : |(rhe x : ℚ) - x| ≤ 1 / 2 := by
  have h1 := Int.floor_le x
  have h2 := Int.lt_floor_add_one x
  unfold rhe
  split_ifs with a b c
  · rw [abs_of_nonpos (by linarith)]; linarith
  · push_cast
    rw [abs_of_nonneg (by linarith)]; linarith
  · rw [abs_of_nonpos (by linarith)]; linarith
  · push_cast
    rw [abs_of_nonneg (by linarith)]; linarith

theorem rhe_int (n : ℤ) : rhe (n : ℚ) = n := by
  simp [rhe]

theorem two_zpow_pos (e : ℤ) : (0 : ℚ) < (2 : ℚ) ^ e := zpow_pos (by norm_num) e

/-- Bounds given by the exponent. -/
theorem log_bounds {x : ℚ} (hx : x ≠ 0) :
    (2 : ℚ) ^ (Int.log 2 |x|) ≤ |x| ∧ |x| < (2 : ℚ) ^ (Int.log 2 |x| + 1) := by
  have hp : 0 < |x| := abs_pos.mpr hx
  exact ⟨by exact_mod_cast Int.zpow_log_le_self (b := 2) (by norm_num) hp,
    by exact_mod_cast Int.lt_zpow_succ_log_self (b := 2) (by norm_num) |x|⟩

theorem rep_zero (p : ℕ) : Rep p 0 := ⟨0, 0, by simp, by simp⟩

theorem rep_neg {p : ℕ} {x : ℚ} (h : Rep p x) : Rep p (-x) := by
  obtain ⟨m, e, h1, rfl⟩ := h
  exact ⟨-m, e, by simpa using h1, by push_cast; ring⟩

/-- Also mantissas equal to `2^p` are allowed. -/
theorem rep_of_le {p : ℕ} {m e : ℤ} (h : |m| ≤ 2 ^ p) (hp : 0 < p) :
    Rep p ((m : ℚ) * (2 : ℚ) ^ e) := by
  rcases lt_or_eq_of_le h with h | h
  · exact ⟨m, e, h, rfl⟩
  · obtain ⟨q, rfl⟩ : ∃ q, p = q + 1 := ⟨p - 1, by omega⟩
    have h2 : |(2 : ℤ) ^ q| < 2 ^ (q + 1) := by
      rw [abs_of_pos (by positivity)]
      exact pow_lt_pow_right₀ (by norm_num) (by omega)
    rcases abs_choice m with hm | hm
    · refine ⟨2 ^ q, e + 1, h2, ?_⟩
      rw [zpow_add₀ (by norm_num)]
      have : m = 2 ^ (q + 1) := by rw [← hm, h]
      rw [this]; push_cast; ring
    · refine ⟨-2 ^ q, e + 1, by simpa using h2, ?_⟩
      rw [zpow_add₀ (by norm_num)]
      have : m = -2 ^ (q + 1) := by omega
      rw [this]; push_cast; ring

/-- Every p-bit float of magnitude at least `2^E` is a multiple of `2^(E-p+1)`. -/
theorem rep_multiple {p : ℕ} {z : ℚ} (hz : Rep p z) {E : ℤ} (h : (2 : ℚ) ^ E ≤ |z|) :
    ∃ n : ℤ, z = (n : ℚ) * (2 : ℚ) ^ (E - p + 1) := by
  obtain ⟨m, k, h1, rfl⟩ := hz
  have hk : E < p + k := by
    have : (2 : ℚ) ^ E < (2 : ℚ) ^ ((p : ℤ) + k) := by
      refine lt_of_le_of_lt h ?_
      rw [abs_mul, abs_of_pos (two_zpow_pos k), zpow_add₀ (by norm_num)]
      have : |(m : ℚ)| < (2 : ℚ) ^ (p : ℤ) := by
        rw [zpow_natCast]; exact_mod_cast h1
      exact mul_lt_mul_of_pos_right this (two_zpow_pos k)
    exact (zpow_lt_zpow_iff_right₀ (by norm_num)).mp this
  obtain ⟨d, hd⟩ : ∃ d : ℕ, k = (d : ℤ) + (E - p + 1) :=
    ⟨(k - (E - p + 1)).toNat, by omega⟩
  refine ⟨m * 2 ^ d, ?_⟩
  rw [hd, zpow_add₀ (by norm_num), zpow_natCast]
  push_cast; ring

theorem rn_zero (p : ℕ) : rn p 0 = 0 := by simp [rn]

/-- The rounded mantissa is at most `2^p` in magnitude and at least `2^(p-1)`. -/
theorem mantissa_bounds {p : ℕ} {x : ℚ} (hx : x ≠ 0) (hp : 0 < p) :
    (2 : ℚ) ^ (p - 1 : ℕ) ≤ |x / (2 : ℚ) ^ ulpExp p x| ∧
    |x / (2 : ℚ) ^ ulpExp p x| < (2 : ℚ) ^ p := by
  obtain ⟨h1, h2⟩ := log_bounds hx
  have hu := two_zpow_pos (ulpExp p x)
  rw [abs_div, abs_of_pos hu, le_div_iff₀ hu, div_lt_iff₀ hu]
  constructor
  · refine le_trans (le_of_eq ?_) h1
    rw [← zpow_natCast, ← zpow_add₀ (by norm_num)]
    congr 1; unfold ulpExp; omega
  · refine lt_of_lt_of_le h2 (le_of_eq ?_)
    rw [← zpow_natCast (2 : ℚ) p, ← zpow_add₀ (by norm_num)]
    congr 1; unfold ulpExp; omega

theorem rhe_abs_le {x : ℚ} {n : ℕ} (h : |x| ≤ n) : |rhe x| ≤ n := by
  have h0 := rhe_half x
  obtain ⟨a, b⟩ := abs_le.mp h0
  obtain ⟨c, d⟩ := abs_le.mp h
  rw [abs_le]
  constructor
  · have : ((-n : ℤ) : ℚ) - 1 < (rhe x : ℚ) := by push_cast; linarith
    have : ((-n - 1 : ℤ) : ℚ) < (rhe x : ℚ) := by push_cast; push_cast at this; linarith
    have := Int.cast_lt.mp this
    omega
  · have : (rhe x : ℚ) < ((n + 1 : ℤ) : ℚ) := by push_cast; linarith
    have := Int.cast_lt.mp this
    omega

/-- The result of rounding is a float. -/
theorem rn_rep {p : ℕ} (hp : 0 < p) (x : ℚ) : Rep p (rn p x) := by
  unfold rn
  split_ifs with h
  · exact rep_zero p
  · refine rep_of_le ?_ hp
    have := rhe_abs_le (x := x / (2 : ℚ) ^ ulpExp p x) (n := 2 ^ p)
      (by push_cast; exact (mantissa_bounds h hp).2.le)
    simpa using this

/-- No float is nearer to `x` than `rn p x`. -/
theorem rn_nearest {p : ℕ} (hp : 0 < p) (x : ℚ) {z : ℚ} (hz : Rep p z) :
    |rn p x - x| ≤ |z - x| := by
  by_cases hx : x = 0
  · subst hx; simp [rn_zero]
  have hu := two_zpow_pos (ulpExp p x)
  have grid : ∀ n : ℤ, |rn p x - x| ≤ |(n : ℚ) * (2 : ℚ) ^ ulpExp p x - x| := by
    intro n
    have h := rhe_nearest (x / (2 : ℚ) ^ ulpExp p x) n
    have e1 : rn p x - x =
        ((rhe (x / (2 : ℚ) ^ ulpExp p x) : ℚ) - x / (2 : ℚ) ^ ulpExp p x) * (2 : ℚ) ^ ulpExp p x := by
      rw [rn, if_neg hx, sub_mul, div_mul_cancel₀ _ hu.ne']
    have e2 : (n : ℚ) * (2 : ℚ) ^ ulpExp p x - x =
        ((n : ℚ) - x / (2 : ℚ) ^ ulpExp p x) * (2 : ℚ) ^ ulpExp p x := by
      rw [sub_mul, div_mul_cancel₀ _ hu.ne']
    rw [e1, e2, abs_mul, abs_mul]
    exact mul_le_mul_of_nonneg_right h (abs_nonneg _)
  obtain ⟨h1, h2⟩ := log_bounds hx
  by_cases hb : (2 : ℚ) ^ (Int.log 2 |x|) ≤ |z|
  · obtain ⟨n, hn⟩ := rep_multiple hz hb
    rw [hn]; exact grid n
  · push Not at hb
    -- ±2^E is on the grid and is at least as near as z
    have hE : ∃ n : ℤ, (2 : ℚ) ^ (Int.log 2 |x|) = (n : ℚ) * (2 : ℚ) ^ ulpExp p x := by
      refine ⟨2 ^ (p - 1), ?_⟩
      push_cast
      rw [← zpow_natCast, ← zpow_add₀ (by norm_num)]
      congr 1; unfold ulpExp; omega
    obtain ⟨n, hn⟩ := hE
    rcases lt_or_gt_of_ne hx with hx0 | hx0
    · have := grid (-n)
      refine le_trans this ?_
      have e : ((-n : ℤ) : ℚ) * (2 : ℚ) ^ ulpExp p x = - (2 : ℚ) ^ (Int.log 2 |x|) := by
        rw [hn]; push_cast; ring
      rw [e]
      rw [abs_of_neg hx0] at h1 hb ⊢
      have hz1 := neg_abs_le z
      rw [abs_of_nonneg (by linarith)]
      refine le_trans ?_ (le_abs_self _)
      linarith
    · have := grid n
      refine le_trans this ?_
      rw [← hn]
      rw [abs_of_pos hx0] at h1 hb ⊢
      have hz1 := le_abs_self z
      rw [abs_of_nonpos (by linarith)]
      refine le_trans ?_ (neg_le_abs _)
      linarith

/-- Floats are not changed by rounding. -/
theorem rn_of_rep {p : ℕ} (hp : 0 < p) {x : ℚ} (h : Rep p x) : rn p x = x := by
  have := rn_nearest hp x h
  simp at this
  linarith

/-- Rounding is monotone. -/
theorem rn_mono {p : ℕ} (hp : 0 < p) {x y : ℚ} (h : x ≤ y) : rn p x ≤ rn p y := by
  by_contra hc
  push Not at hc
  have h1 := rn_nearest hp x (rn_rep hp y)
  have h2 := rn_nearest hp y (rn_rep hp x)
  have hne : x ≠ y := by rintro rfl; exact lt_irrefl _ hc
  have hlt : x < y := lt_of_le_of_ne h hne
  have h1' := sq_le_sq.mpr h1
  have h2' := sq_le_sq.mpr h2
  nlinarith

theorem rn_nonneg {p : ℕ} (hp : 0 < p) {x : ℚ} (h : 0 ≤ x) : 0 ≤ rn p x := by
  have := rn_mono hp h
  rwa [rn_zero] at this

theorem rep_two_zpow {p : ℕ} (hp : 0 < p) (e : ℤ) : Rep p ((2 : ℚ) ^ e) :=
  ⟨1, e, by simpa using one_lt_pow₀ (by norm_num : (1 : ℤ) < 2) (by omega), by simp⟩

theorem rn_pos {p : ℕ} (hp : 0 < p) {x : ℚ} (h : 0 < x) : 0 < rn p x := by
  have h1 := (log_bounds h.ne').1
  rw [abs_of_pos h] at h1
  have := rn_mono hp h1
  rw [rn_of_rep hp (rep_two_zpow hp _)] at this
  exact lt_of_lt_of_le (two_zpow_pos _) this

/-- If `y` is a float strictly below the rounding of `x`, it is not above `x`. -/
theorem le_of_lt_rn {p : ℕ} (hp : 0 < p) {x y : ℚ} (hy : Rep p y) (h : y < rn p x) : y ≤ x := by
  by_contra hc
  push Not at hc
  have := rn_mono hp hc.le
  rw [rn_of_rep hp hy] at this
  linarith

/-- Normal form of a positive float: the mantissa uses all `p` bits. -/
theorem rep_normal {p : ℕ} (hp : 0 < p) {d : ℚ} (hd : Rep p d) (h0 : 0 < d) :
    ∃ (m : ℕ) (k : ℤ), 2 ^ (p - 1) ≤ m ∧ m < 2 ^ p ∧ d = (m : ℚ) * (2 : ℚ) ^ k := by
  have hlog := log_bounds h0.ne'
  rw [abs_of_pos h0] at hlog
  obtain ⟨n, hn⟩ := rep_multiple hd (E := Int.log 2 d) (by rw [abs_of_pos h0]; exact hlog.1)
  have hu := two_zpow_pos (Int.log 2 d - p + 1)
  have hn0 : (0 : ℚ) < n := by
    by_contra hc
    push Not at hc
    have := mul_nonpos_of_nonpos_of_nonneg hc hu.le
    rw [← hn] at this; linarith
  have hn0' : 0 < n := by exact_mod_cast hn0
  obtain ⟨m, rfl⟩ : ∃ m : ℕ, n = m := ⟨n.toNat, by omega⟩
  refine ⟨m, _, ?_, ?_, by simpa using hn⟩
  · have h1 := hlog.1
    have e : (2 : ℚ) ^ (Int.log 2 d) = (2 : ℚ) ^ (p - 1 : ℕ) * (2 : ℚ) ^ (Int.log 2 d - p + 1) := by
      rw [← zpow_natCast, ← zpow_add₀ (by norm_num)]; congr 1; omega
    have h1' : (2 : ℚ) ^ (p - 1 : ℕ) * (2 : ℚ) ^ (Int.log 2 d - p + 1) ≤
        (m : ℚ) * (2 : ℚ) ^ (Int.log 2 d - p + 1) := by
      rw [← e]; refine le_trans h1 (le_of_eq ?_); simpa using hn
    have := le_of_mul_le_mul_right h1' hu
    exact_mod_cast this
  · have h1 := hlog.2
    have e : (2 : ℚ) ^ (Int.log 2 d + 1) = (2 : ℚ) ^ (p : ℕ) * (2 : ℚ) ^ (Int.log 2 d - p + 1) := by
      rw [← zpow_natCast, ← zpow_add₀ (by norm_num)]; congr 1; omega
    have h1' : (m : ℚ) * (2 : ℚ) ^ (Int.log 2 d - p + 1) <
        (2 : ℚ) ^ (p : ℕ) * (2 : ℚ) ^ (Int.log 2 d - p + 1) := by
      rw [← e]; refine lt_of_le_of_lt (le_of_eq ?_) h1; simpa using hn.symm
    have := lt_of_mul_lt_mul_right h1' hu.le
    exact_mod_cast this

/-- **Key lemma.** Multiplying a positive float by a factor of at most `1 - 2^-p` and rounding gives
a strictly smaller number. -/
theorem rn_shrink {p : ℕ} (hp : 0 < p) {d x : ℚ} (hd : Rep p d) (h0 : 0 < d)
    (hx : x ≤ (1 - 1 / (2 : ℚ) ^ p) * d) : rn p x < d := by
  obtain ⟨m, k, hm1, hm2, rfl⟩ := rep_normal hp hd h0
  have hk := two_zpow_pos k
  have hP : (0 : ℚ) < (2 : ℚ) ^ p := by positivity
  refine lt_of_le_of_lt (rn_mono hp hx) ?_
  set y : ℚ := (1 - 1 / (2 : ℚ) ^ p) * ((m : ℚ) * (2 : ℚ) ^ k) with hy
  have hm0 : 0 < m := lt_of_lt_of_le (by positivity) hm1
  have hm0' : (0 : ℚ) < m := by exact_mod_cast hm0
  have hyd : y < (m : ℚ) * (2 : ℚ) ^ k := by
    have : 0 < 1 / (2 : ℚ) ^ p * ((m : ℚ) * (2 : ℚ) ^ k) := by positivity
    rw [hy]; linarith
  by_contra hc
  push Not at hc
  have hdist : (m : ℚ) * (2 : ℚ) ^ k - y ≤ |rn p y - y| := by
    rw [abs_of_nonneg (by linarith)]; linarith
  have hgap : (m : ℚ) * (2 : ℚ) ^ k - y = (m : ℚ) / (2 : ℚ) ^ p * (2 : ℚ) ^ k := by
    rw [hy]; ring
  rcases Nat.eq_or_lt_of_le hm1 with he | hlt
  · -- m = 2^(p-1): y itself is a float
    have hrep : Rep p y := by
      refine ⟨2 ^ p - 1, k - 1, ?_, ?_⟩
      · rw [abs_of_nonneg]
        · linarith
        · have : (1 : ℤ) ≤ 2 ^ p := one_le_pow₀ (by norm_num)
          linarith
      · rw [hy, zpow_sub₀ (by norm_num), zpow_one]
        have e : (m : ℚ) = (2 : ℚ) ^ p / 2 := by
          have : 2 ^ (p - 1) * 2 = 2 ^ p := by rw [← pow_succ]; congr 1; omega
          have h' : (m : ℚ) * 2 = (2 : ℚ) ^ p := by rw [← he]; exact_mod_cast this
          linarith
        rw [e]; push_cast; field_simp
    rw [rn_of_rep hp hrep] at hc
    linarith
  · have hrep : Rep p (((m : ℚ) - 1) * (2 : ℚ) ^ k) := by
      refine ⟨(m : ℤ) - 1, k, ?_, by push_cast; ring⟩
      rw [abs_of_nonneg (by omega)]
      have : (m : ℤ) < 2 ^ p := by exact_mod_cast hm2
      linarith
    have h3 := le_trans hdist (rn_nearest hp y hrep)
    rw [hgap] at h3
    have e : ((m : ℚ) - 1) * (2 : ℚ) ^ k - y = -((1 - (m : ℚ) / (2 : ℚ) ^ p) * (2 : ℚ) ^ k) := by
      rw [hy]; ring
    have hmlt : (m : ℚ) / (2 : ℚ) ^ p < 1 := by
      rw [div_lt_one hP]; exact_mod_cast hm2
    rw [e, abs_neg, abs_of_pos (mul_pos (by linarith) hk)] at h3
    have h4 := le_of_mul_le_mul_right h3 hk
    have h5 : (2 : ℚ) ^ p < 2 * m := by
      have : 2 ^ (p - 1) * 2 = 2 ^ p := by rw [← pow_succ]; congr 1; omega
      have : 2 ^ p < 2 * m := by omega
      exact_mod_cast this
    have h6 : (m : ℚ) / (2 : ℚ) ^ p * (2 : ℚ) ^ p = m := by field_simp
    nlinarith

/-- A float below 1 is at most `1 - 2^-p`. -/
theorem rep_lt_one {p : ℕ} {q : ℚ} (hq : Rep p q) (h1 : q < 1) :
    q ≤ 1 - 1 / (2 : ℚ) ^ p := by
  have hP : (0 : ℚ) < (2 : ℚ) ^ p := by positivity
  have hP1 : (1 : ℚ) ≤ (2 : ℚ) ^ p := one_le_pow₀ (by norm_num)
  by_cases hb : (2 : ℚ) ^ (-1 : ℤ) ≤ |q|
  · obtain ⟨n, hn⟩ := rep_multiple hq hb
    have e : (2 : ℚ) ^ ((-1 : ℤ) - p + 1) = 1 / (2 : ℚ) ^ p := by
      have : (-1 : ℤ) - p + 1 = -(p : ℤ) := by omega
      rw [this, zpow_neg, zpow_natCast, one_div]
    rw [e] at hn
    rw [hn] at h1 ⊢
    have h2 : (n : ℚ) < (2 : ℚ) ^ p := by
      have := mul_lt_mul_of_pos_right h1 hP
      have e2 : (n : ℚ) * (1 / (2 : ℚ) ^ p) * (2 : ℚ) ^ p = n := by field_simp
      linarith
    have h3 : n + 1 ≤ 2 ^ p := by
      have : n < 2 ^ p := by exact_mod_cast h2
      omega
    have h4 : (n : ℚ) + 1 ≤ (2 : ℚ) ^ p := by exact_mod_cast h3
    have h5 : ((n : ℚ) + 1) * (1 / (2 : ℚ) ^ p) ≤ 1 := by
      rw [mul_one_div, div_le_one hP]; exact h4
    linarith
  · push Not at hb
    rw [zpow_neg, zpow_one] at hb
    rcases Nat.eq_zero_or_pos p with rfl | hp
    · obtain ⟨m, e, hm, rfl⟩ := hq
      have : m = 0 := by
        have : |m| < 1 := by simpa using hm
        exact Int.abs_lt_one_iff.mp this
      subst this; simp
    · have hP2 : (2 : ℚ) ≤ (2 : ℚ) ^ p := by
        calc (2 : ℚ) = 2 ^ 1 := by norm_num
          _ ≤ 2 ^ p := pow_le_pow_right₀ (by norm_num) hp
      have : 1 / (2 : ℚ) ^ p ≤ 1 / 2 := one_div_le_one_div_of_le (by norm_num) hP2
      have := lt_of_le_of_lt (le_abs_self q) hb
      linarith

/-- The fractional part of a nonnegative float is a float. -/
theorem rep_fract {p : ℕ} {x : ℚ} (hx : Rep p x) (h0 : 0 ≤ x) : Rep p (x - ⌊x⌋) := by
  obtain ⟨m, e, hm, rfl⟩ := hx
  have he0 := two_zpow_pos e
  have hm0 : 0 ≤ m := by
    by_contra hc
    push Not at hc
    have : (m : ℚ) < 0 := by exact_mod_cast hc
    have := mul_neg_of_neg_of_pos this he0
    linarith
  rcases le_or_gt 0 e with he | he
  · obtain ⟨n, rfl⟩ := Int.eq_ofNat_of_zero_le he
    have : ((m : ℚ) * (2 : ℚ) ^ (n : ℤ)) = ((m * 2 ^ n : ℤ) : ℚ) := by push_cast; simp
    rw [this, Int.floor_intCast, sub_self]
    exact rep_zero p
  · obtain ⟨n, hn⟩ : ∃ n : ℕ, e = -(n : ℤ) := ⟨(-e).toNat, by omega⟩
    subst hn
    have h2n : (0 : ℚ) < (2 : ℚ) ^ n := by positivity
    have e1 : (m : ℚ) * (2 : ℚ) ^ (-(n : ℤ)) = (m : ℚ) / ((2 ^ n : ℕ) : ℚ) := by
      rw [zpow_neg, zpow_natCast]; push_cast; rw [div_eq_mul_inv]
    have hfl : ⌊(m : ℚ) * (2 : ℚ) ^ (-(n : ℤ))⌋ = m / 2 ^ n := by
      rw [e1, Rat.floor_intCast_div_natCast]; push_cast; rfl
    refine ⟨m % 2 ^ n, -(n : ℤ), ?_, ?_⟩
    · have h1 : 0 ≤ m % 2 ^ n := Int.emod_nonneg _ (by positivity)
      have h2 : m % 2 ^ n ≤ m := by
        have := Int.emod_add_mul_ediv m (2 ^ n)
        have : 0 ≤ 2 ^ n * (m / 2 ^ n) :=
          mul_nonneg (by positivity) (Int.ediv_nonneg hm0 (by positivity))
        omega
      rw [abs_of_nonneg h1]
      rw [abs_of_nonneg hm0] at hm
      omega
    · rw [hfl]
      have := Int.emod_add_mul_ediv m (2 ^ n)
      have h3 : (m : ℚ) = ((m % 2 ^ n : ℤ) : ℚ) + (2 : ℚ) ^ n * ((m / 2 ^ n : ℤ) : ℚ) := by
        exact_mod_cast this.symm
      rw [zpow_neg, zpow_natCast]
      field_simp
      linarith

/-- Relative error of rounding. -/
theorem rn_rel {p : ℕ} (x : ℚ) : |rn p x - x| ≤ |x| / (2 : ℚ) ^ p := by
  by_cases hx : x = 0
  · subst hx; simp [rn_zero]
  have hu := two_zpow_pos (ulpExp p x)
  have e1 : rn p x - x =
      ((rhe (x / (2 : ℚ) ^ ulpExp p x) : ℚ) - x / (2 : ℚ) ^ ulpExp p x) * (2 : ℚ) ^ ulpExp p x := by
    rw [rn, if_neg hx, sub_mul, div_mul_cancel₀ _ hu.ne']
  rw [e1, abs_mul, abs_of_pos hu]
  have h := rhe_half (x / (2 : ℚ) ^ ulpExp p x)
  have h1 := (log_bounds hx).1
  have e2 : (2 : ℚ) ^ ulpExp p x = 2 * (2 : ℚ) ^ (Int.log 2 |x|) / (2 : ℚ) ^ p := by
    unfold ulpExp
    rw [zpow_add₀ (by norm_num), zpow_sub₀ (by norm_num), zpow_one, zpow_natCast]; ring
  have hP : (0 : ℚ) < (2 : ℚ) ^ p := by positivity
  calc _ ≤ 1 / 2 * (2 : ℚ) ^ ulpExp p x := mul_le_mul_of_nonneg_right h hu.le
    _ = (2 : ℚ) ^ (Int.log 2 |x|) / (2 : ℚ) ^ p := by rw [e2]; ring
    _ ≤ |x| / (2 : ℚ) ^ p := by gcongr

/-- A float32 is a float64. -/
theorem rep_mono {p q : ℕ} (h : p ≤ q) {x : ℚ} (hx : Rep p x) : Rep q x := by
  obtain ⟨m, e, hm, rfl⟩ := hx
  exact ⟨m, e, lt_of_lt_of_le hm (pow_le_pow_right₀ (by norm_num) h), rfl⟩

theorem rep_nat {p n : ℕ} (h : n < 2 ^ p) : Rep p (n : ℚ) :=
  ⟨n, 0, by simpa using (by exact_mod_cast h : (n : ℤ) < 2 ^ p), by simp⟩

theorem trunc_mono {x y : ℚ} (h : x ≤ y) : trunc x ≤ trunc y := by
  unfold trunc
  split_ifs with a b b
  · exact Int.floor_le_floor h
  · exact absurd (le_trans a h) b
  · push Not at a
    have h1 : ⌈x⌉ ≤ 0 := Int.ceil_le.mpr (by simpa using a.le)
    have h2 : 0 ≤ ⌊y⌋ := Int.floor_nonneg.mpr b
    omega
  · exact Int.ceil_le_ceil h

end Go.Float
