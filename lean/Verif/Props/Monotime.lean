import Verif.Model.Monotime
import Mathlib.Tactic.NormNum
import Mathlib.Tactic.Linarith

/-!
# C61: the clock on Windows
-/

namespace Monkit.Monotime

theorem mul_exact {a b : Int64} (h1 : -2 ^ 63 ≤ a.toInt * b.toInt) (h2 : a.toInt * b.toInt < 2 ^ 63) : (a * b).toInt = a.toInt * b.toInt := by
  rw [Int64.toInt_mul]; exact Int.bmod_eq_of_le (by norm_num; omega) (by norm_num; omega)

/-- **C61**.  The elapsed time is the difference of the counter, in nanoseconds rounded down.

Partial: until the difference times 10^9 overflows; see `C61_overflow_violated`. -/
theorem C61_exact_partial (c b f : Int64) (hf : 0 < f) (hc : b ≤ c) (ho : (c.toInt - b.toInt) * 1000000000 < 2 ^ 63) :
    ∃ e, elapsed c b f = some e ∧ e.toInt = (c.toInt - b.toInt) * 1000000000 / f.toInt := by
  rw [Int64.lt_iff_toInt_lt] at hf
  rw [Int64.le_iff_toInt_le] at hc
  have hf : 0 < f.toInt := hf
  have hd : (c - b).toInt = c.toInt - b.toInt := by
    rw [Int64.toInt_sub]; exact Int.bmod_eq_of_le (by norm_num; omega) (by norm_num; omega)
  have hm : ((c - b) * 1000000000).toInt = (c.toInt - b.toInt) * 1000000000 := by
    rw [mul_exact (by rw [hd]; change _ ≤ _ * (1000000000 : Int); omega) (by rw [hd]; change _ * (1000000000 : Int) < _; omega), hd]; rfl
  have hf0 : f ≠ 0 := by rintro rfl; exact absurd hf (by decide)
  have e1 : f * 1 = f := by simp
  refine ⟨_, by unfold elapsed; simp only [e1, hf0, if_false]; rfl, ?_⟩
  rw [Int64.toInt_div, hm, Int.tdiv_eq_ediv_of_nonneg (by omega)]
  have : 0 ≤ (c.toInt - b.toInt) * 1000000000 / f.toInt := Int.ediv_nonneg (by omega) (by omega)
  have : (c.toInt - b.toInt) * 1000000000 / f.toInt ≤ (c.toInt - b.toInt) * 1000000000 := Int.ediv_le_self _ (by omega)
  exact Int.bmod_eq_of_le (by norm_num; omega) (by norm_num; omega)

/-- **C61**.  If the counter does not decrease, nor does the elapsed time.

Partial: until the difference times 10^9 overflows. -/
theorem C61_monotone_partial (c c' b f : Int64) (hf : 0 < f) (hc : b ≤ c) (hcc : c ≤ c') (ho : (c'.toInt - b.toInt) * 1000000000 < 2 ^ 63) :
    ∃ e e', elapsed c b f = some e ∧ elapsed c' b f = some e' ∧ 0 ≤ e ∧ e ≤ e' := by
  have hcc' := hcc
  rw [Int64.le_iff_toInt_le] at hcc'
  obtain ⟨e, h1, h2⟩ := C61_exact_partial c b f hf hc (by omega)
  obtain ⟨e', h1', h2'⟩ := C61_exact_partial c' b f hf (Int64.le_trans hc hcc) ho
  rw [Int64.lt_iff_toInt_lt] at hf
  have hf : 0 < f.toInt := hf
  rw [Int64.le_iff_toInt_le] at hc
  refine ⟨e, e', h1, h1', ?_, ?_⟩
  · rw [Int64.le_iff_toInt_le, h2]
    exact Int.ediv_nonneg (by omega) (by omega)
  · rw [Int64.le_iff_toInt_le, h2, h2']
    exact Int.ediv_le_ediv hf (by omega)

/-- C61 is false: with the usual frequency of 10 MHz the clock falls back by half an hour after 922 s. -/
theorem C61_overflow_violated : ∃ c c' b f e e', b ≤ c ∧ c ≤ c' ∧ f = 10000000 ∧ c'.toInt - b.toInt = 9223372037 ∧ elapsed c b f = some e ∧
    elapsed c' b f = some e' ∧ e' < e ∧ e' < 0 :=
  ⟨9223372036, 9223372037, 0, 10000000, 922337203600, -922337203670, by decide, by decide, rfl, by decide, by decide, by decide, by decide, by decide⟩

/-- A counter of 10 MHz, ten minutes after start. -/
example : (0 : Int64) < 10000000 ∧ (5 : Int64) ≤ 6000000005 ∧ ((6000000005 : Int64).toInt - (5 : Int64).toInt) * 1000000000 < 2 ^ 63 ∧
    elapsed 6000000005 5 10000000 = some 600000000000 := by decide

end Monkit.Monotime
