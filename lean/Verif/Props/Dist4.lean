import Verif.Props.Dist3
import Verif.Proofs.DistAvg

/-!
# C66: the reservoir average

`C66_reservoir_average_violated` (Props/Dist2) shows that ReservoirAverage can leave the range of the sample, by a rounding error.  Here: it never
does as long as float32 arithmetic is exact, and otherwise the error is bounded.
-/

namespace Monkit
open Monkit.Spec Monkit.Dist Go Go.Float

variable {G : Type}

theorem IsIntKind.avg {K oob fused} (h : IsIntKind K oob fused) (l : List ℚ) :
    K.avg l = toI64 oob (f32avg l) := by
  rcases h with rfl | rfl <;> rfl

theorem reservoirAverage_eq {K oob fused} (hK : IsIntKind K oob fused) {vs : List Int64} {d : Dist Int64 ℚ G}
    (i : Dist.Inv K vs d) (hne : vs ≠ []) : d.reservoirAverage K = toI64 oob (f32avg (sample d)) := by
  have hpos : 0 < vs.length := List.length_pos_iff.mpr hne
  have hu : 0 < used vs := by unfold used; omega
  have hl := rlen_eq i
  unfold reservoirAverage
  rw [if_neg (by omega), hl, hK.avg, sample_eq i]; rfl

/-- **C66 (partial).**  While `min Count 64` values of at most the greatest absolute value inserted since the last `Reset` cannot add up to more than
`2^24` – for instance all values at most 262144 – ReservoirAverage lies between the smallest and the largest reservoir value, which
`Query(0)` and `Query(1)` return.
Full property: for all values – false, see `C66_reservoir_average_violated`; `C66_reservoir_average_error` bounds the error. -/
theorem C66_reservoir_average_partial {K oob fused} (hK : IsIntKind K oob fused) (next : G → UInt64 × G)
    (key : Key) (g : G) (ops : List (Op Int64)) (hv : Valid ops) (hne : inserted ops ≠ []) (M : ℤ)
    (hM : ∀ v ∈ inserted ops, |v.toInt| ≤ M) (hs : (min (inserted ops).length 64 : ℕ) * M ≤ 2 ^ 24)
    (d : Dist Int64 ℚ G) (e : (new K key g).run K next ops = some d) :
    ∃ rmin rmax, (d.query K 0).map (·.2) = some rmin ∧ (d.query K 1).map (·.2) = some rmax ∧
      rmin.toInt ≤ (d.reservoirAverage K).toInt ∧ (d.reservoirAverage K).toInt ≤ rmax.toInt := by
  obtain ⟨d₀, e', i⟩ := inv_run hK.numeric.ordered next key g ops hv.2 hv.1
  rw [e] at e'; cases e'
  have hpos : 1 ≤ (inserted ops).length := List.length_pos_iff.mpr hne
  obtain ⟨v0, hv0⟩ := List.exists_mem_of_ne_nil _ hne
  have hM0 : 0 ≤ M := le_trans (abs_nonneg _) (hM v0 hv0)
  have hM24 : M ≤ 2 ^ 24 := by
    have h1 : (1 : ℤ) ≤ (min (inserted ops).length 64 : ℕ) := by exact_mod_cast (by omega : 1 ≤ min (inserted ops).length 64)
    nlinarith
  have hc : Convertible ops := by
    intro v hv; have := hM v hv; have := le_abs_self v.toInt; omega
  obtain ⟨c1, c2, -⟩ := C05_reservoir_real hK next key g ops hv d e
  have hint : ∀ x ∈ sample d, ∃ k : ℤ, x = k ∧ |k| ≤ M := by
    intro x hx
    obtain ⟨v, hv, rfl⟩ := c2 x hx
    have hr : Rep 24 (v.toInt : ℚ) := by
      have := rep_of_le (p := 24) (m := v.toInt) (e := 0) (le_trans (hM v hv) hM24) (by norm_num)
      simpa using this
    exact ⟨v.toInt, rn_of_rep (by norm_num) hr, hM v hv⟩
  obtain ⟨d1, v1, lo, hi, q1, m1, m2, all1, -, -, z1, -⟩ :=
    C06_quantile_bounds_partial hK next key g ops hv hc hne d e 0 (rep_zero 53)
  obtain ⟨d2, v2, lo', hi', q2, m1', m2', all2, -, -, -, z2⟩ :=
    C06_quantile_bounds_partial hK next key g ops hv hc hne d e 1
      (by exact_mod_cast rep_nat (p := 53) (n := 1) (by norm_num))
  have ehi : hi' = hi := le_antisymm (all1 _ m2').2 (all2 _ m2).2
  subst ehi
  refine ⟨v1, v2, by rw [q1]; rfl, by rw [q2]; rfl, ?_⟩
  have hsne : sample d ≠ [] := List.ne_nil_of_mem m1
  have rep : ∀ x ∈ sample d, Rep 24 x := by
    intro x hx; obtain ⟨v, _, rfl⟩ := c2 x hx; exact rn_rep (by norm_num) _
  obtain ⟨b1, b2⟩ := f32avg_exact hsne (by rw [c1]; exact Nat.min_le_right _ _) hint (by rw [c1]; exact hs)
    (rep _ m1) (rep _ m2') all1
  have range : ∀ x ∈ sample d, InRange x := by
    intro x hx; obtain ⟨v, hv, rfl⟩ := c2 x hx; exact inRange_f32 (hc v hv)
  rw [reservoirAverage_eq hK i hne, toI64_toInt oob (inRange_between (range _ m1) (range _ m2') b1 b2),
    z1 (le_refl _), z2 (le_refl _)]
  exact ⟨trunc_mono b1, trunc_mono b2⟩

theorem trunc_abs (x : ℚ) : |(trunc x : ℚ) - x| ≤ 1 := by
  unfold trunc
  split_ifs with h
  · have h1 := Int.floor_le x; have h2 := Int.lt_floor_add_one x
    rw [abs_le]; constructor <;> linarith
  · have h1 := Int.le_ceil x; have h2 := Int.ceil_lt_add_one x
    rw [abs_le]; constructor <;> linarith

/-- **C66 (partial, error bound).**  For values of absolute value at most `B ≤ 2^62`, ReservoirAverage is the mean of the reservoir up to
`B / 2^17` – less than one part in a hundred thousand of the largest value – and the rounding to an integer. -/
theorem C66_reservoir_average_error_partial {K oob fused} (hK : IsIntKind K oob fused) (next : G → UInt64 × G)
    (key : Key) (g : G) (ops : List (Op Int64)) (hv : Valid ops) (hne : inserted ops ≠ []) (B : ℚ)
    (hB : ∀ v ∈ inserted ops, |(v.toInt : ℚ)| ≤ B) (hB62 : B ≤ 2 ^ 62)
    (d : Dist Int64 ℚ G) (e : (new K key g).run K next ops = some d) :
    |((d.reservoirAverage K).toInt : ℚ) - (sample d).sum / (sample d).length| ≤ B / 2 ^ 17 + 1 := by
  obtain ⟨d₀, e', i⟩ := inv_run hK.numeric.ordered next key g ops hv.2 hv.1
  rw [e] at e'; cases e'
  have hpos : 1 ≤ (inserted ops).length := List.length_pos_iff.mpr hne
  obtain ⟨v0, hv0⟩ := List.exists_mem_of_ne_nil _ hne
  have hB0 : 0 ≤ B := le_trans (abs_nonneg _) (hB v0 hv0)
  obtain ⟨c1, c2, -⟩ := C05_reservoir_real hK next key g ops hv d e
  have hsne : sample d ≠ [] := by
    intro h; rw [h] at c1; simp at c1; omega
  have hb : ∀ x ∈ sample d, |x| ≤ (1 + u) * B := by
    intro x hx
    obtain ⟨v, hv, rfl⟩ := c2 x hx
    have r := rn_rel (p := 24) (v.toInt : ℚ)
    have h1 := hB v hv
    have : rn 24 (v.toInt : ℚ) = v.toInt + (rn 24 (v.toInt : ℚ) - v.toInt) := by ring
    rw [this]
    refine le_trans (abs_add_le _ _) ?_
    have h2 : |(v.toInt : ℚ)| / 2 ^ 24 ≤ u * B := by
      have : |(v.toInt : ℚ)| / 2 ^ 24 = u * |(v.toInt : ℚ)| := by unfold u; ring
      rw [this]; exact mul_le_mul_of_nonneg_left h1 u_pos.le
    linarith
  have er := f32avg_error hsne (by rw [c1]; exact Nat.min_le_right _ _) hb
  have hub := u_bound
  have hu := u_pos
  have er' : |f32avg (sample d) - (sample d).sum / (sample d).length| ≤ B / 2 ^ 17 := by
    refine le_trans er ?_
    have : ((1 + u) ^ 65 - 1) * ((1 + u) * B) ≤ (1 / 2 ^ 17) * B := by
      rw [← mul_assoc]
      refine mul_le_mul_of_nonneg_right ?_ hB0
      nlinarith
    calc _ ≤ _ := this
      _ = _ := by ring
  have hmean : |(sample d).sum / (sample d).length| ≤ (1 + u) * B := by
    have hn : (0 : ℚ) < (sample d).length := by exact_mod_cast List.length_pos_iff.mpr hsne
    rw [abs_div, abs_of_pos hn, div_le_iff₀ hn]
    obtain ⟨b1, b2⟩ := sum_bounds (l := sample d) fun x hx => abs_le.mp (hb x hx)
    rw [abs_le]; constructor <;> linarith
  have hr : InRange (f32avg (sample d)) := by
    have h1 := abs_le.mp er'
    have h2 := abs_le.mp hmean
    have hu' : u ≤ 1 / 4 := by norm_num [u]
    have h3 : B / 2 ^ 17 ≤ B / 4 := by
      apply div_le_div_of_nonneg_left hB0 <;> norm_num
    have h4 : u * B ≤ B / 4 := by nlinarith
    have e1 : (2 : ℚ) ^ 63 = 2 * 2 ^ 62 := by norm_num
    have e2 : (0 : ℚ) < 2 ^ 62 := by norm_num
    constructor
    · rw [e1]; linarith [h1.1, h2.1]
    · rw [e1]; linarith [h1.2, h2.2]
  rw [reservoirAverage_eq hK i hne, toI64_toInt oob hr]
  have t := trunc_abs (f32avg (sample d))
  calc |(trunc (f32avg (sample d)) : ℚ) - (sample d).sum / (sample d).length|
      = |(trunc (f32avg (sample d)) - f32avg (sample d)) +
          (f32avg (sample d) - (sample d).sum / (sample d).length)| := by congr 1; ring
    _ ≤ 1 + B / 2 ^ 17 := le_trans (abs_add_le _ _) (add_le_add t er')
    _ = _ := by ring

/-- The hypotheses are met: three values, with average 5. -/
example : let K := intKind amd64 false
    Valid sampleOps ∧ inserted sampleOps ≠ [] ∧ (∀ v ∈ inserted sampleOps, |v.toInt| ≤ 12) ∧
    ((min (inserted sampleOps).length 64 : ℕ) : ℤ) * 12 ≤ 2 ^ 24 ∧
    ((new K ⟨[], []⟩ ()).run K zeroGen sampleOps).map (·.reservoirAverage K) = some 5 := by
  refine ⟨sampleOps_valid, by simp [sampleOps, inserted], ?_, by decide, by decide +kernel⟩
  intro v hv
  have : v ∈ [(7 : Int64), -4, 12] := hv
  simp only [List.mem_cons, List.not_mem_nil, or_false] at this
  rcases this with rfl | rfl | rfl <;> decide

theorem run_snoc {V R : Type} (K : DistKind V R) (next : G → UInt64 × G) (o : Op V) (ops : List (Op V)) (d : Dist V R G) :
    d.run K next (ops ++ [o]) = (d.run K next ops).bind fun d' => d'.step K next o := by
  induction ops generalizing d with
  | nil => simp [run]
  | cons a as ih =>
    simp only [List.cons_append, run]
    cases d.step K next a <;> simp [ih]

/-- **C66 (report).**  The `ravg` that `Stats` reports is the ReservoirAverage of a distribution with the same history: it obeys the bound of
`C66_reservoir_average_partial`, lying between the `rmin` and the `rmax` reported with it. -/
theorem C66_report_partial {K oob fused} (hK : IsIntKind K oob fused) (next : G → UInt64 × G)
    (key : Key) (g : G) (ops : List (Op Int64)) (hv : Valid ops) (hne : inserted ops ≠ []) (M : ℤ)
    (hM : ∀ v ∈ inserted ops, |v.toInt| ≤ M) (hs : (min (inserted ops).length 64 : ℕ) * M ≤ 2 ^ 24)
    (hl : ops.length + 1 < 2 ^ 63)
    (d : Dist Int64 ℚ G) (e : (new K key g).run K next ops = some d) :
    ∃ d' r, d.stats K = some (d', r) ∧ ∃ rmin ravg rmax : Int64,
      rmin.toInt ≤ ravg.toInt ∧ ravg.toInt ≤ rmax.toInt ∧
      r[4]? = some (d.key, b!"rmin", K.toF rmin) ∧ r[5]? = some (d.key, b!"ravg", K.toF ravg) ∧
      r[10]? = some (d.key, b!"rmax", K.toF rmax) := by
  obtain ⟨d₀, e', i⟩ := inv_run hK.numeric.ordered next key g ops hv.2 hv.1
  rw [e] at e'; cases e'
  obtain ⟨d', r, h1, h2, h3, h4⟩ := stats_spec hK.numeric.ordered i
  obtain ⟨q0, q10, q50, q90, q99, q1, ravg, a0, a10, a50, a90, a99, a1, hr⟩ := h4 hne
  have hlen : 0 < (inserted ops).length := List.length_pos_iff.mpr hne
  have hp : d.count > 0 := by
    show 0 < d.count
    rw [Int64.lt_iff_toInt_lt, i.count]; show 0 < _; omega
  have l0 : lit 0 = 0 := rn_zero 53
  obtain ⟨d1, v0, e1, i1, _⟩ := query_spec hK.numeric.ordered i 0 (rep_zero 53)
  have hst := h1
  rw [stats, if_pos hp, l0, e1] at hst
  simp only [Option.bind_eq_bind, Option.bind_some, Option.bind_eq_some_iff, Prod.exists, Option.some.injEq, Prod.mk.injEq] at hst
  obtain ⟨_, _, _, _, _, _, _, _, _, _, _, _, _, _, _, ed, er⟩ := hst
  rw [ed] at er
  have er5 : r[5]? = some (d'.key, b!"ravg", K.toF (d1.reservoirAverage K)) := by rw [← er]; rfl
  have hin : inserted (ops ++ [.query 0]) = inserted ops := by rw [inserted_snoc]
  have erun : (new K key g).run K next (ops ++ [.query 0]) = some d1 := by
    rw [run_snoc, e]
    show (d.query K 0).map (·.1) = some d1
    rw [e1]; rfl
  have hv' : Valid (ops ++ [.query 0]) := by
    refine ⟨by simpa using hl, ?_⟩
    intro q hq
    rcases List.mem_append.mp hq with hq | hq
    · exact hv.2 q hq
    · simp only [List.mem_singleton, Op.query.injEq] at hq; subst hq; exact rep_zero 53
  obtain ⟨rmin, rmax, a, b, c, dd⟩ := C66_reservoir_average_partial hK next key g (ops ++ [.query 0]) hv' (by rw [hin]; exact hne) M
    (by rw [hin]; exact hM) (by rw [hin]; exact hs) d1 erun
  rw [query_stable e1] at a b
  rw [a0] at a; rw [a1] at b; cases a; cases b
  refine ⟨d', r, h1, q0, d1.reservoirAverage K, q1, c, dd, by rw [hr]; rfl, ?_, by rw [hr]; rfl⟩
  have : d'.key = d.key := by
    have k1 : r[0]? = some (d'.key, b!"count", .int d'.count) := by rw [← er]; rfl
    have k2 : r[0]? = some (d.key, b!"count", .int d.count) := by rw [hr]; rfl
    rw [k1] at k2; simp only [Option.some.injEq, Prod.mk.injEq] at k2; exact k2.1
  rw [er5, this]

end Monkit
