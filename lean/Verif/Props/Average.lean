import Verif.Proofs.Average
import Verif.Props.FloatDist2
import Verif.Props.Quantile

/-!
# C113: averages are averages
-/

namespace Monkit
open Monkit.Spec Monkit.Dist Go Go.Float
variable {G : Type}

/-- **C113 (`FullAverage`).**  After every history of an `IntDist` or `DurationDist`, `FullAverage` is the two's-complement sum of the values inserted since the last `Reset`, divided by their number,
with the fraction cut off towards zero; it is 0 if there are none (`Int.tdiv` gives 0 when dividing by 0).  So, if the sum fits an int64, it is their mean, up to less than one. -/
theorem C113_full_average {K oob fused} (hK : IsIntKind K oob fused) (next : G → UInt64 × G)
    (key : Key) (g : G) (ops : List (Op Int64)) (hv : Valid ops) :
    ∃ d, (new K key g).run K next ops = some d ∧
      d.fullAverage.toInt = (wrapSum (inserted ops)).tdiv (inserted ops).length ∧
      (inserted ops = [] → d.fullAverage = 0) ∧
      (inserted ops ≠ [] → -(2 : ℤ) ^ 63 ≤ ((inserted ops).map Int64.toInt).sum → ((inserted ops).map Int64.toInt).sum < 2 ^ 63 →
        |(d.fullAverage.toInt : ℚ) - (((inserted ops).map Int64.toInt).sum : ℚ) / (inserted ops).length| < 1) := by
  obtain ⟨d, e, h1, h2, -⟩ := C04_dist_aggregates hK next key g ops hv
  have h0 : (0 : Int64).toInt = 0 := rfl
  have main : d.fullAverage.toInt = (wrapSum (inserted ops)).tdiv (inserted ops).length := by
    unfold fullAverage
    split
    · next hc =>
      have hcp : 0 < d.count.toInt := by
        have := Int64.lt_iff_toInt_lt.1 hc; simpa using this
      rw [← h2, ← h1, Int64.toInt_div]
      have hle : (d.sum.toInt.tdiv d.count.toInt).natAbs ≤ d.sum.toInt.natAbs := by
        rw [Int.natAbs_tdiv]; exact Nat.div_le_self _ _
      have h63 := Int64.toInt_lt d.sum
      have h64 := Int64.le_toInt d.sum
      by_cases hx : 0 ≤ d.sum.toInt
      · have := Int.tdiv_nonneg hx hcp.le
        rw [Int.bmod_eq_of_le] <;> omega
      · have := Int.tdiv_nonneg (by omega : 0 ≤ -d.sum.toInt) hcp.le
        rw [Int.neg_tdiv] at this
        rw [Int.bmod_eq_of_le] <;> omega
    · next hc =>
      have hcp : ¬ 0 < d.count.toInt := fun h => hc (by
        show 0 < d.count
        rw [Int64.lt_iff_toInt_lt]; exact h)
      have : (inserted ops).length = 0 := by omega
      rw [this]; simp
  refine ⟨d, e, main, fun hn => ?_, fun hne hlo hhi => ?_⟩
  · apply Int64.toInt_inj.1
    rw [main, hn]; simp
  · have hs : wrapSum (inserted ops) = ((inserted ops).map Int64.toInt).sum := by
      rw [wrapSum, Int.bmod_eq_of_le] <;> omega
    rw [main, hs]
    have hn : 0 < ((inserted ops).length : ℤ) := by exact_mod_cast List.length_pos_iff.2 hne
    generalize ((inserted ops).map Int64.toInt).sum = S at *
    generalize (inserted ops).length = n at *
    have h6 := Int.mul_tdiv_add_tmod S n
    have h7 := Int.tmod_lt_of_pos S hn
    have h8 := Int.lt_tmod_of_pos S hn
    have hnq : (0 : ℚ) < n := by exact_mod_cast hn
    have h6' : (n : ℚ) * (S.tdiv n : ℤ) + (S.tmod n : ℤ) = S := by exact_mod_cast h6
    have h7' : ((S.tmod n : ℤ) : ℚ) < n := by exact_mod_cast h7
    have h8' : -(n : ℚ) < (S.tmod n : ℤ) := by exact_mod_cast h8
    have e' : (S : ℚ) / n = (S.tdiv n : ℤ) + (S.tmod n : ℤ) / (n : ℚ) := by
      rw [← h6']; field_simp
    rw [e', sub_add_cancel_left, abs_neg, abs_div, abs_of_pos hnq, div_lt_one hnq, abs_lt]
    exact ⟨h8', h7'⟩

/-- Some values, a reset among them; their average -1 is -4/3 cut off. -/
example : let ops : List (Op Int64) := [.insert 5 1024, .reset, .insert (-7) 1024, .insert 1 1024, .insert 2 1024]
    Valid ops ∧ inserted ops ≠ [] ∧ ((inserted ops).map Int64.toInt).sum = -4 ∧
    ((new (intKind (fun _ => 0) false) ⟨[], []⟩ ()).run (intKind (fun _ => 0) false) zeroGen ops).map fullAverage = some (-1) := by
  refine ⟨⟨by decide, ?_⟩, by simp [inserted], rfl, by decide +kernel⟩
  intro q hq
  simp at hq

/-- **C113 (nothing).**  Without values since the last `Reset`, both averages of every kind of distribution are 0, also if there were values before. -/
theorem C113_empty (next : G → UInt64 × G) (key : Key) (g : G) :
    (∀ {K oob fused}, IsIntKind K oob fused → ∀ ops : List (Op Int64), Valid ops → inserted ops = [] →
      ∃ d, (new K key g).run K next ops = some d ∧ d.fullAverage = 0 ∧ d.reservoirAverage K = 0) ∧
    (∀ (fused : Bool) (ops : List (Op F)), ops.length < 2 ^ 63 → (∀ q, Op.query q ∈ ops → Rep 53 q) → inserted ops = [] →
      ∃ d, (new (floatKind fused) key g).run (floatKind fused) next ops = some d ∧ d.floatAverage = .fin 0 ∧ d.reservoirAverage (floatKind fused) = .fin 0) := by
  refine ⟨fun {K oob fused} hK ops hv hn => ?_, fun fused ops hl hq hn => ?_⟩
  · obtain ⟨d, e, -, h, -⟩ := C113_full_average hK next key g ops hv
    obtain ⟨d', e', i⟩ := inv_run hK.numeric.ordered next key g ops hv.2 hv.1
    rw [e] at e'; cases e'
    refine ⟨d, e, h hn, ?_⟩
    have hl := rlen_eq i
    rw [hn] at hl
    unfold reservoirAverage
    rw [if_pos (by rw [hl]; simp [used]), hK.zero]
  · obtain ⟨d, e, i⟩ := inv_run (float_ordered fused) next key g ops hq hl
    refine ⟨d, e, ?_, ?_⟩
    · unfold floatAverage
      rw [if_neg]
      show ¬ 0 < d.count
      rw [Int64.lt_iff_toInt_lt, i.count, hn]; simp
    · have hl := rlen_eq i
      rw [hn] at hl
      unfold reservoirAverage
      rw [if_pos (by rw [hl]; simp [used])]; rfl

/-- Such a history: a value, and a reset. -/
example : Valid [Op.insert 5 1024, .reset] ∧ inserted [Op.insert (5 : Int64) 1024, .reset] = [] := by
  refine ⟨⟨by decide, ?_⟩, rfl⟩
  intro q hq
  simp at hq

/-- **C113 (`FullAverage` of floats).**  With at most `2^50` values since the last `Reset`, all of them numbers of magnitude at most `m ≤ 2^960`, `FullAverage` of a `FloatDist` is a number that differs
from the mean of the values by at most `(n + 1) * m / 2^52`, and three times the least positive float64. -/
theorem C113_float_full_average (fused : Bool) (next : G → UInt64 × G) (key : Key) (g : G) (ops : List (Op F)) (hq : ∀ q, Op.query q ∈ ops → Rep 53 q)
    (hl : ops.length < 2 ^ 63) (xs : List ℚ) (hi : inserted ops = xs.map F.fin) (hne : xs ≠ []) (hn : xs.length ≤ 2 ^ 50) (m : ℚ) (hm : m ≤ 2 ^ 960) (hx : ∀ x ∈ xs, |x| ≤ m) :
    ∃ d a, (new (floatKind fused) key g).run (floatKind fused) next ops = some d ∧ d.floatAverage = .fin a ∧
      |a - xs.sum / xs.length| ≤ (xs.length + 1) * m / 2 ^ 52 + 3 / 2 ^ 1074 := by
  obtain ⟨d, e, i⟩ := inv_run (float_ordered fused) next key g ops hq hl
  have hh := FloatDist.holds i
  have hlen : 0 < xs.length := List.length_pos_iff.2 hne
  have hp : d.count > 0 := by
    show 0 < d.count
    rw [Int64.lt_iff_toInt_lt, i.count, hi, List.length_map]; show 0 < _; omega
  have hcnt : rn 53 (d.count.toInt : ℚ) = xs.length := by
    rw [hh.count, hi, List.length_map]
    have : (((xs.length : ℕ) : ℤ) : ℚ) = (xs.length : ℚ) := Int.cast_natCast _
    rw [this]
    refine rn_of_rep (by norm_num) (rep_nat ?_)
    omega
  have hnq : (xs.length : ℚ) ≤ 2 ^ 50 := by exact_mod_cast hn
  have hn0 : (0 : ℚ) < xs.length := by exact_mod_cast hlen
  obtain ⟨a, h1, h2⟩ := average_error (f := b64) (by decide) m (by decide) xs hne hx
    (by show 4 * ((xs.length : ℚ) + 1) ≤ (2 : ℚ) ^ 53
        linarith [show (2 : ℚ) ^ 53 = 8 * 2 ^ 50 by norm_num, show (1 : ℚ) ≤ 2 ^ 50 by norm_num])
    (by show 2 * (xs.length : ℚ) * (m + 2 * (2 : ℚ) ^ (-1074 : ℤ)) ≤ (2 : ℚ) ^ (1023 : ℤ)
        have e1 : m + 2 * (2 : ℚ) ^ (-1074 : ℤ) ≤ (2 : ℚ) ^ (961 : ℤ) := by
          have : 2 * (2 : ℚ) ^ (-1074 : ℤ) ≤ (2 : ℚ) ^ 960 := by
            rw [← zpow_natCast, show (2 : ℚ) * (2 : ℚ) ^ (-1074 : ℤ) = (2 : ℚ) ^ (-1073 : ℤ) by
              rw [← zpow_one_add₀ (by norm_num)]; norm_num]
            exact zpow_le_zpow_right₀ (by norm_num) (by norm_num)
          have e2 : (2 : ℚ) ^ (961 : ℤ) = 2 * (2 : ℚ) ^ 960 := by
            rw [← zpow_natCast, ← zpow_one_add₀ (by norm_num)]; norm_num
          rw [e2]; linarith
        have e3 : (2 : ℚ) ^ (1023 : ℤ) = (2 * 2 ^ 50) * (2 : ℚ) ^ (961 : ℤ) * 2 ^ 11 := by
          rw [show (2 * 2 ^ 50 : ℚ) = (2 : ℚ) ^ (51 : ℤ) by norm_num, ← zpow_add₀ (by norm_num), show (2 ^ 11 : ℚ) = (2 : ℚ) ^ (11 : ℤ) by norm_num, ← zpow_add₀ (by norm_num)]
          norm_num
        have hz : 0 < (2 : ℚ) ^ (961 : ℤ) := two_zpow_pos _
        generalize (2 : ℚ) ^ (961 : ℤ) = Z at *
        calc 2 * (xs.length : ℚ) * (m + 2 * (2 : ℚ) ^ (-1074 : ℤ)) ≤ 2 * (xs.length : ℚ) * Z := mul_le_mul_of_nonneg_left e1 (by positivity)
          _ ≤ (2 * 2 ^ 50) * Z := mul_le_mul_of_nonneg_right (by linarith) hz.le
          _ ≤ (2 * 2 ^ 50) * Z * 2 ^ 11 := le_mul_of_one_le_right (by positivity) (by norm_num)
          _ = _ := e3.symm)
  refine ⟨d, a, e, ?_, le_trans h2 (le_of_eq ?_)⟩
  · unfold floatAverage
    rw [if_pos hp, hcnt, hh.sum, hi]
    exact h1
  · show 2 * ((xs.length : ℚ) + 1) * m / (2 : ℚ) ^ 53 + 3 * (2 : ℚ) ^ (-1074 : ℤ) = _
    have : (2 : ℚ) ^ (-1074 : ℤ) = 1 / 2 ^ 1074 := by rw [zpow_neg, one_div]; exact congrArg _ (zpow_natCast (2 : ℚ) 1074)
    rw [this]
    ring

/-- **C113 (`ReservoirAverage` of floats).**  With values of magnitude at most `2^100`, `ReservoirAverage` of a `FloatDist` is a number that differs from the mean of the sampled values by at most
`65 / 2^23` times the greatest magnitude `m` in the sample, and three times the least positive float32. -/
theorem C113_float_reservoir_average (fused : Bool) (next : G → UInt64 × G) (key : Key) (g : G) (ops : List (Op F)) (hq : ∀ q, Op.query q ∈ ops → Rep 53 q)
    (hl : ops.length < 2 ^ 63) (hne : inserted ops ≠ []) (hb : ∀ v ∈ inserted ops, ∃ x, v = .fin x ∧ |x| ≤ 2 ^ 100) :
    ∃ d a, ∃ xs : List ℚ, (new (floatKind fused) key g).run (floatKind fused) next ops = some d ∧ d.reservoirAverage (floatKind fused) = .fin a ∧ sample d = xs.map F.fin ∧
      ∀ m, (∀ x ∈ xs, |x| ≤ m) → |a - xs.sum / xs.length| ≤ 65 * m / 2 ^ 23 + 3 / 2 ^ 149 := by
  obtain ⟨d, e, i⟩ := inv_run (float_ordered fused) next key g ops hq hl
  have hlen : 0 < (inserted ops).length := List.length_pos_iff.2 hne
  have hs : sample d = d.reservoir.take (used (inserted ops)) := by
    unfold sample used; rw [i.count]; simp
  have hel : ∀ y ∈ sample d, ∃ x, y = .fin x ∧ |x| ≤ (2 : ℚ) ^ (100 : ℤ) := by
    intro y hy
    rw [hs] at hy
    obtain ⟨v, hv, rfl⟩ := i.mem y hy
    obtain ⟨x, rfl, hx⟩ := hb v hv
    have h1 : |b32.near x| ≤ (2 : ℚ) ^ (100 : ℤ) := near_abs_le (f := b32) (by decide) (by decide) (by exact_mod_cast hx)
    exact ⟨b32.near x, round_fin (lt_of_le_of_lt h1 (zpow_lt_zpow_right₀ (by norm_num) (by decide))), h1⟩
  have hex : ∀ l : List F, (∀ y ∈ l, ∃ x, y = .fin x ∧ |x| ≤ (2 : ℚ) ^ (100 : ℤ)) → ∃ xs : List ℚ, l = xs.map F.fin ∧ ∀ x ∈ xs, |x| ≤ (2 : ℚ) ^ (100 : ℤ) := by
    intro l hl
    induction l with
    | nil => exact ⟨[], rfl, by simp⟩
    | cons y l ih =>
      obtain ⟨x, rfl, hx⟩ := hl y (by simp)
      obtain ⟨xs, rfl, hxs⟩ := ih fun y hy => hl y (by simp [hy])
      exact ⟨x :: xs, rfl, by simpa using ⟨hx, hxs⟩⟩
  obtain ⟨xs, hxs, hb'⟩ := hex _ hel
  have hlx : xs.length = used (inserted ops) := by
    have := congrArg List.length hxs
    rw [hs, List.length_take, i.len, List.length_map] at this
    unfold used at this ⊢; omega
  have hx64 : xs.length ≤ 64 := by rw [hlx]; unfold used; omega
  have hxne : xs ≠ [] := by
    apply List.ne_nil_of_length_pos; rw [hlx]; unfold used; omega
  have hx64q : (xs.length : ℚ) ≤ 64 := by exact_mod_cast hx64
  have hav : ∀ m, (∀ x ∈ xs, |x| ≤ m) → m ≤ 2 ^ 100 → ∃ a, d.reservoirAverage (floatKind fused) = .fin a ∧
      |a - xs.sum / xs.length| ≤ 65 * m / 2 ^ 23 + 3 / 2 ^ 149 := by
    intro m hm hm100
    obtain ⟨x0, hx0⟩ := List.exists_mem_of_ne_nil xs hxne
    have hm0 : 0 ≤ m := le_trans (abs_nonneg _) (hm x0 hx0)
    obtain ⟨a, h1, h2⟩ := average_error (f := b32) (by decide) m (by decide) xs hxne hm
      (by show 4 * ((xs.length : ℚ) + 1) ≤ (2 : ℚ) ^ 24
          linarith [show (260 : ℚ) ≤ 2 ^ 24 by norm_num])
      (by show 2 * (xs.length : ℚ) * (m + 2 * (2 : ℚ) ^ (-149 : ℤ)) ≤ (2 : ℚ) ^ (127 : ℤ)
          have : m + 2 * (2 : ℚ) ^ (-149 : ℤ) ≤ 2 ^ 101 := by
            have : 2 * (2 : ℚ) ^ (-149 : ℤ) ≤ 2 ^ 100 := by norm_num
            linarith [show (2 : ℚ) ^ 101 = 2 * 2 ^ 100 by norm_num]
          calc 2 * (xs.length : ℚ) * (m + 2 * (2 : ℚ) ^ (-149 : ℤ)) ≤ 2 * (xs.length : ℚ) * 2 ^ 101 := mul_le_mul_of_nonneg_left this (by positivity)
            _ ≤ 2 * 64 * 2 ^ 101 := mul_le_mul_of_nonneg_right (by linarith) (by norm_num)
            _ ≤ _ := by norm_num)
    refine ⟨a, ?_, le_trans h2 ?_⟩
    · rw [FloatDist.reservoirAverage_float i hne, ← hs, hxs, List.length_map]; exact h1
    · show 2 * ((xs.length : ℚ) + 1) * m / (2 : ℚ) ^ 24 + 3 * (2 : ℚ) ^ (-149 : ℤ) ≤ _
      have e1 : (2 : ℚ) ^ (-149 : ℤ) = 1 / 2 ^ 149 := by norm_num
      rw [e1]
      have e2 : 2 * ((xs.length : ℚ) + 1) * m / (2 : ℚ) ^ 24 = ((xs.length : ℚ) + 1) * m / 2 ^ 23 := by ring
      have e3 : ((xs.length : ℚ) + 1) * m / 2 ^ 23 ≤ 65 * m / 2 ^ 23 := by
        gcongr; linarith
      linarith
  obtain ⟨a, ha, -⟩ := hav (2 ^ 100) (by exact_mod_cast hb') (le_refl _)
  refine ⟨d, a, xs, e, ha, hxs, fun m hm => ?_⟩
  obtain ⟨a', ha', h⟩ := hav (min m (2 ^ 100)) (fun x hx => le_min (hm x hx) (by exact_mod_cast hb' x hx)) (min_le_right _ _)
  rw [ha] at ha'
  cases ha'
  have : 65 * min m (2 ^ 100) / 2 ^ 23 ≤ 65 * m / (2 : ℚ) ^ 23 := by
    gcongr; exact min_le_left _ _
  linarith

/-- `Stats` reports, under `ravg`, the ReservoirAverage after a `Query`. -/
theorem stats_ravg {V R : Type} {K : DistKind V R} (hK : Ordered K) {vs : List V} {d : Dist V R G} (i : Dist.Inv K vs d) (hne : vs ≠ []) :
    ∃ d1 v r, d.query K 0 = some (d1, v) ∧ (d.stats K).map (·.2) = some r ∧
      r.filter (fun e => e.2.1 = b!"ravg") = [(d.key, b!"ravg", K.toF (d1.reservoirAverage K))] := by
  obtain ⟨d', r, h1, h2, h3, h4⟩ := stats_spec hK i
  obtain ⟨q0, q10, q50, q90, q99, q1, ravg, a0, a10, a50, a90, a99, a1, hr⟩ := h4 hne
  have hlen : 0 < vs.length := List.length_pos_iff.mpr hne
  have hp : d.count > 0 := by
    show 0 < d.count
    rw [Int64.lt_iff_toInt_lt, i.count]; show 0 < _; omega
  have l0 : lit 0 = 0 := rn_zero 53
  obtain ⟨d1, v0, e1, i1, _⟩ := query_spec hK i 0 (rep_zero 53)
  have hst := h1
  rw [stats, if_pos hp, l0, e1] at hst
  simp only [Option.bind_eq_bind, Option.bind_some, Option.bind_eq_some_iff, Prod.exists, Option.some.injEq, Prod.mk.injEq] at hst
  obtain ⟨_, _, _, _, _, _, _, _, _, _, _, _, _, _, _, ed, er⟩ := hst
  have hk : d'.key = d.key := stats_key h1
  refine ⟨d1, v0, r, e1, by rw [h1]; rfl, ?_⟩
  rw [← er, ed, hk]
  rfl

/-- **C113 (reports).**  The `ravg` that `Stats` of an `IntDist` or `DurationDist` reports is the mean of the sample, up to one part in `2^17` of the largest magnitude and a fraction that is cut off. -/
theorem C113_report {K oob fused} (hK : IsIntKind K oob fused) (next : G → UInt64 × G)
    (key : Key) (g : G) (ops : List (Op Int64)) (hv : Valid ops) (hl : ops.length + 1 < 2 ^ 63) (hne : inserted ops ≠ []) (B : ℚ)
    (hB : ∀ v ∈ inserted ops, |(v.toInt : ℚ)| ≤ B) (hB62 : B ≤ 2 ^ 62) :
    ∃ d r v, (new K key g).run K next ops = some d ∧ (d.stats K).map (·.2) = some r ∧
      r.filter (fun e => e.2.1 = b!"ravg") = [(key, b!"ravg", K.toF v)] ∧
      |(v.toInt : ℚ) - (sample d).sum / (sample d).length| ≤ B / 2 ^ 17 + 1 := by
  obtain ⟨d, e, i⟩ := inv_run hK.numeric.ordered next key g ops hv.2 hv.1
  obtain ⟨d1, v0, r, e1, e2, e3⟩ := stats_ravg hK.numeric.ordered i hne
  have hin : inserted (ops ++ [.query 0]) = inserted ops := by rw [inserted_snoc]
  have erun : (new K key g).run K next (ops ++ [.query 0]) = some d1 := by
    rw [run_snoc, e]
    show (d.query K 0).map (·.1) = some d1
    rw [e1]; rfl
  have hv' : Valid (ops ++ [.query 0]) := by
    refine ⟨by simpa using hl, ?_⟩
    intro q hq
    rcases List.mem_append.mp hq with hq | hq
    · exact hv.2 q hq
    · simp only [List.mem_singleton, Op.query.injEq] at hq; subst hq; exact rep_zero 53
  have b := C66_reservoir_average_error_partial hK next key g (ops ++ [.query 0]) hv' (by rw [hin]; exact hne) B (by rw [hin]; exact hB) hB62 d1 erun
  have i1 : Dist.Inv K (inserted ops) d1 := by
    obtain ⟨d1', v', a, b, -⟩ := query_spec hK.numeric.ordered i 0 (rep_zero 53)
    rw [e1] at a; cases a; exact b
  have hp := query_perm i e1
  rw [← sample_eq i1] at hp
  rw [hp.sum_eq, hp.length_eq] at b
  have hkey : d.key = key := run_key ops e
  exact ⟨d, r, _, e, e2, by rw [← hkey]; exact e3, b⟩

/-- The hypotheses are met by the history in Props/Quantile. -/
example : quantileOps.length + 1 < 2 ^ 63 ∧ ∀ v ∈ inserted quantileOps, |(v.toInt : ℚ)| ≤ 1000 := by
  refine ⟨by decide, ?_⟩
  rw [quantileOps_inserted]
  have : ∀ v ∈ [(30 : Int64), -7, 1000, 8, 9], |v.toInt| ≤ 1000 := by decide
  intro v hv
  exact_mod_cast this v hv

/-- **C113 (reports of floats).**  The `ravg` that `Stats` of a `FloatDist` reports is, for values of magnitude at most `2^100`, the mean of the sample, up to `65 / 2^23` of the largest magnitude in it
and three times the least positive float32. -/
theorem C113_float_report (fused : Bool) (next : G → UInt64 × G) (key : Key) (g : G) (ops : List (Op F)) (hq : ∀ q, Op.query q ∈ ops → Rep 53 q)
    (hl : ops.length + 1 < 2 ^ 63) (hne : inserted ops ≠ []) (hb : ∀ v ∈ inserted ops, ∃ x, v = .fin x ∧ |x| ≤ 2 ^ 100) :
    ∃ d r a, ∃ xs : List ℚ, (new (floatKind fused) key g).run (floatKind fused) next ops = some d ∧ (d.stats (floatKind fused)).map (·.2) = some r ∧
      r.filter (fun e => e.2.1 = b!"ravg") = [(key, b!"ravg", .flt a)] ∧ (sample d).Perm (xs.map F.fin) ∧
      ∀ m, (∀ x ∈ xs, |x| ≤ m) → |a - xs.sum / xs.length| ≤ 65 * m / 2 ^ 23 + 3 / 2 ^ 149 := by
  obtain ⟨d, e, i⟩ := inv_run (float_ordered fused) next key g ops hq (by omega)
  obtain ⟨d1, v0, r, e1, e2, e3⟩ := stats_ravg (float_ordered fused) i hne
  have hin : inserted (ops ++ [.query 0]) = inserted ops := by rw [inserted_snoc]
  have erun : (new (floatKind fused) key g).run (floatKind fused) next (ops ++ [.query 0]) = some d1 := by
    rw [run_snoc, e]
    show (d.query (floatKind fused) 0).map (·.1) = some d1
    rw [e1]; rfl
  obtain ⟨d', a, xs, e', ha, hx, hm⟩ := C113_float_reservoir_average fused next key g (ops ++ [.query 0]) (by
      intro q hq'
      rcases List.mem_append.mp hq' with h | h
      · exact hq q h
      · simp only [List.mem_singleton, Op.query.injEq] at h; subst h; exact rep_zero 53) (by simpa using hl) (by rw [hin]; exact hne) (by rw [hin]; exact hb)
  rw [erun] at e'
  cases e'
  have i1 : Dist.Inv (floatKind fused) (inserted ops) d1 := by
    obtain ⟨d1', v', a, b, -⟩ := query_spec (float_ordered fused) i 0 (rep_zero 53)
    rw [e1] at a; cases a; exact b
  have hs : sample d1 = d1.reservoir.take (used (inserted ops)) := by
    unfold sample used; rw [i1.count]; simp
  have hp := query_perm i e1
  rw [← hs, hx] at hp
  have hkey : d.key = key := run_key ops e
  refine ⟨d, r, a, xs, e, e2, ?_, hp.symm, hm⟩
  rw [e3, hkey, ha]; rfl

/-- The hypotheses of these are met by three values 0.1; the average is off by `2^-56`. -/
example : let ops : List (Op F) := [.insert (.fin tenth) 1024, .insert (.fin tenth) 1024, .insert (.fin tenth) 1024]
    (∀ q, Op.query q ∈ ops → Rep 53 q) ∧ ops.length < 2 ^ 63 ∧ inserted ops = [tenth, tenth, tenth].map F.fin ∧ (1 : ℚ) ≤ 2 ^ 960 ∧ (∀ x ∈ [tenth, tenth, tenth], |x| ≤ 1) ∧
    (∀ v ∈ inserted ops, ∃ x, v = .fin x ∧ |x| ≤ 2 ^ 100) ∧
    ((new (floatKind false) ⟨[], []⟩ ()).run (floatKind false) zeroGen ops).map floatAverage = some (.fin (tenth + 1 / 2 ^ 56)) := by
  have hi : inserted ([.insert (.fin tenth) 1024, .insert (.fin tenth) 1024, .insert (.fin tenth) 1024] : List (Op F)) = [tenth, tenth, tenth].map F.fin := rfl
  have ht : |tenth| ≤ 1 := by unfold tenth; norm_num [abs_of_pos]
  refine ⟨by intro q hq; simp at hq, by decide, hi, one_le_pow₀ (by norm_num), by simpa using ht, ?_, by decide +kernel⟩
  rw [hi]
  intro v hv
  simp only [List.map_cons, List.map_nil, List.mem_cons, List.not_mem_nil, or_false, or_self] at hv
  exact ⟨tenth, hv, le_trans ht (by norm_num)⟩

end Monkit
