import Verif.Props.Dist

/-!
# C06 (reports), C08 (Reset), averages, float distributions, and witnesses
-/

namespace Monkit
open Monkit.Spec Monkit.Dist Go Go.Float

variable {G G' : Type}

/-! ## C06: the report -/

/-- **C06 (partial: values ≥ 2^63 − 2^38 excluded).** `Stats` never panics; with at least one value
since the last `Reset` it reports count, sum, min, max, rmin, ravg, r10, r50, r90, r99, rmax, recent
in this order, where count/sum/min/max/recent are the exact aggregates and
rmin ≤ r10 ≤ r50 ≤ r90 ≤ r99 ≤ rmax; without values it reports only the count 0. -/
theorem C06_stats_report_partial {K oob fused} (hK : IsIntKind K oob fused) (next : G → UInt64 × G)
    (key : Key) (g : G) (ops : List (Op Int64)) (hv : Valid ops) (hc : Convertible ops)
    (d : Dist Int64 ℚ G) (e : (new K key g).run K next ops = some d) :
    ∃ d' r, d.stats K = some (d', r) ∧
      (inserted ops = [] → r = [(d.key, b!"count", .int 0)]) ∧
      (inserted ops ≠ [] → ∃ sum low high recent rmin ravg r10 r50 r90 r99 rmax cnt : Int64,
        cnt.toInt = (inserted ops).length ∧ sum.toInt = wrapSum (inserted ops) ∧
        isMinOrZero (inserted ops) low ∧ isMaxOrZero (inserted ops) high ∧
        (inserted ops).getLast? = some recent ∧
        rmin.toInt ≤ r10.toInt ∧ r10.toInt ≤ r50.toInt ∧ r50.toInt ≤ r90.toInt ∧
        r90.toInt ≤ r99.toInt ∧ r99.toInt ≤ rmax.toInt ∧
        r = [(d.key, b!"count", .int cnt), (d.key, b!"sum", K.toF sum),
          (d.key, b!"min", K.toF low), (d.key, b!"max", K.toF high),
          (d.key, b!"rmin", K.toF rmin), (d.key, b!"ravg", K.toF ravg), (d.key, b!"r10", K.toF r10),
          (d.key, b!"r50", K.toF r50), (d.key, b!"r90", K.toF r90), (d.key, b!"r99", K.toF r99),
          (d.key, b!"rmax", K.toF rmax), (d.key, b!"recent", K.toF recent)]) := by
  obtain ⟨d₀, e', i⟩ := inv_run hK.numeric.ordered next key g ops hv.2 hv.1
  rw [e] at e'; cases e'
  obtain ⟨d', r, h1, h2, h3, h4⟩ := stats_spec hK.numeric.ordered i
  refine ⟨d', r, h1, ?_, ?_⟩
  · intro hn
    have : d.count = 0 := by apply Int64.toInt_inj.mp; rw [i.count, hn]; rfl
    rw [h3 hn, this]
  · intro hn
    obtain ⟨q0, q10, q50, q90, q99, q1, ravg, a0, a10, a50, a90, a99, a1, hr⟩ := h4 hn
    have mono := C06_quantile_monotone_partial hK next key g ops hv hc hn d e
    have r0 : Rep 53 0 := rep_zero 53
    have r1 : Rep 53 1 := by exact_mod_cast rep_nat (p := 53) (n := 1) (by norm_num)
    have get : ∀ (q q' : ℚ) (x x' : Int64), Rep 53 q → Rep 53 q' → q ≤ q' →
        (d.query K q).map (·.2) = some x → (d.query K q').map (·.2) = some x' →
        x.toInt ≤ x'.toInt := by
      intro q q' x x' hq hq' hqq hx hx'
      obtain ⟨v, v', b1, b2, b3⟩ := mono q q' hq hq' hqq
      rw [hx] at b1; rw [hx'] at b2
      cases b1; cases b2; exact b3
    have hlast : (inserted ops).getLast? = some d.recent := by
      rw [i.recent, hK.zero]
      cases h : (inserted ops).getLast? with
      | none => exact absurd (List.getLast?_eq_none_iff.mp h) hn
      | some x => rfl
    refine ⟨d.sum, d.low, d.high, d.recent, q0, ravg, q10, q50, q90, q99, q1, d.count, i.count, ?_,
      ?_, ?_, hlast, ?_, ?_, ?_, ?_, ?_, hr⟩
    · rw [i.sum, hK.sum]
    · rw [i.low]; exact hK.low _
    · rw [i.high]; exact hK.high _
    · refine get _ _ _ _ r0 (rep_lit _) ?_ a0 a10
      decide +kernel
    · refine get _ _ _ _ (rep_lit _) (rep_lit _) ?_ a10 a50
      decide +kernel
    · refine get _ _ _ _ (rep_lit _) (rep_lit _) ?_ a50 a90
      decide +kernel
    · refine get _ _ _ _ (rep_lit _) (rep_lit _) ?_ a90 a99
      decide +kernel
    · refine get _ _ _ _ (rep_lit _) r1 ?_ a99 a1
      decide +kernel

/-! ## C08: Reset -/

theorem queryResult_unique {V : Type} {K : DistKind V ℚ} {res : List ℚ} {q : ℚ} {v v' : V}
    (h : QueryResult K res q v) (h' : QueryResult K res q v') : v = v' := by
  cases h with
  | single x hx e =>
    subst hx
    cases h' with
    | single y hy e' => simp at hy; subst hy; rw [e, e']
    | first _ hl => simp at hl
    | last _ hl => simp at hl
    | between _ _ _ _ hl => simp at hl
  | first x hl hx hq e =>
    cases h' with
    | single y hy e' => subst hy; simp at hl
    | first y _ hy _ e' => rw [hx] at hy; cases hy; rw [e, e']
    | last _ _ _ hq' => linarith
    | between _ _ _ _ _ h1 => linarith
  | last x hl hx hq e =>
    cases h' with
    | single y hy e' => subst hy; simp at hl
    | first _ _ _ hq' => linarith
    | last y _ hy _ e' => rw [hx] at hy; cases hy; rw [e, e']
    | between _ _ _ _ _ _ h2 => linarith
  | between i diff a b hl q0 q1 hi ha hb hdi hd d0 d1 hr e =>
    cases h' with
    | single y hy e' => subst hy; simp at hl
    | first _ _ _ hq' => linarith
    | last _ _ _ hq' => linarith
    | between i' diff' a' b' _ _ _ hi' ha' hb' hdi' hd' _ _ _ e' =>
      have : i = i' := by have := hdi.trans hdi'.symm; exact_mod_cast this
      subst this
      rw [ha] at ha'; rw [hb] at hb'; cases ha'; cases hb'
      rw [hd'] at e'; rw [hd] at e; rw [e, e']

/-- **C08 (partial: at least one and at most 64 values since the last Reset).**  Quantiles depend
only on the multiset of values inserted since the last `Reset`: two distributions with different
pasts, different generators and different insertion orders answer every query alike.  In particular
a distribution that was reset and then used answers like a new one.
Full property: also with no value inserted since the `Reset` – false, see `C08_reset_violated`; with
more than 64 values the sample depends on the generator, and C05 says what remains true. -/
theorem C08_quantiles_depend_only_on_values_partial {K oob fused} (hK : IsIntKind K oob fused)
    (next : G → UInt64 × G) (next' : G' → UInt64 × G') (key key' : Key) (g : G) (g' : G')
    (ops ops' : List (Op Int64)) (hv : Valid ops) (hv' : Valid ops')
    (hp : (inserted ops).Perm (inserted ops')) (hne : inserted ops ≠ [])
    (hlen : (inserted ops).length ≤ 64)
    (d : Dist Int64 ℚ G) (d' : Dist Int64 ℚ G')
    (e : (new K key g).run K next ops = some d) (e' : (new K key' g').run K next' ops' = some d')
    (q : ℚ) (hq : Rep 53 q) :
    ∃ v, (d.query K q).map (·.2) = some v ∧ (d'.query K q).map (·.2) = some v := by
  have one : ∀ {G : Type} (next : G → UInt64 × G) (key : Key) (g : G) (ops : List (Op Int64)),
      Valid ops → inserted ops ≠ [] → (inserted ops).length ≤ 64 → ∀ d : Dist Int64 ℚ G,
      (new K key g).run K next ops = some d →
      ∃ v res, (d.query K q).map (·.2) = some v ∧ QueryResult K res q v ∧
        res.Perm ((inserted ops).map fun v => rn 24 v.toInt) ∧ res.Pairwise (· ≤ ·) := by
    intro G next key g ops hv hne hlen d e
    obtain ⟨d₀, e', i⟩ := inv_run hK.numeric.ordered next key g ops hv.2 hv.1
    rw [e] at e'; cases e'
    obtain ⟨d', v, h1, h2, h3, h4⟩ := query_spec hK.numeric.ordered i q hq
    have hpos : 1 ≤ (inserted ops).length := List.length_pos_iff.mpr hne
    have hu : used (inserted ops) = (inserted ops).length := by unfold used; omega
    refine ⟨v, _, by rw [h1]; rfl, h4 hpos, ?_, ?_⟩
    · rw [hu]
      refine (h2.perm hlen).trans (List.Perm.of_eq ?_)
      exact List.map_congr_left fun v _ => hK.toR v
    · by_cases hl2 : 2 ≤ (inserted ops).length
      · refine (h2.srt (h3 hl2)).imp ?_
        intro a b hab; rw [hK.numeric.rle] at hab; simpa using hab
      · have : (d'.reservoir.take (used (inserted ops))).length = 1 := by
          rw [List.length_take, h2.len, hu]; omega
        obtain ⟨x, hx⟩ := List.length_eq_one_iff.mp this
        rw [hx]; exact List.pairwise_singleton _ _
  obtain ⟨v, res, a1, a2, a3, a4⟩ := one next key g ops hv hne hlen d e
  obtain ⟨v', res', b1, b2, b3, b4⟩ := one next' key' g' ops' hv'
    (by intro h; rw [h] at hp; exact hne hp.eq_nil) (by rw [← hp.length_eq]; exact hlen) d' e'
  have hres : res = res' := by
    refine List.Perm.eq_of_pairwise (le := (· ≤ ·)) ?_ a4 b4
      ((a3.trans (hp.map _)).trans b3.symm)
    intro a b _ _ h1 h2; exact le_antisymm h1 h2
  subst hres
  have := queryResult_unique a2 b2
  subst this
  exact ⟨v, a1, b1⟩

/-- **C08 (aggregates).** After `Reset`, whatever happened before, `Count`, `Sum`, `Low`, `High`,
`Recent` are zero, and `Stats` reports only a zero count, like for a new distribution. -/
theorem C08_reset_aggregates {K oob fused} (hK : IsIntKind K oob fused) (next : G → UInt64 × G)
    (key : Key) (g : G) (ops : List (Op Int64)) (hv : Valid (ops ++ [.reset])) :
    ∃ d, (new K key g).run K next (ops ++ [.reset]) = some d ∧
      d.count = 0 ∧ d.sum = 0 ∧ d.low = 0 ∧ d.high = 0 ∧ d.recent = 0 ∧
      d.stats K = some (d, [(d.key, b!"count", .int 0)]) := by
  obtain ⟨d, e, i⟩ := inv_run hK.numeric.ordered next key g _ hv.2 hv.1
  have hi : inserted (ops ++ [Op.reset]) = [] := by rw [inserted_snoc]
  rw [hi] at i
  have hc : d.count = 0 := Int64.toInt_inj.mp i.count
  refine ⟨d, e, hc, ?_, ?_, ?_, ?_, ?_⟩
  · rw [i.sum]; exact hK.zero
  · rw [i.low]; exact hK.zero
  · rw [i.high]; exact hK.zero
  · rw [i.recent]; exact hK.zero
  · rw [stats, hc]; rfl

/-- The conversion of an out-of-range float to int64 on amd64 (`CVTTSD2SQ`): the least int64. -/
def amd64 : ℚ → Int64 := fun _ => Int64.minValue

/-- A generator and key for concrete runs. -/
def zeroGen : Unit → UInt64 × Unit := fun g => (0, g)

/-- **C08 is violated.** Insert 5, `Reset`, and `Query` still answers 5: an emptied distribution is
not like a new one, which answers 0. -/
theorem C08_reset_violated (fused : Bool) :
    let K := intKind amd64 fused
    ((new K ⟨[], []⟩ ()).run K zeroGen [.insert 5 1024, .reset]).bind
      (fun d => (d.query K (1 / 2)).map (·.2)) = some 5 ∧
    ((new K ⟨[], []⟩ ()).query K (1 / 2)).map (·.2) = some 0 := by
  cases fused <;> decide +kernel

/-! ## C06: violation for huge values -/

/-- **C06 is violated without `Convertible`.** On a platform whose conversion of an out-of-range
float gives the least int64 (amd64), inserting the single value `math.MaxInt64` makes every quantile
equal to `math.MinInt64`. -/
theorem C06_quantile_bounds_violated (fused : Bool) :
    let K := intKind amd64 fused
    ((new K ⟨[], []⟩ ()).run K zeroGen [.insert 9223372036854775807 1024]).bind
      (fun d => (d.query K (1 / 2)).map (·.2)) = some (-9223372036854775808) := by
  cases fused <;> decide +kernel

/-! ## C66: averages -/

/-- **C66.** If the exact sum of the values inserted since the last `Reset` fits into an int64,
`FullAverage` lies between `Low` and `High` (and is 0 for an empty distribution). -/
theorem C66_full_average_bounds {K oob fused} (hK : IsIntKind K oob fused) (next : G → UInt64 × G)
    (key : Key) (g : G) (ops : List (Op Int64)) (hv : Valid ops)
    (hfit : -(2 : Int) ^ 63 ≤ ((inserted ops).map Int64.toInt).sum ∧
      ((inserted ops).map Int64.toInt).sum < 2 ^ 63)
    (d : Dist Int64 ℚ G) (e : (new K key g).run K next ops = some d) :
    d.low.toInt ≤ d.fullAverage.toInt ∧ d.fullAverage.toInt ≤ d.high.toInt := by
  obtain ⟨d₀, e', h1, h2, h3, h4, h5⟩ := C04_dist_aggregates hK next key g ops hv
  rw [e] at e'; cases e'
  have hs : d.sum.toInt = ((inserted ops).map Int64.toInt).sum := by
    rw [h2, wrapSum, Int.bmod_eq_of_le] <;> omega
  have h0 : (0 : Int64).toInt = 0 := rfl
  unfold fullAverage
  rcases h3 with ⟨hn, hlo⟩ | ⟨hlo, hlo'⟩
  · rcases h4 with ⟨_, hhi⟩ | ⟨hhi, _⟩
    · have : ¬ (d.count > 0) := by
        show ¬ (0 < d.count)
        rw [Int64.lt_iff_toInt_lt, h1, hn]; simp
      rw [if_neg this, hlo, hhi]; exact ⟨Int.le_refl _, Int.le_refl _⟩
    · rw [hn] at hhi; simp at hhi
  · rcases h4 with ⟨hn, _⟩ | ⟨hhi, hhi'⟩
    · rw [hn] at hlo; simp at hlo
    have hpos : 0 < (inserted ops).length := List.length_pos_of_mem hlo
    have hc : d.count > 0 := by
      show 0 < d.count
      rw [Int64.lt_iff_toInt_lt, h1, h0]; omega
    rw [if_pos hc]
    have bound : ∀ (l : List Int64), (∀ v ∈ l, d.low.toInt ≤ v.toInt ∧ v.toInt ≤ d.high.toInt) →
        (l.length : Int) * d.low.toInt ≤ (l.map Int64.toInt).sum ∧
        (l.map Int64.toInt).sum ≤ (l.length : Int) * d.high.toInt := by
      intro l hl
      induction l with
      | nil => simp
      | cons a as ih =>
        obtain ⟨i1, i2⟩ := ih fun v hv => hl v (by simp [hv])
        obtain ⟨j1, j2⟩ := hl a (by simp)
        simp only [List.length_cons, List.map_cons, List.sum_cons]
        push_cast
        constructor <;> nlinarith
    obtain ⟨b1, b2⟩ := bound _ fun v hv => ⟨hlo' v hv, hhi' v hv⟩
    rw [← hs, ← h1] at b1 b2
    have hcp : 0 < d.count.toInt := by rw [h1]; omega
    have hdiv : (d.sum / d.count).toInt = d.sum.toInt.tdiv d.count.toInt := by
      rw [Int64.toInt_div]
      have hle : (d.sum.toInt.tdiv d.count.toInt).natAbs ≤ d.sum.toInt.natAbs := by
        rw [Int.natAbs_tdiv]; exact Nat.div_le_self _ _
      have h63 := Int64.toInt_lt d.sum
      have h64 := Int64.le_toInt d.sum
      by_cases hx : 0 ≤ d.sum.toInt
      · have := Int.tdiv_nonneg hx hcp.le
        rw [Int.bmod_eq_of_le] <;> omega
      · have := Int.tdiv_nonneg (by omega : 0 ≤ -d.sum.toInt) hcp.le
        rw [Int.neg_tdiv] at this
        rw [Int.bmod_eq_of_le] <;> omega
    rw [hdiv]
    constructor
    · by_contra hcon
      have : d.sum.toInt.tdiv d.count.toInt + 1 ≤ d.low.toInt := by omega
      have h6 := Int.mul_tdiv_add_tmod d.sum.toInt d.count.toInt
      have h7 := Int.tmod_lt_of_pos d.sum.toInt hcp
      nlinarith
    · by_contra hcon
      have : d.high.toInt + 1 ≤ d.sum.toInt.tdiv d.count.toInt := by omega
      have h6 := Int.mul_tdiv_add_tmod d.sum.toInt d.count.toInt
      have h7 : -d.count.toInt < d.sum.toInt.tmod d.count.toInt := by
        have := Int.lt_tmod_of_pos d.sum.toInt hcp
        omega
      nlinarith

/-- **C66 is violated for `ReservoirAverage`.** Three times the same value 23698940 (exactly
representable in float32): the reported reservoir average is 23698938, below the minimum. -/
theorem C66_reservoir_average_violated (fused : Bool) :
    let K := intKind amd64 fused
    ((new K ⟨[], []⟩ ()).run K zeroGen
        [.insert 23698940 1024, .insert 23698940 1024, .insert 23698940 1024]).map
      (fun d => (d.low, d.high, d.reservoirAverage K)) = some (23698940, 23698940, 23698938) := by
  cases fused <;> decide +kernel

end Monkit
