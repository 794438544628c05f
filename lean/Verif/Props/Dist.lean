import Verif.Proofs.DistQuery

/-!
# C04–C08: distributions

All theorems are about distributions reached from `New…Dist` by any history of calls, with any
random number generator (`next`), any values of the global `Window` at each insertion, and either
choice of the compiler to fuse `prior + diff*(…)`.  Assumptions: fewer than `2^63` calls, and queries
use float64 quantiles other than NaN (`Rep 53 q`).

They are stated for `IntDist` (`intKind`) and `DurationDist` (`durKind`).
-/

namespace Monkit
open Monkit.Spec Monkit.Dist Go Go.Float

variable {G : Type}

/-- The two integer kinds: `int64` and `time.Duration`. -/
def IsIntKind (K : DistKind Int64 ℚ) (oob : ℚ → Int64) (fused : Bool) : Prop :=
  K = intKind oob fused ∨ K = durKind oob fused

theorem IsIntKind.numeric {K oob fused} (h : IsIntKind K oob fused) :
    Numeric K fused (toI64 oob) := by
  rcases h with rfl | rfl
  · exact int_numeric oob fused
  · exact dur_numeric oob fused

theorem IsIntKind.low {K oob fused} (h : IsIntKind K oob fused) (vs) :
    isMinOrZero vs (lowOf K vs) := by
  rcases h with rfl | rfl <;> exact lowOf_min (oob := oob) (fused := fused) vs

theorem IsIntKind.high {K oob fused} (h : IsIntKind K oob fused) (vs) :
    isMaxOrZero vs (highOf K vs) := by
  rcases h with rfl | rfl <;> exact highOf_max (oob := oob) (fused := fused) vs

theorem IsIntKind.sum {K oob fused} (h : IsIntKind K oob fused) (vs : List Int64) :
    (vs.foldl K.add K.zero).toInt = wrapSum vs := by
  rcases h with rfl | rfl <;> exact sum_wrap vs

theorem IsIntKind.toR {K oob fused} (h : IsIntKind K oob fused) (v : Int64) :
    K.toR v = rn 24 v.toInt := by
  rcases h with rfl | rfl <;> rfl

theorem IsIntKind.zero {K oob fused} (h : IsIntKind K oob fused) : K.zero = 0 := by
  rcases h with rfl | rfl <;> rfl

/-- A history of API calls meeting the assumptions. -/
def Valid (ops : List (Op Int64)) : Prop :=
  ops.length < 2 ^ 63 ∧ ∀ q, Op.query q ∈ ops → Rep 53 q

/-- **C04.** No history panics, and afterwards `Count`, `Sum`, `Low`, `High`, `Recent` are exactly
the number, two's-complement sum, minimum, maximum and last of the values inserted since
construction or the last `Reset`.  (Queries and `Stats` calls in the history do not count.) -/
theorem C04_dist_aggregates {K oob fused} (hK : IsIntKind K oob fused) (next : G → UInt64 × G)
    (key : Key) (g : G) (ops : List (Op Int64)) (hv : Valid ops) :
    ∃ d, (new K key g).run K next ops = some d ∧
      d.count.toInt = (inserted ops).length ∧
      d.sum.toInt = wrapSum (inserted ops) ∧
      isMinOrZero (inserted ops) d.low ∧
      isMaxOrZero (inserted ops) d.high ∧
      d.recent = (inserted ops).getLast?.getD 0 := by
  obtain ⟨d, e, i⟩ := inv_run hK.numeric.ordered next key g ops hv.2 hv.1
  refine ⟨d, e, i.count, ?_, ?_, ?_, ?_⟩
  · rw [i.sum, hK.sum]
  · rw [i.low]; exact hK.low _
  · rw [i.high]; exact hK.high _
  · rw [i.recent, hK.zero]

/-- The slots a distribution currently uses: the sample on which quantiles are computed. -/
def sample {V R : Type} (d : Dist V R G) : List R := d.reservoir.take (min d.count.toInt.toNat 64)

theorem sample_eq {K : DistKind Int64 ℚ} {vs : List Int64} {d : Dist Int64 ℚ G} (i : Dist.Inv K vs d) :
    sample d = d.reservoir.take (used vs) := by
  unfold sample used; rw [i.count]; simp

/-- **C05.** Every sampled value is the float32 rounding of a value inserted since the last `Reset`;
the sample has `min Count 64` elements; while at most 64 values have been inserted it contains all
of them, each as often as it was inserted. -/
theorem C05_reservoir_real {K oob fused} (hK : IsIntKind K oob fused) (next : G → UInt64 × G)
    (key : Key) (g : G) (ops : List (Op Int64)) (hv : Valid ops) (d : Dist Int64 ℚ G)
    (e : (new K key g).run K next ops = some d) :
    (sample d).length = min (inserted ops).length 64 ∧
    (∀ x ∈ sample d, ∃ v ∈ inserted ops, x = rn 24 v.toInt) ∧
    ((inserted ops).length ≤ 64 →
      (sample d).Perm ((inserted ops).map fun v => rn 24 v.toInt)) := by
  obtain ⟨d', e', i⟩ := inv_run hK.numeric.ordered next key g ops hv.2 hv.1
  rw [e] at e'; cases e'
  rw [sample_eq i]
  refine ⟨?_, ?_, ?_⟩
  · rw [List.length_take, i.len]; unfold used; omega
  · intro x hx
    obtain ⟨v, h1, h2⟩ := i.mem x hx
    exact ⟨v, h1, by rw [h2, hK.toR]⟩
  · intro hl
    have hu : used (inserted ops) = (inserted ops).length := by unfold used; omega
    rw [hu]
    refine (i.perm hl).trans (List.Perm.of_eq ?_)
    exact List.map_congr_left fun v _ => hK.toR v

/-- All values inserted since the last `Reset` are below `2^63 - 2^38`, so that their float32
roundings fit into an int64.  (For larger values the conversion back to an integer is
implementation-dependent in Go; see `C06_quantile_bounds_violated`.) -/
def Convertible (ops : List (Op Int64)) : Prop := ∀ v ∈ inserted ops, v.toInt < 2 ^ 63 - 2 ^ 38

theorem inRange_between {a b x : ℚ} (ha : InRange a) (hb : InRange b) (h1 : a ≤ x) (h2 : x ≤ b) :
    InRange x := ⟨le_trans ha.1 h1, lt_of_le_of_lt h2 hb.2⟩

/-- **C06 (partial: values ≥ 2^63 − 2^38 excluded).** `Query` returns a value between the integer
parts of the smallest and largest element of the sample, which are roundings of inserted values;
`Query(q)` for `q ≤ 0` is the smallest and for `q ≥ 1` the largest. -/
theorem C06_quantile_bounds_partial {K oob fused} (hK : IsIntKind K oob fused)
    (next : G → UInt64 × G)
    (key : Key) (g : G) (ops : List (Op Int64)) (hv : Valid ops) (hc : Convertible ops)
    (hne : inserted ops ≠ []) (d : Dist Int64 ℚ G)
    (e : (new K key g).run K next ops = some d) (q : ℚ) (hq : Rep 53 q) :
    ∃ d' v lo hi, d.query K q = some (d', v) ∧
      lo ∈ sample d ∧ hi ∈ sample d ∧ (∀ x ∈ sample d, lo ≤ x ∧ x ≤ hi) ∧
      trunc lo ≤ v.toInt ∧ v.toInt ≤ trunc hi ∧
      (q ≤ 0 → v.toInt = trunc lo) ∧ (1 ≤ q → v.toInt = trunc hi) := by
  obtain ⟨d₀, e', i⟩ := inv_run hK.numeric.ordered next key g ops hv.2 hv.1
  rw [e] at e'; cases e'
  obtain ⟨d', v, h1, h2, h3, h4⟩ := query_spec hK.numeric.ordered i q hq
  have hpos : 1 ≤ (inserted ops).length := List.length_pos_iff.mpr hne
  have hrep : ∀ x ∈ d'.reservoir.take (used (inserted ops)), Rep 24 x := by
    intro x hx; obtain ⟨v, _, rfl⟩ := h2.mem x hx; exact hK.numeric.rep v
  have hsort : 2 ≤ (d'.reservoir.take (used (inserted ops))).length →
      (d'.reservoir.take (used (inserted ops))).Pairwise (· ≤ ·) := by
    intro hl
    have : 2 ≤ (inserted ops).length := by
      rw [List.length_take] at hl; unfold used at hl; omega
    refine (h2.srt (h3 this)).imp ?_
    intro a b hab; rw [hK.numeric.rle] at hab; simpa using hab
  obtain ⟨y, lo, hi, f1, f2, f3, f4, f5, f6, f7, f8⟩ :=
    query_float hK.numeric hrep hsort (h4 hpos)
  have hperm : (d'.reservoir.take (used (inserted ops))).Perm (sample d) := by
    rw [sample_eq i]
    rcases (query_key h1).2 with rfl | rfl
    · exact List.Perm.refl _
    · unfold sortReservoir
      rw [rlen_eq i]
      split
      · exact List.Perm.refl _
      · simp only [Int.toNat_natCast]
        have hp := Go.sortBy_perm K.rle (d.reservoir.take (used (inserted ops)))
        have hl : (Go.sortBy K.rle (d.reservoir.take (used (inserted ops)))).length =
            used (inserted ops) := by
          rw [hp.length_eq, List.length_take, i.len]; unfold used; omega
        rw [List.take_append_of_le_length (by omega), List.take_of_length_le (by omega)]
        exact hp
  have hrange : ∀ x ∈ d'.reservoir.take (used (inserted ops)), InRange x := by
    intro x hx; obtain ⟨v, hv', rfl⟩ := h2.mem x hx
    rw [hK.toR]; exact inRange_f32 (hc v hv')
  have hy := inRange_between (hrange _ f2) (hrange _ f3) f5 f6
  refine ⟨d', v, lo, hi, h1, hperm.mem_iff.mp f2, hperm.mem_iff.mp f3,
    fun x hx => f4 x (hperm.mem_iff.mpr hx), ?_, ?_, ?_, ?_⟩
  · rw [f1, toI64_toInt oob hy]; exact trunc_mono f5
  · rw [f1, toI64_toInt oob hy]; exact trunc_mono f6
  · intro hh; rw [f1, toI64_toInt oob hy, f7 hh]
  · intro hh; rw [f1, toI64_toInt oob hy, f8 hh]

/-- **C06 (partial: values ≥ 2^63 − 2^38 excluded).** A larger quantile never gives a smaller
value, whichever is asked first. -/
theorem C06_quantile_monotone_partial {K oob fused} (hK : IsIntKind K oob fused)
    (next : G → UInt64 × G)
    (key : Key) (g : G) (ops : List (Op Int64)) (hv : Valid ops) (hc : Convertible ops)
    (hne : inserted ops ≠ []) (d : Dist Int64 ℚ G)
    (e : (new K key g).run K next ops = some d) (q q' : ℚ) (hq : Rep 53 q) (hq' : Rep 53 q')
    (hqq : q ≤ q') :
    ∃ v v', (d.query K q).map (·.2) = some v ∧ (d.query K q').map (·.2) = some v' ∧
      v.toInt ≤ v'.toInt := by
  obtain ⟨d₀, e', i⟩ := inv_run hK.numeric.ordered next key g ops hv.2 hv.1
  rw [e] at e'; cases e'
  obtain ⟨d', v, h1, h2, h3, h4⟩ := query_spec hK.numeric.ordered i q hq
  obtain ⟨d'', v', h1', h2', h3', h4'⟩ := query_spec hK.numeric.ordered h2 q' hq'
  have hpos : 1 ≤ (inserted ops).length := List.length_pos_iff.mpr hne
  have hrep : ∀ x ∈ d'.reservoir.take (used (inserted ops)), Rep 24 x := by
    intro x hx; obtain ⟨v, _, rfl⟩ := h2.mem x hx; exact hK.numeric.rep v
  have hsort : 2 ≤ (d'.reservoir.take (used (inserted ops))).length →
      (d'.reservoir.take (used (inserted ops))).Pairwise (· ≤ ·) := by
    intro hl
    have : 2 ≤ (inserted ops).length := by
      rw [List.length_take] at hl; unfold used at hl; omega
    refine (h2.srt (h3 this)).imp ?_
    intro a b hab; rw [hK.numeric.rle] at hab; simpa using hab
  have hdd : d'' = d' := by
    rcases (query_key h1').2 with h | h
    · exact h
    · by_cases hl2 : 2 ≤ (inserted ops).length
      · rw [h]; unfold sortReservoir; simp [h3 hl2]
      · have : d'.rlen < 2 := by rw [rlen_eq h2]; unfold used; omega
        unfold query at h1'
        simp only [this, if_true, Option.map_eq_some_iff, Prod.mk.injEq] at h1'
        obtain ⟨_, _, h', _⟩ := h1'; exact h'.symm
  have h4'' := h4' hpos
  rw [hdd] at h4''
  obtain ⟨y, y', f1, f2, f3, ⟨lo, hlo, f4⟩, ⟨hi, hhi, f5⟩⟩ :=
    query_float_mono hK.numeric hrep hsort hqq (h4 hpos) h4''
  have hrange : ∀ x ∈ d'.reservoir.take (used (inserted ops)), InRange x := by
    intro x hx; obtain ⟨v, hv', rfl⟩ := h2.mem x hx
    rw [hK.toR]; exact inRange_f32 (hc v hv')
  refine ⟨v, v', by rw [h1]; rfl, ?_, ?_⟩
  · rw [← query_stable h1 q', h1']; rfl
  · rw [f1, f2, toI64_toInt oob (inRange_between (hrange _ hlo) (hrange _ hhi) f4 (by linarith)),
      toI64_toInt oob (inRange_between (hrange _ hlo) (hrange _ hhi) (by linarith) f5)]
    exact trunc_mono f3

/-- **C07.** On every reachable distribution and for every float64 quantile (other than NaN)
`Query` does not panic, changes neither the aggregates nor the answer to any other query, and so
asking twice gives the same value. -/
theorem C07_query_safe_and_stable {K oob fused} (hK : IsIntKind K oob fused)
    (next : G → UInt64 × G)
    (key : Key) (g : G) (ops : List (Op Int64)) (hv : Valid ops) (d : Dist Int64 ℚ G)
    (e : (new K key g).run K next ops = some d) (q : ℚ) (hq : Rep 53 q) :
    ∃ d' v, d.query K q = some (d', v) ∧
      d'.count = d.count ∧ d'.sum = d.sum ∧ d'.low = d.low ∧ d'.high = d.high ∧
      d'.recent = d.recent ∧ (sample d').Perm (sample d) ∧
      ∀ q', (d'.query K q').map (·.2) = (d.query K q').map (·.2) := by
  obtain ⟨d₀, e', i⟩ := inv_run hK.numeric.ordered next key g ops hv.2 hv.1
  rw [e] at e'; cases e'
  obtain ⟨d', v, h1, h2, h3, h4⟩ := query_spec hK.numeric.ordered i q hq
  refine ⟨d', v, h1, ?_, ?_, ?_, ?_, ?_, ?_, query_stable h1⟩
  · apply Int64.toInt_inj.mp; rw [h2.count, i.count]
  · rw [h2.sum, i.sum]
  · rw [h2.low, i.low]
  · rw [h2.high, i.high]
  · rw [h2.recent, i.recent]
  · rw [sample_eq i, sample_eq h2]
    rcases (query_key h1).2 with rfl | rfl
    · exact List.Perm.refl _
    · unfold sortReservoir
      rw [rlen_eq i]
      split
      · exact List.Perm.refl _
      · simp only [Int.toNat_natCast]
        have hp := Go.sortBy_perm K.rle (d.reservoir.take (used (inserted ops)))
        have hl : (Go.sortBy K.rle (d.reservoir.take (used (inserted ops)))).length =
            used (inserted ops) := by
          rw [hp.length_eq, List.length_take, i.len]; unfold used; omega
        rw [List.take_append_of_le_length (by omega), List.take_of_length_le (by omega)]
        exact hp

/-- **C07.** The position read by `Query`: for every float64 quantile strictly between 0 and 1 and
every number of slots in use `2 ≤ n` (up to the 64 there are, and far beyond), the rounded product
`quantile * (n-1)` truncates to an index `i` with `0 ≤ i` and `i + 1 ≤ n - 1`. -/
theorem C07_query_index_in_range (q : ℚ) (hq : Rep 53 q) (h0 : 0 < q) (h1 : q < 1) (n : ℕ)
    (hn : 2 ≤ n) (hn' : n ≤ 64) :
    0 ≤ trunc (rn 53 (q * ((n - 1 : ℕ) : ℚ))) ∧
    trunc (rn 53 (q * ((n - 1 : ℕ) : ℚ))) + 1 ≤ (n : ℤ) - 1 := by
  obtain ⟨_, _, a, b⟩ := idx_bounds hq h0 h1 (n := n - 1) (by omega) (by omega)
  refine ⟨a, ?_⟩
  omega

end Monkit
