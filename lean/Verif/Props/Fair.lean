import Verif.Proofs.Fair
import Verif.Proofs.FloatDist

/-!
# C111: the sample of a distribution is fair

The random numbers a distribution draws are the tape; `expect ns` is the mean over all tapes whose
`i`th number ranges over `0 … ns[i] - 1`.  `Balanced` says that each range is a multiple of the width,
so that all remainders are equally likely.  This holds if the numbers range over all 64 bit numbers and
the width is a power of two, like the default `Window` of 1024.  Reads (`Query`, `Stats`), which reorder
the sample, and resets may come anywhere in the history.
-/

namespace Monkit
open Monkit.Spec Monkit.Dist Go Go.Float

namespace Dist
variable {V R : Type}

theorem mean_snoc (l : List ℚ) (x : ℚ) : mean (l ++ [x]) = mean l + (x - mean l) / ((l.length + 1 : ℕ) : ℚ) := by
  unfold mean
  simp only [List.sum_append, List.sum_cons, List.sum_nil, List.length_append, List.length_cons, List.length_nil]
  by_cases h : l.length = 0
  · have : l = [] := List.length_eq_zero_iff.mp h
    simp [this]
  · have h0 : (l.length : ℚ) ≠ 0 := by exact_mod_cast h
    have h1 : ((l.length : ℚ) + 1) ≠ 0 := by positivity
    push_cast
    field_simp
    ring

theorem moving_within (g : V → ℚ) (ops : List (Op V)) (h : WithinWindow ops) : moving g ops = mean ((inserted ops).map g) := by
  induction ops using List.reverseRecOn with
  | nil => simp [moving, inserted, mean]
  | append_singleton os o ih =>
    have hi := ih fun pre v W post e => h pre v W (post ++ [o]) (by rw [e]; simp)
    rw [moving_snoc, inserted_snoc]
    cases o with
    | insert v W =>
      have hw : width W ((inserted os).length + 1) = (inserted os).length + 1 := by
        unfold width; rw [if_neg]
        rcases h os v W [] rfl with h | h <;> omega
      dsimp only
      rw [hw, hi, List.map_append, List.map_cons, List.map_nil, mean_snoc, List.length_map]
    | query q => exact hi
    | stats => exact hi
    | reset => simp [mean]

theorem wide_of_within {ops : List (Op V)} (h : WithinWindow ops) : WideWindows ops := by
  intro v W hm
  obtain ⟨pre, post, rfl⟩ := List.append_of_mem hm
  rcases h pre v W post rfl with h | h
  · exact .inl h
  · exact .inr h.1

theorem fair {K : DistKind V R} (hK : Ordered K) (key : Key) (g : R → ℚ) (ops : List (Op V)) (hc : Covered ops)
    (hw : WithinWindow ops) (ns : List Nat) (hns : Balanced (draws ops) ns) :
    expect ns (sampleMean K key g ops) = mean ((inserted ops).map fun v => g (K.toR v)) := by
  rw [expect_sample hK key g ops hc (wide_of_within hw) ns hns, moving_within _ _ hw]

theorem count_eq_sum [BEq R] (l : List R) (x : R) : ((l.count x : ℕ) : ℚ) = (l.map fun y => if y == x then 1 else 0).sum := by
  induction l with
  | nil => simp
  | cons a l ih =>
    rw [List.count_cons, List.map_cons, List.sum_cons, ← ih]
    by_cases h : (a == x) = true <;> simp [h] <;> ring

theorem balanced_pos {ws ns : List Nat} (h : Balanced ws ns) : ∀ n ∈ ns, 0 < n := by
  induction h with
  | nil => simp
  | cons hab _ ih => intro n hn; rcases List.mem_cons.mp hn with rfl | hn; exacts [hab.2.1, ih n hn]

theorem fair_count [BEq R] {K : DistKind V R} (hK : Ordered K) (key : Key) (x : R) (ops : List (Op V)) (hc : Covered ops)
    (hw : WithinWindow ops) (ns : List Nat) (hns : Balanced (draws ops) ns) (hl : 64 ≤ (inserted ops).length) :
    expect ns (slotsHolding K key x ops) = 64 * ((inserted ops).map K.toR).count x / (inserted ops).length := by
  have h1 := fair hK key (fun y => if y == x then 1 else 0) ops hc hw ns hns
  have h2 : expect ns (slotsHolding K key x ops) = expect ns (fun t => 64 * sampleMean K key (fun y => if y == x then 1 else 0) ops t + 0) := by
    apply expect_congr
    intro t ht
    have hlen : t.length = (draws ops).length := by rw [ht]; exact (List.Forall₂.length_eq hns).symm
    obtain ⟨d, -, e, -, i⟩ := run_tape hK key ops hc t hlen []
    unfold slotsHolding sampleMean
    rw [e]
    simp only [Option.elim]
    unfold mean
    have hsl : (sample d).length = 64 := by rw [sample_inv i, List.length_take, i.len]; omega
    rw [List.length_map, hsl, ← count_eq_sum]
    push_cast; ring
  rw [h2, expect_affine ns (balanced_pos hns), h1]
  unfold mean
  rw [count_eq_sum, List.length_map, List.map_map]
  simp only [Function.comp_def]
  ring

theorem moving_upto (g : V → ℚ) {W : Int64} {w : ℕ} (hw : W.toInt = w) (ops : List (Op V)) (hW : ∀ v W', Op.insert v W' ∈ ops → W' = W)
    (hn : (inserted ops).length ≤ w) : moving g ops = mean ((inserted ops).map g) := by
  induction ops using List.reverseRecOn with
  | nil => simp [moving, inserted, mean]
  | append_singleton os o ih =>
    have hW' : ∀ v W', Op.insert v W' ∈ os → W' = W := fun v W' h => hW v W' (by simp [h])
    rw [inserted_snoc] at hn ⊢
    rw [moving_snoc]
    cases o with
    | insert v W' =>
      obtain rfl := hW v W' (by simp)
      have hn' : (inserted os).length + 1 ≤ w := by simpa using hn
      have hwd : width W' ((inserted os).length + 1) = (inserted os).length + 1 := by
        unfold width; rw [if_neg (by omega)]
      dsimp only
      rw [hwd, ih hW' (by omega), List.map_append, List.map_cons, List.map_nil, mean_snoc, List.length_map]
    | query q => exact ih hW' hn
    | stats => exact ih hW' hn
    | reset => simp [mean]

/-- The weights after `w` or more insertions with the same window `w`. -/
theorem moving_recent (g : V → ℚ) {W : Int64} {w : ℕ} (hw : W.toInt = w) (h0 : 0 < w) (ops : List (Op V)) (hW : ∀ v W', Op.insert v W' ∈ ops → W' = W)
    (hn : w ≤ (inserted ops).length) :
    moving g ops = (1 - 1 / (w : ℚ)) ^ ((inserted ops).length - w) * mean (((inserted ops).map g).take w) +
      ∑ k ∈ Finset.Ico w (inserted ops).length,
        1 / (w : ℚ) * (1 - 1 / (w : ℚ)) ^ ((inserted ops).length - 1 - k) * ((inserted ops).map g).getD k 0 := by
  induction ops using List.reverseRecOn with
  | nil => simp [inserted] at hn; omega
  | append_singleton os o ih =>
    have hW' : ∀ v W', Op.insert v W' ∈ os → W' = W := fun v W' h => hW v W' (by simp [h])
    cases o with
    | insert v W' =>
      by_cases hlt : w ≤ (inserted os).length
      · obtain rfl := hW v W' (by simp)
        rw [moving_snoc, inserted_snoc]
        rw [inserted_snoc] at hn
        dsimp only at hn ⊢
        simp only [List.length_append, List.length_cons, List.length_nil, List.map_append, List.map_cons, List.map_nil] at hn ⊢
        have hw0 : (w : ℚ) ≠ 0 := by exact_mod_cast h0.ne'
        have hi := ih hW' hlt
        have hwd : width W' ((inserted os).length + 1) = w := by unfold width; rw [if_pos (by omega)]; omega
        rw [hwd, hi]
        generalize hL : (inserted os).length = L at *
        have e1 : L + (0 + 1) - w = (L - w) + 1 := by omega
        have ht : (((inserted os).map g) ++ [g v]).take w = ((inserted os).map g).take w := by
          rw [List.take_append_of_le_length (by rw [List.length_map, hL]; exact hlt)]
        rw [ht, e1, pow_succ, zero_add, Finset.sum_Ico_succ_top hlt]
        have e2 : ∑ k ∈ Finset.Ico w L, 1 / (w : ℚ) * (1 - 1 / (w : ℚ)) ^ (L + 1 - 1 - k) * (((inserted os).map g) ++ [g v]).getD k 0 =
            (1 - 1 / (w : ℚ)) * ∑ k ∈ Finset.Ico w L, 1 / (w : ℚ) * (1 - 1 / (w : ℚ)) ^ (L - 1 - k) * ((inserted os).map g).getD k 0 := by
          rw [Finset.mul_sum]
          apply Finset.sum_congr rfl
          intro k hk
          have hk' := Finset.mem_Ico.mp hk
          have : L + 1 - 1 - k = (L - 1 - k) + 1 := by omega
          rw [this, pow_succ, List.getD_eq_getElem?_getD, List.getD_eq_getElem?_getD, List.getElem?_append_left (by rw [List.length_map, hL]; omega)]
          ring
        have e3 : (((inserted os).map g) ++ [g v]).getD L 0 = g v := by
          rw [List.getD_eq_getElem?_getD, List.getElem?_append_right (by rw [List.length_map, hL])]; simp [hL]
        rw [e2, e3]
        have e4 : L + 1 - 1 - L = 0 := by omega
        rw [e4, pow_zero]
        ring
      · have hlen : (inserted (os ++ [Op.insert v W'])).length = w := by
          rw [inserted_snoc] at hn ⊢
          simp at hn ⊢; omega
        rw [moving_upto g hw _ hW (by omega), hlen]
        simp [List.take_of_length_le, hlen]
    | query q => rw [moving_snoc, inserted_snoc]; rw [inserted_snoc] at hn; exact ih hW' hn
    | stats => rw [moving_snoc, inserted_snoc]; rw [inserted_snoc] at hn; exact ih hW' hn
    | reset => rw [inserted_snoc] at hn; simp at hn; omega

theorem fair_recent {K : DistKind V R} (hK : Ordered K) (key : Key) (g : R → ℚ) (ops : List (Op V)) (hc : Covered ops)
    (W : Int64) (w : ℕ) (hw : W.toInt = w) (h64 : 64 ≤ w) (hW : ∀ v W', Op.insert v W' ∈ ops → W' = W)
    (ns : List Nat) (hns : Balanced (draws ops) ns) (hl : w ≤ (inserted ops).length) :
    expect ns (sampleMean K key g ops) =
      (1 - 1 / (w : ℚ)) ^ ((inserted ops).length - w) * mean (((inserted ops).map fun v => g (K.toR v)).take w) +
      ∑ k ∈ Finset.Ico w (inserted ops).length,
        1 / (w : ℚ) * (1 - 1 / (w : ℚ)) ^ ((inserted ops).length - 1 - k) * ((inserted ops).map fun v => g (K.toR v)).getD k 0 := by
  rw [expect_sample hK key g ops hc (fun v W' h => .inr (by rw [hW v W' h]; omega)) ns hns]
  exact moving_recent _ hw (by omega) ops hW hl

end Dist

/-! ## Integers and durations -/

/-- **C111 (fair).**  As long as `Window` is not exceeded, every value inserted since the last `Reset` has
the same weight in the sample: the average over the sample of any function `g` of the slots, averaged over
the random numbers, is its average over all values (as float32 numbers). -/
theorem C111_fair {K oob fused} (hK : IsIntKind K oob fused) (key : Key) (g : ℚ → ℚ) (ops : List (Op Int64)) (hc : Covered ops)
    (hw : WithinWindow ops) (ns : List Nat) (hns : Balanced (draws ops) ns) :
    expect ns (sampleMean K key g ops) = mean ((inserted ops).map fun v => g (rn 24 v.toInt)) := by
  rw [fair hK.numeric.ordered key g ops hc hw ns hns]
  simp only [hK.toR]

/-- **C111 (how often a value is kept).**  Of `n ≥ 64` values, each is kept with probability `64/n`: the
expected number of slots that hold `x` is `64/n` times the number of values that are `x`. -/
theorem C111_kept {K oob fused} (hK : IsIntKind K oob fused) (key : Key) (x : ℚ) (ops : List (Op Int64)) (hc : Covered ops)
    (hw : WithinWindow ops) (ns : List Nat) (hns : Balanced (draws ops) ns) (hl : 64 ≤ (inserted ops).length) :
    expect ns (slotsHolding K key x ops) =
      64 * ((inserted ops).map fun v => rn 24 v.toInt).count x / (inserted ops).length := by
  rw [fair_count hK.numeric.ordered key x ops hc hw ns hns hl]
  have : (inserted ops).map K.toR = (inserted ops).map fun v => rn 24 v.toInt := List.map_congr_left fun v _ => hK.toR v
  rw [this]

/-- **C111 (recent values).**  With a constant `Window` of `w ≥ 64` and at least `w` values, the newest value
has weight `1/w`, each older one `1 - 1/w` times the weight of its successor, and the first `w` values
share the rest equally.  So old values are forgotten exponentially. -/
theorem C111_recent {K oob fused} (hK : IsIntKind K oob fused) (key : Key) (g : ℚ → ℚ) (ops : List (Op Int64)) (hc : Covered ops)
    (W : Int64) (w : ℕ) (hw : W.toInt = w) (h64 : 64 ≤ w) (hW : ∀ v W', Op.insert v W' ∈ ops → W' = W)
    (ns : List Nat) (hns : Balanced (draws ops) ns) (hl : w ≤ (inserted ops).length) :
    let n := (inserted ops).length
    let x := (inserted ops).map fun v => g (rn 24 v.toInt)
    expect ns (sampleMean K key g ops) =
      (1 - 1 / (w : ℚ)) ^ (n - w) * mean (x.take w) +
      ∑ k ∈ Finset.Ico w n, 1 / (w : ℚ) * (1 - 1 / (w : ℚ)) ^ (n - 1 - k) * x.getD k 0 := by
  intro n x
  rw [fair_recent hK.numeric.ordered key g ops hc W w hw h64 hW ns hns hl]
  simp only [hK.toR]
  rfl

/-- **C111 (any windows).**  Whatever the values of `Window` (not positive, or at least 64) at the
insertions, the average over the sample is, on average, the moving average of the values. -/
theorem C111_moving {K oob fused} (hK : IsIntKind K oob fused) (key : Key) (g : ℚ → ℚ) (ops : List (Op Int64)) (hc : Covered ops)
    (hw : WideWindows ops) (ns : List Nat) (hns : Balanced (draws ops) ns) :
    expect ns (sampleMean K key g ops) = moving (fun v => g (rn 24 v.toInt)) ops := by
  rw [expect_sample hK.numeric.ordered key g ops hc hw ns hns]
  simp only [hK.toR]

/-! ## Floats -/

/-- **C111 for `FloatDist`** (see `C111_fair`, `C111_kept`, `C111_recent`). -/
theorem C111_float (fused : Bool) (key : Key) (g : F → ℚ) (y : F) (ops : List (Op F)) (hc : Covered ops)
    (ns : List Nat) (hns : Balanced (draws ops) ns) :
    (WithinWindow ops →
      expect ns (sampleMean (floatKind fused) key g ops) = mean ((inserted ops).map fun v => g (F.conv b32 v)) ∧
      (64 ≤ (inserted ops).length → expect ns (slotsHolding (floatKind fused) key y ops) =
        64 * ((inserted ops).map (F.conv b32)).count y / (inserted ops).length)) ∧
    (∀ (W : Int64) (w : ℕ), W.toInt = w → 64 ≤ w → (∀ v W', Op.insert v W' ∈ ops → W' = W) → w ≤ (inserted ops).length →
      let n := (inserted ops).length
      let x := (inserted ops).map fun v => g (F.conv b32 v)
      expect ns (sampleMean (floatKind fused) key g ops) =
        (1 - 1 / (w : ℚ)) ^ (n - w) * mean (x.take w) +
        ∑ k ∈ Finset.Ico w n, 1 / (w : ℚ) * (1 - 1 / (w : ℚ)) ^ (n - 1 - k) * x.getD k 0) :=
  ⟨fun hw => ⟨fair (float_ordered fused) key g ops hc hw ns hns, fun hl => fair_count (float_ordered fused) key y ops hc hw ns hns hl⟩,
   fun W w hw h64 hW hl => fair_recent (float_ordered fused) key g ops hc W w hw h64 hW ns hns hl⟩

/-! ## Concrete cases -/

/-- 64 zeros, a report, then a hundred: within the default window. -/
def fairOps : List (Op Int64) := List.replicate 64 (.insert 0 1024) ++ [.stats, .insert 100 1024]

theorem fairOps_within : WithinWindow fairOps := by
  intro pre v W post e
  have hm : Op.insert v W ∈ fairOps := by rw [e]; simp
  have hW : W = 1024 := by
    simp [fairOps] at hm
    rcases hm with hm | hm <;> exact hm.2
  subst hW
  have h1 := inserted_length_le pre
  have h2 : fairOps.length = pre.length + (post.length + 1) := by rw [e]; simp
  have h3 : fairOps.length = 66 := by simp [fairOps]
  have h4 : (1024 : Int64).toInt = 1024 := rfl
  rw [h4]
  omega

/-- One number is drawn, for the 65th value; the new value is kept with probability 64/65. -/
example : Covered fairOps ∧ WithinWindow fairOps ∧ draws fairOps = [65] ∧ Balanced (draws fairOps) [65] ∧ 64 ≤ (inserted fairOps).length ∧
    expect [65] (slotsHolding (intKind (fun _ => 0) false) ⟨b!"d", []⟩ 100 fairOps) = 64 / 65 := by
  have hc : Covered fairOps := ⟨by decide, by simp [fairOps]⟩
  have hd : draws fairOps = [65] := by decide +kernel
  have hb : Balanced (draws fairOps) [65] := by rw [hd]; exact .cons (by decide) .nil
  have hl : 64 ≤ (inserted fairOps).length := by decide +kernel
  refine ⟨hc, fairOps_within, hd, hb, hl, ?_⟩
  rw [C111_kept (.inl rfl) ⟨b!"d", []⟩ 100 fairOps hc fairOps_within [65] hb hl]
  decide +kernel

/-- Beyond a window of 64 the draw may be any 64 bit number. -/
def pastOps : List (Op Int64) := List.replicate 64 (.insert 0 64) ++ [.query 0, .insert 640 64]

example : Covered pastOps ∧ draws pastOps = [64] ∧ Balanced (draws pastOps) [2 ^ 64] ∧ WideWindows pastOps ∧
    expect [2 ^ 64] (sampleMean (intKind (fun _ => 0) false) ⟨b!"d", []⟩ id pastOps) = 10 := by
  have hc : Covered pastOps := ⟨by decide, by
    intro q hq
    have : q = 0 := by simpa [pastOps] using hq
    rw [this]; exact rep_zero 53⟩
  have hd : draws pastOps = [64] := by decide +kernel
  have hb : Balanced (draws pastOps) [2 ^ 64] := by rw [hd]; exact .cons ⟨⟨2 ^ 58, by norm_num⟩, by norm_num, by norm_num⟩ .nil
  have hw : WideWindows pastOps := by
    intro v W hm
    simp [pastOps] at hm
    have : W = 64 := by rcases hm with hm | hm <;> exact hm.2
    subst this; right; decide
  refine ⟨hc, hd, hb, hw, ?_⟩
  rw [C111_moving (.inl rfl) ⟨b!"d", []⟩ id pastOps hc hw [2 ^ 64] hb]
  decide +kernel

end Monkit
