import Verif.Props.Dist2
import Mathlib.Data.Nat.Count
import Mathlib.Data.Int.CardIntervalMod

/-!
# Concrete cases for C04–C08, float distributions (C67), slot selection (C09)
-/

namespace Monkit
open Monkit.Spec Monkit.Dist Go Go.Float

variable {G : Type}

/-! ## The hypotheses of C04–C08 are met -/

/-- A history with inserts, queries, a report and a reset. -/
def sampleOps : List (Op Int64) :=
  [.insert 100 1024, .query (1 / 2), .stats, .reset, .insert 7 1024, .insert (-4) 1024,
   .insert 12 0]

theorem rep_half : Rep 53 (1 / 2) := ⟨1, -1, by norm_num, by norm_num⟩

theorem sampleOps_valid : Valid sampleOps := by
  refine ⟨by decide, ?_⟩
  intro q hq
  simp [sampleOps] at hq
  rw [hq]; simpa using rep_half

example : inserted sampleOps = [7, -4, 12] := rfl

theorem sampleOps_convertible : Convertible sampleOps := by
  intro v hv
  have : v ∈ [(7 : Int64), -4, 12] := hv
  simp only [List.mem_cons, List.not_mem_nil, or_false] at this
  rcases this with rfl | rfl | rfl <;> decide

/-- The run succeeds, and the median is 7, the lowest sampled value -4 and the highest 12. -/
example : ((new (intKind amd64 false) ⟨[], []⟩ ()).run (intKind amd64 false) zeroGen sampleOps).bind
    (fun d => (d.query (intKind amd64 false) (1 / 2)).bind fun x =>
      (d.query (intKind amd64 false) 0).bind fun y =>
      (d.query (intKind amd64 false) 1).map fun z => (x.2, y.2, z.2)) = some (7, -4, 12) := by
  decide +kernel

/-- A valid history for C08: the same values in another order on a fresh distribution. -/
example : (inserted sampleOps).Perm (inserted [.insert 12 1, .insert 7 1, .insert (-4) 1]) := by
  decide

/-! ## C09: which slot is replaced -/

/-- The window: `Window` if it is positive and smaller than the (new) count, else the count. -/
def windowSpec (W : Int64) (count : Int) : Int := if 0 < W.toInt ∧ W.toInt < count then W.toInt else count

/-- **C09.** Once 64 or more values have been inserted, inserting another one with generator output
`r` replaces slot `r mod w` by the new value if that number is below 64 and otherwise leaves the
sample unchanged, where `w` is `Window` if that is positive and below the new count, and the new
count otherwise. -/
theorem C09_slot_choice {K oob fused} (hK : IsIntKind K oob fused) (next : G → UInt64 × G)
    (key : Key) (g : G) (ops : List (Op Int64)) (v W : Int64) (hv : Valid (ops ++ [.insert v W]))
    (hl : 64 ≤ (inserted ops).length) (d d' : Dist Int64 ℚ G)
    (e : (new K key g).run K next ops = some d) (e' : d.insert K next W v = some d') :
    let w := windowSpec W ((inserted ops).length + 1)
    let slot := ((next d.rng).1.toNat : Int) % w
    0 < w ∧ d'.rng = (next d.rng).2 ∧
    sample d' = if slot < 64 then (sample d).set slot.toNat (rn 24 v.toInt) else sample d := by
  have hv0 : Valid ops := ⟨by have := hv.1; simp at this; omega, fun q hq => hv.2 q (by simp [hq])⟩
  obtain ⟨d₀, e₀, i⟩ := inv_run hK.numeric.ordered next key g ops hv0.2 hv0.1
  rw [e] at e₀; cases e₀
  have hlen : (inserted ops).length ≤ ops.length := by
    clear * -
    induction ops using List.reverseRecOn with
    | nil => simp [inserted]
    | append_singleton as x ih => rw [inserted_snoc]; cases x <;> simp <;> omega
  have hb : (inserted ops).length + 1 < 2 ^ 63 := by
    have := hv.1; simp at this; omega
  obtain ⟨d₁, e₁, i₁⟩ := inv_insert (K := K) (next := next) (W := W) i v hb
  rw [e'] at e₁; cases e₁
  have h64 : (64 : Int64).toInt = 64 := rfl
  have hc1 : (d.count + 1).toInt = ((inserted ops).length : Int) + 1 := by
    rw [Int64.toInt_add, i.count]
    have : (1 : Int64).toInt = 1 := rfl
    rw [this, Int.bmod_eq_of_le] <;> omega
  have hwin : (window W (d.count + 1)).toInt = windowSpec W ((inserted ops).length + 1) := by
    unfold window windowSpec
    have h0 : (0 : Int64).toInt = 0 := rfl
    simp only [Bool.and_eq_true, decide_eq_true_eq, Int64.lt_iff_toInt_lt, hc1, h0]
    split <;> [rfl; rw [hc1]]
  have hpos : 0 < (window W (d.count + 1)).toInt := window_pos (by rw [hc1]; omega)
  have hu : used (inserted ops) = 64 := by unfold used; omega
  have hs : sample d = d.reservoir := by
    rw [sample_eq i, hu]; exact List.take_of_length_le (by rw [i.len])
  have hs' : sample d' = d'.reservoir := by
    rw [sample_eq i₁]
    have : used (inserted ops ++ [v]) = 64 := by unfold used; simp; omega
    rw [this]; exact List.take_of_length_le (by rw [i₁.len])
  have hw0 : (window W (d.count + 1)).toUInt64 ≠ 0 := toUInt64_ne_zero hpos
  have hwn : ((window W (d.count + 1)).toUInt64.toNat : Int) = (window W (d.count + 1)).toInt := by
    generalize window W (d.count + 1) = w at hpos
    have h1 : w.toUInt64.toNat = w.toBitVec.toNat := rfl
    have h2 : w.toInt = w.toBitVec.toInt := rfl
    rw [h1, h2]
    rw [h2] at hpos
    rw [BitVec.toInt_eq_toNat_cond] at hpos ⊢
    have := w.toBitVec.isLt
    split <;> [rfl; (split at hpos <;> omega)]
  have hnlt : ¬ d.count < 64 := by rw [Int64.lt_iff_toInt_lt, i.count, h64]; omega
  have hmod : (((next d.rng).1 % (window W (d.count + 1)).toUInt64).toNat : Int) =
      ((next d.rng).1.toNat : Int) % windowSpec W ((inserted ops).length + 1) := by
    rw [UInt64.toNat_mod, ← hwin, ← hwn]; push_cast; rfl
  intro w slot
  refine ⟨by show 0 < windowSpec _ _; rw [← hwin]; exact hpos, ?_⟩
  have hlt : (next d.rng).1 % (window W (d.count + 1)).toUInt64 < 64 ↔ slot < 64 := by
    rw [UInt64.lt_iff_toNat_lt]
    have : (64 : UInt64).toNat = 64 := rfl
    rw [this]
    show _ ↔ ((next d.rng).1.toNat : Int) % windowSpec W ((inserted ops).length + 1) < 64
    rw [← hmod]; omega
  have hst : slot.toNat = ((next d.rng).1 % (window W (d.count + 1)).toUInt64).toNat := by
    show (((next d.rng).1.toNat : Int) % windowSpec W ((inserted ops).length + 1)).toNat = _
    rw [← hmod]; exact Int.toNat_natCast _
  rw [hs, hs', hst, ← hK.toR]
  -- unfold the insertion
  unfold Dist.insert at e'
  have red : ∀ (dd : Dist Int64 ℚ G), (if (d.count != 0) = true then
        (let d1 : Dist Int64 ℚ G := if K.lt v d.low then { d with low := v } else d
         if K.lt d1.high v then { d1 with high := v } else d1)
      else { d with low := v, high := v }) = dd →
      dd.count = d.count ∧ dd.reservoir = d.reservoir ∧ dd.rng = d.rng := by
    rintro _ rfl
    split
    · by_cases h1 : K.lt v d.low = true
      · by_cases h2 : K.lt d.high v = true <;> simp [h1, h2]
      · by_cases h2 : K.lt d.high v = true <;> simp [h1, h2]
    · exact ⟨rfl, rfl, rfl⟩
  generalize hdd : (if (d.count != 0) = true then
        (let d1 : Dist Int64 ℚ G := if K.lt v d.low then { d with low := v } else d
         if K.lt d1.high v then { d1 with high := v } else d1)
      else { d with low := v, high := v }) = dd at e'
  obtain ⟨r1, r2, r3⟩ := red dd hdd
  simp only [r1, r2, r3, hnlt, if_false, hw0] at e'
  by_cases hj : (next d.rng).1 % (window W (d.count + 1)).toUInt64 < 64
  · rw [if_pos (hlt.mp hj)]
    rw [if_pos hj] at e'
    have e' := (Option.some.inj e').symm
    subst e'; exact ⟨rfl, rfl⟩
  · rw [if_neg (fun h => hj (hlt.mpr h))]
    rw [if_neg hj] at e'
    have e' := (Option.some.inj e').symm
    subst e'; exact ⟨rfl, rfl⟩

/-- **C09.** Over all `2^64` outputs of the generator, every index below the window is chosen
`⌊2^64/w⌋` or `⌊2^64/w⌋ + 1` times. -/
theorem C09_slot_uniform (w : ℕ) (hw : 0 < w) (i : ℕ) (hi : i < w) :
    2 ^ 64 / w ≤ ((Finset.range (2 ^ 64)).filter (fun r => r % w = i)).card ∧
    ((Finset.range (2 ^ 64)).filter (fun r => r % w = i)).card ≤ 2 ^ 64 / w + 1 := by
  have h := Nat.count_modEq_card (b := 2 ^ 64) hw i
  rw [Nat.count_eq_card_filter_range] at h
  have : ((Finset.range (2 ^ 64)).filter (fun r => r % w = i)) =
      ((Finset.range (2 ^ 64)).filter (fun r => r ≡ i [MOD w])) := by
    apply Finset.filter_congr
    intro r _
    unfold Nat.ModEq
    rw [Nat.mod_eq_of_lt hi]
  rw [this, h]
  split <;> omega

/-- **C09.** With a positive `Window` of at least 64 in force, at least `64·⌊2^64/Window⌋` of the
`2^64` generator outputs replace a slot: the replacement probability is at least
`64/Window − 64/2^64`. -/
theorem C09_replacement_rate (w : ℕ) (hw : 64 ≤ w) :
    64 * (2 ^ 64 / w) ≤ ((Finset.range (2 ^ 64)).filter (fun r => r % w < 64)).card := by
  have hall := C09_slot_uniform w (by omega)
  generalize 2 ^ 64 = N at hall ⊢
  have key : ∀ k, k ≤ w → k * (N / w) ≤ ((Finset.range N).filter (fun r => r % w < k)).card := by
    intro k hk
    have hU : (Finset.range N).filter (fun r => r % w < k) =
        (Finset.range k).biUnion (fun i => (Finset.range N).filter (fun r => r % w = i)) := by
      ext r
      simp only [Finset.mem_filter, Finset.mem_biUnion, Finset.mem_range]
      constructor
      · rintro ⟨h1, h2⟩; exact ⟨_, h2, h1, rfl⟩
      · rintro ⟨i, h1, h2, h3⟩; exact ⟨h2, by omega⟩
    rw [hU, Finset.card_biUnion]
    · have : ∀ i ∈ Finset.range k,
          N / w ≤ ((Finset.range N).filter (fun r => r % w = i)).card :=
        fun i hi => (hall i (by simp at hi; omega)).1
      have h := Finset.card_nsmul_le_sum _ _ _ this
      simpa using h
    · intro i _ j _ hij
      rw [Function.onFun, Finset.disjoint_left]
      intro r h1 h2
      simp only [Finset.mem_filter] at h1 h2
      omega
  exact key 64 hw

/-- Beyond 64 values, with the default window: the hypotheses of `C09_slot_choice` are met. -/
example : Valid (List.replicate 64 (Op.insert 5 1024) ++ [.insert 9 1024]) ∧
    64 ≤ (inserted (List.replicate 64 (Op.insert (5 : Int64) 1024))).length ∧
    ((((new (intKind amd64 false) ⟨[], []⟩ ()).run (intKind amd64 false) zeroGen
        (List.replicate 64 (Op.insert 5 1024))).bind
      (fun d => d.insert (intKind amd64 false) zeroGen 1024 9)).map (fun d => d.reservoir[0]?)) =
        some (some 9) := by
  refine ⟨⟨by decide, ?_⟩, by decide, by decide +kernel⟩
  intro q hq
  simp at hq

end Monkit
