import Verif.Spec.FloatDist
import Verif.Proofs.FloatDist
import Verif.Props.Dist2

/-!
# C67: distributions of floats
-/

namespace Monkit
open Monkit.Spec Monkit.Dist Go.Float
variable {G : Type}

namespace FloatDist

theorem holds {fused : Bool} {vs : List F} {d : Dist F F G} (i : Inv (floatKind fused) vs d) : FHolds vs d := by
  refine ⟨i.count, i.sum, i.recent, ?_, ?_, ?_, ?_⟩
  all_goals try rw [i.low]
  all_goals try rw [i.high]
  · intro hne hn
    obtain ⟨a, as, rfl⟩ := List.exists_cons_of_ne_nil hne
    have h := float_low fused a as
    have ha : a ≠ .nan := by simpa using hn
    exact ⟨h.1, h.2.2 ha⟩
  · intro hne hn
    obtain ⟨a, as, rfl⟩ := List.exists_cons_of_ne_nil hne
    have h := float_high fused a as
    have ha : a ≠ .nan := by simpa using hn
    exact ⟨h.1, h.2.2 ha⟩
  · intro hn
    cases vs with
    | nil => cases hn
    | cons a as =>
      have ha : a = .nan := by simpa using hn
      exact ⟨(float_low fused a as).2.1 ha, (float_high fused a as).2.1 ha⟩
  · rintro rfl; exact ⟨rfl, rfl⟩

/-- What can be in a slot when no value is NaN. -/
def Good (a : F) : Prop := (∃ s, a = .inf s) ∨ ∃ z, a = .fin z ∧ Slot z

theorem conv_good {v : F} (h : v ≠ .nan) : Good (F.conv b32 v) := by
  rcases v with _ | s | q
  · exact absurd rfl h
  · exact .inl ⟨s, rfl⟩
  · rcases h : F.conv b32 (.fin q) with _ | s | z
    · change b32.round q = .nan at h
      unfold Format.round at h
      split at h <;> cases h
    · exact .inl ⟨s, rfl⟩
    · exact .inr ⟨z, rfl, (slot_conv h).2⟩

theorem conv_fits {v : F} (h : Fits v) : ∃ z, F.conv b32 v = .fin z ∧ Slot z := by
  obtain ⟨x, rfl, hx⟩ := h
  have : F.conv b32 (.fin x) = .fin (b32.near x) := by
    apply round_fin
    apply near_lt_top (f := b32) (by decide) (by decide)
    have e : (2 : ℚ) ^ b32.top - (2 : ℚ) ^ (b32.top - b32.p - 1) = (2 : ℚ) ^ 128 - (2 : ℚ) ^ 103 := by
      simp only [b32]; norm_num
    rw [e]; exact hx
  exact ⟨_, this, (slot_conv this).2⟩

theorem flerp_between (fused : Bool) {a b : F} (ha : Good a) (hb : Good b) (hab : F.le a b = true) {d : ℚ} (d0 : 0 ≤ d) (d1 : d < 1)
    (hd : Rep 53 d) : flerp fused a b d = .nan ∨ (F.le a (flerp fused a b d) = true ∧ F.le (flerp fused a b d) b = true) := by
  have hn : ¬d < 0 := not_lt.2 d0
  rcases ha with ⟨s, rfl⟩ | ⟨a, rfl, sa⟩ <;> rcases hb with ⟨t, rfl⟩ | ⟨b, rfl, sb⟩
  · cases s <;> cases t <;> cases fused <;> by_cases hz : d = 0 <;>
      simp_all [flerp, F.sub, F.neg, F.add, F.mul, F.times, F.conv, F.fma, F.le]
  · cases s <;> cases fused <;> by_cases hz : d = 0 <;>
      simp_all [flerp, F.sub, F.neg, F.add, F.mul, F.times, F.conv, F.fma, F.le]
  · cases t <;> cases fused <;> by_cases hz : d = 0 <;>
      simp_all [flerp, F.sub, F.neg, F.add, F.mul, F.times, F.conv, F.fma, F.le]
    all_goals
      have h0 : decide (d < 0) = false := by simpa using d0
      rw [h0]
      exact ⟨rfl, rfl⟩
  · right
    obtain ⟨e, h1, h2⟩ := flerp_fin fused sa sb (by simpa [F.le] using hab) d0 d1 hd
    rw [e]
    simp [F.le, h1, h2]

/-- The number in a finite slot. -/
def num : F → ℚ
  | .fin q => q
  | _ => 0

theorem between {fused : Bool} {res : List F} (hs : 2 ≤ res.length → res.Pairwise (fun a b => (floatKind fused).rle a b))
    (hg : ∀ a ∈ res, ∃ z, a = .fin z ∧ Slot z) :
    Between (floatKind fused) res num (fun a b d => flerpQ fused (num a) (num b) d) F.fin where
  sorted hl := by
    refine (hs hl).imp_of_mem fun {a b} ha hb h => ?_
    obtain ⟨z, rfl, -⟩ := hg a ha
    obtain ⟨w, rfl, -⟩ := hg b hb
    simpa [floatKind, F.le, num] using h
  out a ha := by
    obtain ⟨z, rfl, -⟩ := hg a ha
    rfl
  interp a ha b hb hab d d0 d1 hd := by
    obtain ⟨z, rfl, sz⟩ := hg a ha
    obtain ⟨w, rfl, sw⟩ := hg b hb
    exact flerp_fin fused sz sw hab d0 d1 hd
  mono a _ b _ hab d d' h := flerpQ_mono fused hab h

theorem query_between {fused : Bool} {vs : List F} {d : Dist F F G} (i : Inv (floatKind fused) vs d) (hne : vs ≠ []) {q : ℚ} (hq : Rep 53 q) :
    ∃ d' y, d.query (floatKind fused) q = some (d', y) ∧ ((∀ v ∈ vs, v ≠ .nan) → y = .nan ∨ Within vs y) ∧ ((∀ v ∈ vs, Fits v) → Within vs y) := by
  obtain ⟨d', v, h1, h2, h3, h4⟩ := query_spec (float_ordered fused) i q hq
  have hpos : 1 ≤ vs.length := List.length_pos_iff.mpr hne
  have h4 := h4 hpos
  have hsort : 2 ≤ (d'.reservoir.take (used vs)).length →
      (d'.reservoir.take (used vs)).Pairwise (fun a b => (floatKind fused).rle a b) := by
    intro hl
    have : 2 ≤ vs.length := by
      rw [List.length_take] at hl; unfold used at hl; omega
    exact h2.srt (h3 this)
  have hmem := h2.mem
  generalize d'.reservoir.take (used vs) = res at *
  refine ⟨d', v, h1, fun hv => ?_, fun hv => ?_⟩
  · have self : ∀ a ∈ res, Within vs a := by
      intro a ha
      obtain ⟨w, hw, rfl⟩ := hmem a ha
      have : F.conv b32 w ≠ .nan := by
        rcases conv_good (hv w hw) with ⟨s, e⟩ | ⟨z, e, -⟩ <;> rw [e] <;> simp
      exact ⟨w, hw, w, hw, F.le_refl this, F.le_refl this⟩
    cases h4 with
    | single x hx e => rw [e]; exact .inr (self x (by simp [hx]))
    | first x hl hx hq e => rw [e]; exact .inr (self x (List.mem_of_getElem? hx))
    | last x hl hx hq e => rw [e]; exact .inr (self x (List.mem_of_getElem? hx))
    | between j diff a b hl q0 q1 hj ha hb hdi hd d0 d1 hr e =>
      have hab : (floatKind fused).rle a b = true := by
        obtain ⟨p1, e1⟩ := List.getElem?_eq_some_iff.1 ha
        obtain ⟨p2, e2⟩ := List.getElem?_eq_some_iff.1 hb
        rw [← e1, ← e2]
        exact List.pairwise_iff_getElem.mp (hsort hl) j (j + 1) p1 p2 (by omega)
      obtain ⟨w, hw, rfl⟩ := hmem a (List.mem_of_getElem? ha)
      obtain ⟨u, hu, rfl⟩ := hmem b (List.mem_of_getElem? hb)
      have gw := conv_good (hv w hw)
      have gu := conv_good (hv u hu)
      have hle : F.le (F.conv b32 w) (F.conv b32 u) = true := by
        change (decide (F.conv b32 w = .nan) || F.le (F.conv b32 w) (F.conv b32 u)) = true at hab
        rcases gw with ⟨s, e⟩ | ⟨z, e, -⟩ <;> rw [e] at hab ⊢ <;> simpa using hab
      rcases flerp_between fused gw gu hle d0 d1 hr with h | h
      · left; rw [e]; exact h
      · right; rw [e]; exact ⟨w, hw, u, hu, h.1, h.2⟩
  · have hg : ∀ a ∈ res, ∃ z, a = .fin z ∧ Slot z := by
      intro a ha
      obtain ⟨w, hw, rfl⟩ := hmem a ha
      exact conv_fits (hv w hw)
    obtain ⟨y, lo, hi, e, hlo, hhi, -, b1, b2, -, -⟩ := (between hsort hg).query h4
    obtain ⟨w, hw, rfl⟩ := hmem lo hlo
    obtain ⟨u, hu, rfl⟩ := hmem hi hhi
    refine ⟨w, hw, u, hu, ?_, ?_⟩
    · obtain ⟨z, e', -⟩ := conv_fits (hv w hw)
      change num (F.conv b32 w) ≤ y at b1
      rw [e'] at b1 ⊢
      rw [e]; simpa [F.le, num] using b1
    · obtain ⟨z, e', -⟩ := conv_fits (hv u hu)
      change y ≤ num (F.conv b32 u) at b2
      rw [e'] at b2 ⊢
      rw [e]; simpa [F.le, num] using b2

end FloatDist

open FloatDist

/-- **C67 (aggregates).**  After every history of a `FloatDist`, with any float64 values (infinite ones and NaN among them): no call panics, `Count` and `Recent` are exact, `Sum` is the left-to-right float64 sum,
`Low` and `High` are the least and the greatest of the values that are not NaN, and quantiles lie between two of the values as float32 numbers, unless the quantile is NaN.

Partial: the full claim has no exception for NaN and none for large values: if the first value is NaN, so are `Low` and `High` (`C67_nan_violated`); and a quantile can be NaN (`C67_large_violated`),
though not if all values fit a float32, as `C67_quantiles_partial` says. -/
theorem C67_float_dist_partial (fused : Bool) (next : G → UInt64 × G) (key : Key) (g : G)
    (ops : List (Op F)) (hq : ∀ q, Op.query q ∈ ops → Rep 53 q) (hl : ops.length < 2 ^ 63) :
    ∃ d, (new (floatKind fused) key g).run (floatKind fused) next ops = some d ∧ FHolds (inserted ops) d ∧
      (∀ q, Rep 53 q → inserted ops ≠ [] → (∀ v ∈ inserted ops, v ≠ .nan) →
        ∃ d' y, d.query (floatKind fused) q = some (d', y) ∧ (y = .nan ∨ Within (inserted ops) y)) := by
  obtain ⟨d, e, i⟩ := inv_run (float_ordered fused) next key g ops hq hl
  refine ⟨d, e, holds i, fun q hq' hne hv => ?_⟩
  obtain ⟨d', y, h1, h2, -⟩ := query_between i hne hq'
  exact ⟨d', y, h1, h2 hv⟩

/-- **C67 (quantiles).**  If all values fit a float32, then every quantile is a number that lies between two of the values as float32 numbers, and quantiles are monotone; in particular they lie between
the least (the 0-quantile) and the greatest slot (the 1-quantile).

Partial: for values that fit a float32; see `C67_large_violated`. -/
theorem C67_quantiles_partial (fused : Bool) (next : G → UInt64 × G) (key : Key) (g : G)
    (ops : List (Op F)) (hq : ∀ q, Op.query q ∈ ops → Rep 53 q) (hl : ops.length < 2 ^ 63)
    (hne : inserted ops ≠ []) (hf : ∀ v ∈ inserted ops, Fits v) (d : Dist F F G)
    (hd : (new (floatKind fused) key g).run (floatKind fused) next ops = some d) (q q' : ℚ) (h1 : Rep 53 q) (h2 : Rep 53 q') (hqq : q ≤ q') :
    ∃ y y', (d.query (floatKind fused) q).map (·.2) = some (.fin y) ∧ (d.query (floatKind fused) q').map (·.2) = some (.fin y') ∧
      Within (inserted ops) (.fin y) ∧ Within (inserted ops) (.fin y') ∧ y ≤ y' := by
  obtain ⟨d₀, e, i⟩ := inv_run (float_ordered fused) next key g ops hq hl
  rw [hd] at e
  cases e
  obtain ⟨d', v, a1, a2, a3, a4⟩ := query_spec (float_ordered fused) i q h1
  obtain ⟨d'', v', b1, b2, b3, b4⟩ := query_spec (float_ordered fused) a2 q' h2
  obtain ⟨_, y, c1, -, c2⟩ := query_between i hne h1
  obtain ⟨_, y', e1, -, e2⟩ := query_between a2 hne h2
  rw [a1] at c1
  cases c1
  rw [b1] at e1
  cases e1
  have hpos : 1 ≤ (inserted ops).length := List.length_pos_iff.mpr hne
  have hdd : d'' = d' := by
    rcases (query_key b1).2 with h | h
    · exact h
    · by_cases hl2 : 2 ≤ (inserted ops).length
      · rw [h]; unfold sortReservoir; simp [a3 hl2]
      · have : d'.rlen < 2 := by rw [rlen_eq a2]; unfold used; omega
        unfold query at b1
        simp only [this, if_true, Option.map_eq_some_iff, Prod.mk.injEq] at b1
        obtain ⟨_, _, h', _⟩ := b1; exact h'.symm
  have hsort : 2 ≤ (d'.reservoir.take (used (inserted ops))).length →
      (d'.reservoir.take (used (inserted ops))).Pairwise (fun a b => (floatKind fused).rle a b) := by
    intro hl
    have : 2 ≤ (inserted ops).length := by
      rw [List.length_take] at hl; unfold used at hl; omega
    exact a2.srt (a3 this)
  have hg : ∀ a ∈ d'.reservoir.take (used (inserted ops)), ∃ z, a = .fin z ∧ Slot z := by
    intro a ha
    obtain ⟨w, hw, rfl⟩ := a2.mem a ha
    exact conv_fits (hf w hw)
  have r' := b4 hpos
  rw [hdd] at r'
  obtain ⟨x, x', rfl, rfl, hxx, -, -⟩ := (between hsort hg).query_mono hqq (a4 hpos) r'
  exact ⟨x, x', by rw [a1]; rfl, by rw [← query_stable a1 q', b1]; rfl, c2 hf, e2 hf, hxx⟩

/-- The hypotheses are met by values of both signs, one of them subnormal and one near the greatest float32, with a reset before them. -/
example : let ops : List (Op F) := [.insert .nan 1024, .reset, .insert (.fin (2 ^ 127)) 1024, .insert (.fin (1 / 2 ^ 149)) 1024, .query (1 / 2), .insert (.fin (-5 / 2)) 1024]
    (∀ q, Op.query q ∈ ops → Rep 53 q) ∧ ops.length < 2 ^ 63 ∧ inserted ops ≠ [] ∧ (∀ v ∈ inserted ops, Fits v) ∧
    ((new (floatKind false) ⟨[], []⟩ ()).run (floatKind false) zeroGen ops).bind (fun d => (d.query (floatKind false) (1 / 4)).map (·.2)) = some (.fin (-5 / 4)) := by
  have hi : inserted ([.insert .nan 1024, .reset, .insert (.fin (2 ^ 127)) 1024, .insert (.fin (1 / 2 ^ 149)) 1024, .query (1 / 2),
      .insert (.fin (-5 / 2)) 1024] : List (Op F)) = [.fin (2 ^ 127), .fin (1 / 2 ^ 149), .fin (-5 / 2)] := rfl
  refine ⟨?_, by decide, by rw [hi]; simp, ?_, by decide +kernel⟩
  · intro q hq
    simp only [List.mem_cons, reduceCtorEq, Op.query.injEq, List.not_mem_nil, or_false, false_or] at hq
    rw [hq]
    exact ⟨1, -1, by norm_num, by norm_num⟩
  · rw [hi]
    intro v hv
    simp only [List.mem_cons, List.not_mem_nil, or_false] at hv
    rcases hv with rfl | rfl | rfl <;> exact ⟨_, rfl, by norm_num [abs_of_neg]⟩

/-- **C67 is violated by NaN.**  If the first value of a `FloatDist` since it was made or last reset is NaN, `Low` and `High` are NaN whatever is inserted later. -/
theorem C67_nan_violated (fused : Bool) (next : G → UInt64 × G) (key : Key) (g : G) (ops : List (Op F)) (hq : ∀ q, Op.query q ∈ ops → Rep 53 q)
    (hl : ops.length < 2 ^ 63) (h : (inserted ops).head? = some .nan) :
    ∃ d, (new (floatKind fused) key g).run (floatKind fused) next ops = some d ∧ d.low = .nan ∧ d.high = .nan := by
  obtain ⟨d, e, i⟩ := inv_run (float_ordered fused) next key g ops hq hl
  exact ⟨d, e, (holds i).nan h⟩

/-- The hypotheses are met by values of which two are numbers. -/
example : (∀ q, Op.query q ∈ [Op.insert F.nan 1024, .insert (.fin 1) 1024, .insert (.fin 5) 1024] → Rep 53 q) ∧
    (inserted [Op.insert F.nan 1024, .insert (.fin 1) 1024, .insert (.fin 5) 1024]).head? = some .nan := by
  refine ⟨fun q hq => ?_, rfl⟩
  simp at hq

/-- **C67 is violated by large values.**  With two values, both `2^130`, `Low` and `High` are `2^130`, but the 0-quantile is infinite and the median is NaN: neither is bounded by a value inserted. -/
theorem C67_large_violated (fused : Bool) : ∃ d, (new (floatKind fused) ⟨[], []⟩ ()).run (floatKind fused) zeroGen
      [.insert (.fin (2 ^ 130)) 1024, .insert (.fin (2 ^ 130)) 1024] = some d ∧ d.low = .fin (2 ^ 130) ∧ d.high = .fin (2 ^ 130) ∧
    (d.query (floatKind fused) 0).map (·.2) = some (.inf false) ∧ (d.query (floatKind fused) (1 / 2)).map (·.2) = some .nan := by
  cases fused <;> exact ⟨_, rfl, rfl, rfl, by decide +kernel, by decide +kernel⟩

end Monkit
