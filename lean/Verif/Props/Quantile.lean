import Verif.Proofs.Quantile
import Verif.Props.FloatDist
import Verif.Props.FuncStats2

/-!
# C112: quantiles split the sample as asked
-/

namespace Monkit
open Monkit.Spec Monkit.Dist Go Go.Float
variable {G : Type}

/-- The slots that `Query` looks at are the sample, sorted. -/
theorem query_perm {V R : Type} {K : DistKind V R} {vs : List V} {d d' : Dist V R G} (i : Dist.Inv K vs d) {q : ℚ} {v : V}
    (h1 : d.query K q = some (d', v)) : (d'.reservoir.take (used vs)).Perm (sample d) := by
  have hs : sample d = d.reservoir.take (used vs) := by
    unfold sample used; rw [i.count]; simp
  rw [hs]
  rcases (query_key h1).2 with rfl | rfl
  · exact List.Perm.refl _
  · unfold sortReservoir
    rw [rlen_eq i]
    split
    · exact List.Perm.refl _
    · simp only [Int.toNat_natCast]
      have hp := Go.sortBy_perm K.rle (d.reservoir.take (used vs))
      have hl : (Go.sortBy K.rle (d.reservoir.take (used vs))).length = used vs := by
        rw [hp.length_eq, List.length_take, i.len]; unfold used; omega
      rw [List.take_append_of_le_length (by omega), List.take_of_length_le (by omega)]
      exact hp

theorem quantile_int {K oob fused} (hK : IsIntKind K oob fused) {ops : List (Op Int64)} (hc : Convertible ops)
    (hne : inserted ops ≠ []) {d : Dist Int64 ℚ G} (i : Dist.Inv K (inserted ops) d) {q : ℚ} (hq : Rep 53 q) (q0 : 0 ≤ q) (q1 : q ≤ 1) :
    ∃ v, (d.query K q).map (·.2) = some v ∧ Splits (sample d) q v.toInt ∧ Interpolates (sample d) q v.toInt := by
  obtain ⟨d', v, h1, h2, h3, h4⟩ := query_spec hK.numeric.ordered i q hq
  have hpos : 1 ≤ (inserted ops).length := List.length_pos_iff.mpr hne
  have h4 := h4 hpos
  have hperm := query_perm i h1
  have hrep : ∀ x ∈ d'.reservoir.take (used (inserted ops)), Rep 24 x := by
    intro x hx; obtain ⟨v, _, rfl⟩ := h2.mem x hx; exact hK.numeric.rep v
  have hsort : 2 ≤ (d'.reservoir.take (used (inserted ops))).length →
      (d'.reservoir.take (used (inserted ops))).Pairwise (· ≤ ·) := by
    intro hl
    have : 2 ≤ (inserted ops).length := by
      rw [List.length_take] at hl; unfold used at hl; omega
    refine (h2.srt (h3 this)).imp ?_
    intro a b hab; rw [hK.numeric.rle] at hab; simpa using hab
  have h64 : (d'.reservoir.take (used (inserted ops))).length ≤ 64 := by
    rw [List.length_take]; unfold used; omega
  have hrange : ∀ x ∈ d'.reservoir.take (used (inserted ops)), InRange x := by
    intro x hx; obtain ⟨v, hv', rfl⟩ := h2.mem x hx
    rw [hK.toR]; exact inRange_f32 (hc v hv')
  generalize d'.reservoir.take (used (inserted ops)) = res at *
  refine ⟨v, by rw [h1]; rfl, ?_, ?_⟩
  · obtain ⟨y, e, ⟨a, ha, hay⟩, ⟨b, hb, hby⟩, r1, r2⟩ := (hK.numeric.between hrep hsort).rank
      (fun a ha b _ _ => lerp_zero fused b (rep_mono (by norm_num) (hrep a ha))) h64 q0 q1 h4
    have hv : v.toInt = trunc y := by rw [e, toI64_toInt oob (inRange_between (hrange _ ha) (hrange _ hb) hay hby)]
    rw [hperm.length_eq] at r1 r2
    constructor
    · refine lt_of_lt_of_le r1 ?_
      rw [hperm.countP_eq, hv]
      exact_mod_cast List.countP_mono_left fun x _ hx => by simpa using trunc_mono (by simpa using hx)
    · refine le_trans r2 ?_
      rw [hperm.countP_eq, hv]
      exact_mod_cast List.countP_mono_left fun x _ hx => by simpa using trunc_mono (by simpa using hx)
  · intro l hl hs m hm
    obtain ⟨y, e, ⟨a, ha, hay⟩, ⟨b, hb, hby⟩, r⟩ := hK.numeric.accurate hrep hsort h64 q0 q1 h4
      (m := m) fun x hx => hm x (hperm.mem_iff.mp hx)
    have hv : v.toInt = trunc y := by rw [e, toI64_toInt oob (inRange_between (hrange _ ha) (hrange _ hb) hay hby)]
    have hres : res = l := by
      by_cases h2 : 2 ≤ res.length
      · exact (hperm.trans hl.symm).eq_of_pairwise (fun a b _ _ => le_antisymm) (hsort h2) hs
      · have p := hperm.trans hl.symm
        match res, h2, p with
        | [], _, p => exact (List.nil_perm.mp p).symm
        | [x], _, p => exact (List.singleton_perm.mp p)
        | _ :: _ :: _, h2, _ => simp at h2
    rw [hres, hl.length_eq] at r
    rw [hv]
    have t1 := trunc_abs y
    have t2 := abs_add_le ((trunc y : ℚ) - y) (y - onLine l (q * (((sample d).length : ℚ) - 1)))
    rw [sub_add_sub_cancel] at t2
    linarith

/-- **C112 (Query).**  After every history of an `IntDist` or `DurationDist`, in which values were inserted and whose values are below `2^63 - 2^38`, for every quantile `q` from 0 to 1 (a float64):
`Query(q)` splits the sample as `q` asks, and it is, up to rounding, the value at position `q * (n - 1)` of the sorted sample, on the line between the neighbouring values. -/
theorem C112_query {K oob fused} (hK : IsIntKind K oob fused) (next : G → UInt64 × G) (key : Key) (g : G)
    (ops : List (Op Int64)) (hv : Valid ops) (hc : Convertible ops) (hne : inserted ops ≠ []) (q : ℚ) (hq : Rep 53 q) (q0 : 0 ≤ q) (q1 : q ≤ 1) :
    ∃ d v, (new K key g).run K next ops = some d ∧ (d.query K q).map (·.2) = some v ∧
      Splits (sample d) q v.toInt ∧ Interpolates (sample d) q v.toInt := by
  obtain ⟨d, e, i⟩ := inv_run hK.numeric.ordered next key g ops hv.2 hv.1
  obtain ⟨v, h1, h2, h3⟩ := quantile_int hK hc hne i hq q0 q1
  exact ⟨d, v, e, h1, h2, h3⟩

/-- The quantiles in a report, by name. -/
def reported : List (Str × ℚ) := [(b!"rmin", 0), (b!"r10", 1 / 10), (b!"r50", 1 / 2), (b!"r90", 9 / 10), (b!"r99", 99 / 100), (b!"rmax", 1)]

/-- **C112 (Stats).**  In such a report, each of `rmin`, `r10`, `r50`, `r90`, `r99` and `rmax` is reported once, and splits the sample at 0, 10, 50, 90, 99 and 100 percent
(as float64 numbers). -/
theorem C112_report {K oob fused} (hK : IsIntKind K oob fused) (next : G → UInt64 × G) (key : Key) (g : G)
    (ops : List (Op Int64)) (hv : Valid ops) (hc : Convertible ops) (hne : inserted ops ≠ []) :
    ∃ d r, (new K key g).run K next ops = some d ∧ (d.stats K).map (·.2) = some r ∧
      ∀ nq ∈ reported, ∃ v, r.filter (fun e => e.2.1 = nq.1) = [(key, nq.1, K.toF v)] ∧
        Splits (sample d) (rn 53 nq.2) v.toInt ∧ Interpolates (sample d) (rn 53 nq.2) v.toInt := by
  obtain ⟨d, e, i⟩ := inv_run hK.numeric.ordered next key g ops hv.2 hv.1
  obtain ⟨d', r, h1, -, -, h2⟩ := stats_spec hK.numeric.ordered i
  obtain ⟨v0, v10, v50, v90, v99, v1, ravg, e0, e10, e50, e90, e99, e1, rfl⟩ := h2 hne
  have hkey : d.key = key := run_key ops e
  have get : ∀ q v, 0 ≤ q → q ≤ 1 → (d.query K (rn 53 q)).map (·.2) = some v →
      Splits (sample d) (rn 53 q) v.toInt ∧ Interpolates (sample d) (rn 53 q) v.toInt := by
    intro q v q0 q1 hv
    have r1 : Rep 53 (1 : ℚ) := by exact_mod_cast rep_nat (p := 53) (n := 1) (by norm_num)
    have h := rn_mono (p := 53) (by norm_num) q1
    rw [rn_of_rep (by norm_num) r1] at h
    obtain ⟨v', a, b⟩ := quantile_int hK hc hne i (rn_rep (by norm_num) q) (rn_nonneg (by norm_num) q0) h
    rw [hv] at a
    cases a
    exact b
  have r1 : rn 53 (1 : ℚ) = 1 := rn_of_rep (by norm_num) (by exact_mod_cast rep_nat (p := 53) (n := 1) (by norm_num))
  refine ⟨d, _, e, by rw [h1]; rfl, ?_⟩
  rw [hkey]
  intro nq hn
  simp only [reported, List.mem_cons, List.not_mem_nil, or_false] at hn
  rcases hn with rfl | rfl | rfl | rfl | rfl | rfl
  · exact ⟨v0, rfl, get 0 _ (by norm_num) (by norm_num) (by rw [rn_zero]; exact e0)⟩
  · exact ⟨v10, rfl, get _ _ (by norm_num) (by norm_num) e10⟩
  · exact ⟨v50, rfl, get _ _ (by norm_num) (by norm_num) e50⟩
  · exact ⟨v90, rfl, get _ _ (by norm_num) (by norm_num) e90⟩
  · exact ⟨v99, rfl, get _ _ (by norm_num) (by norm_num) e99⟩
  · exact ⟨v1, rfl, get 1 _ (by norm_num) (by norm_num) (by rw [r1]; exact e1)⟩

/-- **C112 (few values).**  If at most 64 values were inserted since the last `Reset`, none of them greater than `2^24` in magnitude, then `Query(q)` splits these very values:
more than `q * (n - 1)` of them are at most `v`, and at least `(1 - q) * (n - 1)` of them are at least `v`. -/
theorem C112_few {K oob fused} (hK : IsIntKind K oob fused) (next : G → UInt64 × G) (key : Key) (g : G)
    (ops : List (Op Int64)) (hv : Valid ops) (hne : inserted ops ≠ []) (hl : (inserted ops).length ≤ 64) (hm : ∀ v ∈ inserted ops, |v.toInt| ≤ 2 ^ 24)
    (q : ℚ) (hq : Rep 53 q) (q0 : 0 ≤ q) (q1 : q ≤ 1) :
    ∃ d v, (new K key g).run K next ops = some d ∧ (d.query K q).map (·.2) = some v ∧
      q * (((inserted ops).length : ℚ) - 1) < (inserted ops).countP (fun x => x ≤ v) ∧
      (1 - q) * (((inserted ops).length : ℚ) - 1) ≤ (inserted ops).countP (fun x => v ≤ x) := by
  have hc : Convertible ops := by
    intro v hv; have := hm v hv; have := le_abs_self v.toInt; omega
  obtain ⟨d, v, e, h1, h2, -⟩ := C112_query hK next key g ops hv hc hne q hq q0 q1
  have hp := (C05_reservoir_real hK next key g ops hv d e).2.2 hl
  have ht : ∀ x ∈ inserted ops, trunc (rn 24 x.toInt) = x.toInt := by
    intro x hx
    have hr : Rep 24 (x.toInt : ℚ) := by
      have := rep_of_le (p := 24) (m := x.toInt) (e := 0) (hm x hx) (by norm_num)
      simpa using this
    rw [rn_of_rep (by norm_num) hr]
    unfold trunc
    split <;> simp
  have b := h2.below
  have a := h2.above
  rw [hp.length_eq, hp.countP_eq, List.length_map, List.countP_map] at a b
  refine ⟨d, v, e, h1, lt_of_lt_of_eq b ?_, le_of_le_of_eq a ?_⟩
  · congr 1
    apply List.countP_congr
    intro x hx
    simp [ht x hx, Int64.le_iff_toInt_le]
  · congr 1
    apply List.countP_congr
    intro x hx
    simp [ht x hx, Int64.le_iff_toInt_le]

/-- Some history: reset in between, queries and a report, five values out of order. -/
def quantileOps : List (Op Int64) :=
  [.insert 99 1024, .reset, .insert 30 1024, .insert (-7) 1024, .query (1 / 2), .insert 1000 1024, .stats, .insert 8 1024, .insert 9 1024]

theorem quantileOps_inserted : inserted quantileOps = [30, -7, 1000, 8, 9] := rfl

/-- It meets the hypotheses of `C112_query`, `C112_report` and `C112_few`; its median is 9, its quantile for 3/8 lies halfway between 8 and 9, and is cut off. -/
example : Valid quantileOps ∧ Convertible quantileOps ∧ inserted quantileOps ≠ [] ∧ (inserted quantileOps).length ≤ 64 ∧
    (∀ v ∈ inserted quantileOps, |v.toInt| ≤ 2 ^ 24) ∧ Rep 53 (1 / 2) ∧ Rep 53 (3 / 8) ∧
    (((new (intKind (fun _ => 0) false) ⟨[], []⟩ ()).run (intKind (fun _ => 0) false) zeroGen quantileOps).bind fun d =>
      (d.query (intKind (fun _ => 0) false) (1 / 2)).map (·.2)) = some 9 ∧
    (((new (intKind (fun _ => 0) false) ⟨[], []⟩ ()).run (intKind (fun _ => 0) false) zeroGen quantileOps).bind fun d =>
      (d.query (intKind (fun _ => 0) false) (3 / 8)).map (·.2)) = some 8 := by
  have half : Rep 53 (1 / 2) := ⟨1, -1, by norm_num, by norm_num⟩
  refine ⟨⟨by decide, ?_⟩, ?_, by rw [quantileOps_inserted]; simp, by rw [quantileOps_inserted]; decide, ?_, half, ⟨3, -3, by norm_num, by norm_num⟩, by decide +kernel, by decide +kernel⟩
  · intro q hq
    simp only [quantileOps, List.mem_cons, reduceCtorEq, Op.query.injEq, List.not_mem_nil, or_false, false_or] at hq
    rw [hq]; exact half
  · unfold Convertible; rw [quantileOps_inserted]; decide
  · rw [quantileOps_inserted]; decide

/-- **C112 (floats).**  After every history of a `FloatDist` in which values were inserted and whose values fit a float32, `Query(q)` splits the sample as `q` asks. -/
theorem C112_float (fused : Bool) (next : G → UInt64 × G) (key : Key) (g : G) (ops : List (Op F)) (hv : ∀ q, Op.query q ∈ ops → Rep 53 q) (hl : ops.length < 2 ^ 63)
    (hne : inserted ops ≠ []) (hf : ∀ v ∈ inserted ops, Fits v) (q : ℚ) (hq : Rep 53 q) (q0 : 0 ≤ q) (q1 : q ≤ 1) :
    ∃ d v, (new (floatKind fused) key g).run (floatKind fused) next ops = some d ∧ (d.query (floatKind fused) q).map (·.2) = some v ∧ FSplits (sample d) q v := by
  obtain ⟨d, e, i⟩ := inv_run (float_ordered fused) next key g ops hv hl
  obtain ⟨d', v, h1, h2, h3, h4⟩ := query_spec (float_ordered fused) i q hq
  have hpos : 1 ≤ (inserted ops).length := List.length_pos_iff.mpr hne
  have h4 := h4 hpos
  have hperm := query_perm i h1
  have hsort : 2 ≤ (d'.reservoir.take (used (inserted ops))).length →
      (d'.reservoir.take (used (inserted ops))).Pairwise (fun a b => (floatKind fused).rle a b) := by
    intro hl
    have : 2 ≤ (inserted ops).length := by
      rw [List.length_take] at hl; unfold used at hl; omega
    exact h2.srt (h3 this)
  have hg : ∀ a ∈ d'.reservoir.take (used (inserted ops)), ∃ z, a = .fin z ∧ Slot z := by
    intro a ha
    obtain ⟨w, hw, rfl⟩ := h2.mem a ha
    exact FloatDist.conv_fits (hf w hw)
  have h64 : (d'.reservoir.take (used (inserted ops))).length ≤ 64 := by
    rw [List.length_take]; unfold used; omega
  generalize d'.reservoir.take (used (inserted ops)) = res at *
  obtain ⟨y, e', -, -, r1, r2⟩ := (FloatDist.between hsort hg).rank (fun a ha b _ _ => by
      obtain ⟨z, rfl, sz⟩ := hg a ha
      unfold flerpQ
      cases fused <;> simp [near_zero (f := b64) (by decide), FloatDist.num, sz.near]) h64 q0 q1 h4
  rw [hperm.length_eq] at r1 r2
  refine ⟨d, v, e, by rw [h1]; rfl, ?_⟩
  have hcp : ∀ (p p' : F → Bool), (∀ z, p (.fin z) = p' (.fin z)) → res.countP p = (sample d).countP p' := by
    intro p p' h
    rw [← hperm.countP_eq]
    apply List.countP_congr
    intro a ha
    obtain ⟨z, rfl, -⟩ := hg a ha
    rw [h z]
  constructor
  · refine lt_of_lt_of_eq r1 ?_
    rw [e']
    exact_mod_cast hcp _ _ fun z => by simp [F.le, FloatDist.num]; congr
  · refine le_of_le_of_eq r2 ?_
    rw [e']
    exact_mod_cast hcp _ _ fun z => by simp [F.le, FloatDist.num]; congr

/-- The hypotheses are met by values of both signs; the quantile for 1/4 of -5/2, 1/2 and 4 is halfway between the first two. -/
example : let ops : List (Op F) := [.insert (.fin 4) 1024, .insert (.fin (1 / 2)) 1024, .query (1 / 2), .insert (.fin (-5 / 2)) 1024]
    (∀ q, Op.query q ∈ ops → Rep 53 q) ∧ ops.length < 2 ^ 63 ∧ inserted ops ≠ [] ∧ (∀ v ∈ inserted ops, Fits v) ∧ Rep 53 (1 / 4) ∧
    ((new (floatKind false) ⟨[], []⟩ ()).run (floatKind false) zeroGen ops).bind (fun d => (d.query (floatKind false) (1 / 4)).map (·.2)) = some (.fin (-1)) := by
  have hi : inserted ([.insert (.fin 4) 1024, .insert (.fin (1 / 2)) 1024, .query (1 / 2), .insert (.fin (-5 / 2)) 1024] : List (Op F)) =
      [.fin 4, .fin (1 / 2), .fin (-5 / 2)] := rfl
  refine ⟨?_, by decide, by rw [hi]; simp, ?_, ⟨1, -2, by norm_num, by norm_num⟩, by decide +kernel⟩
  · intro q hq
    simp only [List.mem_cons, reduceCtorEq, Op.query.injEq, List.not_mem_nil, or_false, false_or] at hq
    rw [hq]
    exact ⟨1, -1, by norm_num, by norm_num⟩
  · rw [hi]
    intro v hv
    simp only [List.mem_cons, List.not_mem_nil, or_false] at hv
    rcases hv with rfl | rfl | rfl <;> exact ⟨_, rfl, by norm_num [abs_of_neg]⟩

end Monkit
