import Verif.Props.FloatDist
import Verif.Props.Dist5

/-!
# C66 and C67 for `FloatDist`: averages and reports
-/

namespace Monkit
open Monkit.Spec Monkit.Dist Go.Float
variable {G : Type}

namespace FloatDist

/-! ## Exact sums -/

section
variable {f : Format} (hp : 0 < f.p) {e : ℤ} (he : f.low ≤ e) (ht : e + f.p < f.top)
include hp he ht

theorem round_exact {m : ℤ} (h : |m| ≤ 2 ^ f.p) : f.round ((m : ℚ) * (2 : ℚ) ^ e) = .fin ((m : ℚ) * (2 : ℚ) ^ e) := by
  have e1 : f.near ((m : ℚ) * (2 : ℚ) ^ e) = (m : ℚ) * (2 : ℚ) ^ e := by
    refine near_of_rep hp (rep_of_le h hp) ⟨m * 2 ^ (e - f.low).toNat, ?_⟩
    push_cast
    rw [mul_assoc, ← zpow_natCast, ← zpow_add₀ (by norm_num)]
    congr 2
    omega
  have h2 : |(m : ℚ) * (2 : ℚ) ^ e| < (2 : ℚ) ^ f.top := by
    rw [abs_mul, abs_of_pos (two_zpow_pos e)]
    have h1 : |(m : ℚ)| ≤ (2 : ℚ) ^ (f.p : ℤ) := by rw [zpow_natCast]; exact_mod_cast h
    refine lt_of_le_of_lt (mul_le_mul_of_nonneg_right h1 (two_zpow_pos e).le) ?_
    rw [← zpow_add₀ (by norm_num)]
    exact zpow_lt_zpow_right₀ (by norm_num) (by omega)
  rw [round_fin (by rw [e1]; exact h2), e1]

theorem sum_exact {M : ℤ} (l : List F) (h : ∀ v ∈ l, ∃ k : ℤ, v = .fin ((k : ℚ) * (2 : ℚ) ^ e) ∧ |k| ≤ M) (hM : l.length * M ≤ 2 ^ f.p) :
    ∃ ks : List ℤ, l = ks.map (fun k => .fin ((k : ℚ) * (2 : ℚ) ^ e)) ∧ |ks.sum| ≤ l.length * M ∧
      l.foldl (F.add f) (.fin 0) = .fin ((ks.sum : ℚ) * (2 : ℚ) ^ e) := by
  induction l using List.reverseRecOn with
  | nil => exact ⟨[], rfl, by simp, by simp⟩
  | append_singleton l x ih =>
    have hM0 : 0 ≤ M := by
      obtain ⟨k, -, hk⟩ := h x (by simp)
      exact le_trans (abs_nonneg _) hk
    rw [List.length_append] at hM
    simp only [List.length_cons, List.length_nil] at hM
    push_cast at hM
    obtain ⟨ks, e1, e2, e3⟩ := ih (fun v hv => h v (by simp [hv])) (by nlinarith)
    obtain ⟨k, rfl, hk⟩ := h x (by simp)
    have hb : |ks.sum + k| ≤ (l.length + 1) * M := by
      refine le_trans (abs_add_le _ _) ?_
      linarith
    refine ⟨ks ++ [k], by rw [e1]; simp, ?_, ?_⟩
    · simpa using hb
    · rw [List.foldl_append, e3]
      simp only [List.foldl_cons, List.foldl_nil, List.sum_append, List.sum_cons, List.sum_nil, add_zero]
      show f.round _ = _
      rw [← add_mul, ← Int.cast_add]
      exact round_exact hp he ht (by linarith)

/-- The average of exactly added floats, divided by their number, lies between any bounds of theirs. -/
theorem avg_between {M : ℤ} (l : List F) (hne : l ≠ []) (h : ∀ v ∈ l, ∃ k : ℤ, v = .fin ((k : ℚ) * (2 : ℚ) ^ e) ∧ |k| ≤ M)
    (hM : l.length * M ≤ 2 ^ f.p) {lo hi : F} (hlo : lo ∈ l) (hhi : hi ∈ l) (hb : ∀ v ∈ l, F.le lo v = true ∧ F.le v hi = true) :
    F.le lo (F.quo f (l.foldl (F.add f) (.fin 0)) l.length) = true ∧ F.le (F.quo f (l.foldl (F.add f) (.fin 0)) l.length) hi = true := by
  obtain ⟨ks, e1, e2, e3⟩ := sum_exact hp he ht l h hM
  rw [e3]
  have hz := two_zpow_pos e
  have hn : 0 < l.length := List.length_pos_iff.2 hne
  have hn' : (0 : ℚ) < l.length := by exact_mod_cast hn
  obtain ⟨a, rfl, ha⟩ := h lo hlo
  obtain ⟨b, rfl, hb'⟩ := h hi hhi
  have hks : ∀ k ∈ ks, a ≤ k ∧ k ≤ b := by
    intro k hk
    have := hb (.fin ((k : ℚ) * (2 : ℚ) ^ e)) (by rw [e1]; exact List.mem_map.2 ⟨k, hk, rfl⟩)
    simp only [F.le, decide_eq_true_eq, mul_le_mul_iff_left₀ hz] at this
    exact ⟨by exact_mod_cast this.1, by exact_mod_cast this.2⟩
  have hlen : l.length = ks.length := by rw [e1, List.length_map]
  have s1 : ks.length * a ≤ ks.sum := by
    have := List.card_nsmul_le_sum ks a (fun k hk => (hks k hk).1)
    simpa using this
  have s2 : ks.sum ≤ ks.length * b := by
    have := List.sum_le_card_nsmul ks b (fun k hk => (hks k hk).2)
    simpa using this
  rw [← hlen] at s1 s2
  have hM1 : M ≤ 2 ^ f.p := by
    have hM0 : 0 ≤ M := le_trans (abs_nonneg _) ha
    have : (1 : ℤ) ≤ l.length := by exact_mod_cast hn
    nlinarith
  have ra := round_exact hp he ht (m := a) (by linarith)
  have rb := round_exact hp he ht (m := b) (by linarith)
  have na : f.near ((a : ℚ) * (2 : ℚ) ^ e) = (a : ℚ) * (2 : ℚ) ^ e ∧ |(a : ℚ) * (2 : ℚ) ^ e| < (2 : ℚ) ^ f.top := by
    unfold Format.round at ra
    split at ra
    · next hlt => simp only [F.fin.injEq] at ra; rw [ra] at hlt; exact ⟨ra, hlt⟩
    · cases ra
  have nb : f.near ((b : ℚ) * (2 : ℚ) ^ e) = (b : ℚ) * (2 : ℚ) ^ e ∧ |(b : ℚ) * (2 : ℚ) ^ e| < (2 : ℚ) ^ f.top := by
    unfold Format.round at rb
    split at rb
    · next hlt => simp only [F.fin.injEq] at rb; rw [rb] at hlt; exact ⟨rb, hlt⟩
    · cases rb
  have q1 : (a : ℚ) * (2 : ℚ) ^ e ≤ (ks.sum : ℚ) * (2 : ℚ) ^ e / l.length := by
    rw [le_div_iff₀ hn']
    have : (l.length : ℚ) * a ≤ ks.sum := by exact_mod_cast s1
    nlinarith
  have q2 : (ks.sum : ℚ) * (2 : ℚ) ^ e / l.length ≤ (b : ℚ) * (2 : ℚ) ^ e := by
    rw [div_le_iff₀ hn']
    have : (ks.sum : ℚ) ≤ l.length * b := by exact_mod_cast s2
    nlinarith
  have m1 := near_mono hp q1
  have m2 := near_mono hp q2
  rw [na.1] at m1
  rw [nb.1] at m2
  have hfin : F.quo f (.fin ((ks.sum : ℚ) * (2 : ℚ) ^ e)) l.length = .fin (f.near ((ks.sum : ℚ) * (2 : ℚ) ^ e / l.length)) := by
    apply round_fin
    rw [abs_lt]
    have := abs_lt.1 na.2
    have := abs_lt.1 nb.2
    constructor <;> linarith
  rw [hfin]
  simp [F.le, m1, m2]

end

theorem reservoirAverage_float {fused : Bool} {vs : List F} {d : Dist F F G} (i : Dist.Inv (floatKind fused) vs d) (hne : vs ≠ []) :
    d.reservoirAverage (floatKind fused) = F.quo b32 ((d.reservoir.take (used vs)).foldl (F.add b32) (.fin 0)) (d.reservoir.take (used vs)).length := by
  have hl : d.rlen = (used vs : Int) := rlen_eq i
  have hpos : 0 < vs.length := List.length_pos_iff.2 hne
  have hu : 0 < used vs := by unfold used; omega
  unfold reservoirAverage
  rw [hl, if_neg (by omega)]
  simp only [Int.toNat_natCast, floatKind]
  congr 1
  refine rn_of_rep (by norm_num) (rep_nat ?_)
  rw [List.length_take, i.len]
  have : min (used vs) 64 ≤ 64 := Nat.min_le_right _ _
  omega

end FloatDist

open FloatDist

/-- **C66 (`FloatDist`, partial).**  If all values are whole multiples of one power of two and add up to at most `2^53` of it in magnitude, `FullAverage` lies between `Low` and `High`.
Full property: whenever the sum does not overflow – false, see `C66_float_average_violated`. -/
theorem C66_float_average_partial (fused : Bool) (next : G → UInt64 × G) (key : Key) (g : G) (ops : List (Op F)) (hq : ∀ q, Op.query q ∈ ops → Rep 53 q)
    (hl : ops.length < 2 ^ 63) (hne : inserted ops ≠ []) (M e : ℤ) (he : -1074 ≤ e) (ht : e < 971) (hM1 : 1 ≤ M)
    (h : ∀ v ∈ inserted ops, ∃ k : ℤ, v = .fin ((k : ℚ) * (2 : ℚ) ^ e) ∧ |k| ≤ M) (hM : (inserted ops).length * M ≤ 2 ^ 53)
    (d : Dist F F G) (hd : (new (floatKind fused) key g).run (floatKind fused) next ops = some d) :
    F.le d.low d.floatAverage = true ∧ F.le d.floatAverage d.high = true := by
  obtain ⟨d₀, e', i⟩ := inv_run (float_ordered fused) next key g ops hq hl
  rw [hd] at e'
  cases e'
  have hh := holds i
  have hnan : ∀ v ∈ inserted ops, v ≠ .nan := by
    intro v hv; obtain ⟨k, rfl, -⟩ := h v hv; simp
  have hhead : (inserted ops).head? ≠ some .nan := by
    intro hc
    exact hnan _ (List.mem_of_head? hc) rfl
  obtain ⟨l1, l2, l3⟩ := hh.least hne hhead
  obtain ⟨g1, g2, g3⟩ := hh.greatest hne hhead
  have hlen : 0 < (inserted ops).length := List.length_pos_iff.2 hne
  have hp : d.count > 0 := by
    show 0 < d.count
    rw [Int64.lt_iff_toInt_lt, i.count]; show 0 < _; omega
  have hcnt : rn 53 (d.count.toInt : ℚ) = (inserted ops).length := by
    rw [hh.count]
    have := rn_of_rep (p := 53) (by norm_num) (rep_int (p := 53) (by norm_num) (k := ((inserted ops).length : ℤ)) (by
      rw [abs_of_nonneg (by omega)]; nlinarith))
    exact_mod_cast this
  unfold Dist.floatAverage
  rw [if_pos hp, hcnt, hh.sum]
  exact avg_between (f := b64) (by decide) he (by show e + 53 < 1024; omega) _ hne h hM l1 g1 (fun v hv => ⟨l3 v hv (hnan v hv), g3 v hv (hnan v hv)⟩)

/-- **C66 (`FloatDist`, partial).**  If all values are whole multiples of one power of two and `min Count 64` of them add up to at most `2^24` of it in magnitude, `ReservoirAverage` lies between
the smallest and the largest reservoir value, which `Query(0)` and `Query(1)` return.
Full property: for all values – false, see `C66_float_reservoir_average_violated`. -/
theorem C66_float_reservoir_average_partial (fused : Bool) (next : G → UInt64 × G) (key : Key) (g : G) (ops : List (Op F)) (hq : ∀ q, Op.query q ∈ ops → Rep 53 q)
    (hl : ops.length < 2 ^ 63) (hne : inserted ops ≠ []) (M e : ℤ) (he : -149 ≤ e) (ht : e < 104)
    (h : ∀ v ∈ inserted ops, ∃ k : ℤ, v = .fin ((k : ℚ) * (2 : ℚ) ^ e) ∧ |k| ≤ M) (hM : (min (inserted ops).length 64 : ℕ) * M ≤ 2 ^ 24)
    (d : Dist F F G) (hd : (new (floatKind fused) key g).run (floatKind fused) next ops = some d) :
    ∃ rmin rmax, (d.query (floatKind fused) 0).map (·.2) = some rmin ∧ (d.query (floatKind fused) 1).map (·.2) = some rmax ∧
      F.le rmin (d.reservoirAverage (floatKind fused)) = true ∧ F.le (d.reservoirAverage (floatKind fused)) rmax = true := by
  obtain ⟨d₀, e', i⟩ := inv_run (float_ordered fused) next key g ops hq hl
  rw [hd] at e'
  cases e'
  have hlen : 0 < (inserted ops).length := List.length_pos_iff.2 hne
  have hM0 : 0 ≤ M := by
    obtain ⟨v, hv⟩ := List.exists_mem_of_ne_nil _ hne
    obtain ⟨k, -, hk⟩ := h v hv
    exact le_trans (abs_nonneg _) hk
  have hM24 : M ≤ 2 ^ 24 := by
    have h1 : (1 : ℤ) ≤ (min (inserted ops).length 64 : ℕ) := by exact_mod_cast (by omega : 1 ≤ min (inserted ops).length 64)
    nlinarith
  have h24 : 0 < b32.p := by decide
  have he' : b32.low ≤ e := he
  have ht' : e + b32.p < b32.top := by show e + 24 < 128; omega
  have hslot : ∀ d' : Dist F F G, Dist.Inv (floatKind fused) (inserted ops) d' → ∀ x ∈ d'.reservoir.take (used (inserted ops)), ∃ k : ℤ, x = .fin ((k : ℚ) * (2 : ℚ) ^ e) ∧ |k| ≤ M := by
    intro d' i' x hx
    obtain ⟨v, hv, rfl⟩ := i'.mem x hx
    obtain ⟨k, rfl, hk⟩ := h v hv
    exact ⟨k, round_exact h24 he' ht' (le_trans hk hM24), hk⟩
  have hulen : (d.reservoir.take (used (inserted ops))).length = min (inserted ops).length 64 := by
    rw [List.length_take, i.len]; unfold used; omega
  have hrne : d.reservoir.take (used (inserted ops)) ≠ [] := by
    apply List.ne_nil_of_length_pos; rw [hulen]; omega
  -- the slots at the ends after sorting
  have ends : ∀ q : ℚ, q = 0 ∨ q = 1 → ∃ d' y, d.query (floatKind fused) q = some (d', y) ∧ y ∈ d.reservoir.take (used (inserted ops)) ∧
      ∀ x ∈ d.reservoir.take (used (inserted ops)), (q = 0 → F.le y x = true) ∧ (q = 1 → F.le x y = true) := by
    intro q hq01
    have hrep : Rep 53 q := by
      rcases hq01 with rfl | rfl
      · exact rep_zero 53
      · exact_mod_cast rep_nat (p := 53) (n := 1) (by norm_num)
    obtain ⟨d', y, a1, a2, a3, a4⟩ := query_spec (float_ordered fused) i q hrep
    have hperm : (d'.reservoir.take (used (inserted ops))).Perm (d.reservoir.take (used (inserted ops))) := by
      rcases (query_key a1).2 with rfl | rfl
      · exact List.Perm.refl _
      · unfold sortReservoir
        rw [rlen_eq i]
        split
        · exact List.Perm.refl _
        · simp only [Int.toNat_natCast]
          have hp := Go.sortBy_perm (floatKind fused).rle (d.reservoir.take (used (inserted ops)))
          have hl : (Go.sortBy (floatKind fused).rle (d.reservoir.take (used (inserted ops)))).length = used (inserted ops) := by
            rw [hp.length_eq, List.length_take, i.len]; unfold used; omega
          rw [List.take_append_of_le_length (by omega), List.take_of_length_le (by omega)]
          exact hp
    have hs := hslot d' a2
    have hsort : 2 ≤ (d'.reservoir.take (used (inserted ops))).length →
        (d'.reservoir.take (used (inserted ops))).Pairwise (fun a b => (floatKind fused).rle a b) := by
      intro hl
      have : 2 ≤ (inserted ops).length := by
        rw [List.length_take] at hl; unfold used at hl; omega
      exact a2.srt (a3 this)
    have hg : ∀ a ∈ d'.reservoir.take (used (inserted ops)), ∃ z, a = .fin z ∧ Slot z := by
      intro a ha
      obtain ⟨v, hv, rfl⟩ := a2.mem a ha
      obtain ⟨k, rfl, hk⟩ := h v hv
      have := round_exact h24 he' ht' (le_trans hk hM24)
      exact ⟨_, this, (slot_conv this).2⟩
    obtain ⟨z, lo, hi, rfl, hlo, hhi, hall, -, -, z0, z1⟩ := (between hsort hg).query (a4 (by omega))
    obtain ⟨w1, rfl, -⟩ := hg lo hlo
    obtain ⟨w2, rfl, -⟩ := hg hi hhi
    refine ⟨d', _, a1, ?_, fun x hx => ?_⟩
    · rcases hq01 with rfl | rfl
      · rw [z0 (le_refl _)]; exact hperm.mem_iff.1 hlo
      · rw [z1 (le_refl _)]; exact hperm.mem_iff.1 hhi
    · have hx' := hperm.mem_iff.2 hx
      obtain ⟨w, rfl, -⟩ := hg x hx'
      have := hall _ hx'
      simp only [num] at this
      refine ⟨fun h0 => ?_, fun h1 => ?_⟩
      · rw [z0 (by rw [h0])]; exact decide_eq_true this.1
      · rw [z1 (by rw [h1])]; exact decide_eq_true this.2
  obtain ⟨d1, lo, b1, b2, b3⟩ := ends 0 (.inl rfl)
  obtain ⟨d2, hi, c1, c2, c3⟩ := ends 1 (.inr rfl)
  refine ⟨lo, hi, by rw [b1]; rfl, by rw [c1]; rfl, ?_⟩
  rw [reservoirAverage_float i hne]
  exact avg_between (f := b32) h24 he' ht' _ hrne (hslot d i) (by rw [hulen]; exact hM) b2 c2 (fun v hv => ⟨(b3 v hv).1 rfl, (c3 v hv).2 rfl⟩)

/-- The hypotheses of both are met: halves, up to 20 of them. -/
example : let ops : List (Op F) := [.insert (.fin (5 / 2)) 1024, .query 0, .insert (.fin (-10)) 1024]
    (∀ q, Op.query q ∈ ops → Rep 53 q) ∧ ops.length < 2 ^ 63 ∧ inserted ops ≠ [] ∧
    (∀ v ∈ inserted ops, ∃ k : ℤ, v = .fin ((k : ℚ) * (2 : ℚ) ^ (-1 : ℤ)) ∧ |k| ≤ 20) ∧ ((inserted ops).length : ℤ) * 20 ≤ 2 ^ 24 := by
  refine ⟨?_, by decide, by simp [inserted], ?_, by decide⟩
  · intro q hq
    simp only [List.mem_cons, reduceCtorEq, Op.query.injEq, List.not_mem_nil, or_false, false_or] at hq
    rw [hq]; exact rep_zero _
  · intro v hv
    have : v = .fin (5 / 2) ∨ v = .fin (-10) := by simpa [inserted] using hv
    rcases this with rfl | rfl
    · exact ⟨5, by norm_num, by norm_num⟩
    · exact ⟨-20, by norm_num, by norm_num⟩

/-- The float64 nearest to 1/10. -/
def tenth : ℚ := 3602879701896397 / 36028797018963968

/-- **C66 is violated (`FloatDist`, `FullAverage`).**  The average of three values 0.1 is greater than their maximum, although nothing overflows; and the average of two finite values is infinite. -/
theorem C66_float_average_violated (fused : Bool) :
    tenth = rn 53 (1 / 10) ∧
    ((new (floatKind fused) ⟨[], []⟩ ()).run (floatKind fused) zeroGen [.insert (.fin tenth) 1024, .insert (.fin tenth) 1024, .insert (.fin tenth) 1024]).map
      (fun d => (d.high, d.floatAverage)) = some (.fin tenth, .fin (tenth + 1 / 2 ^ 56)) ∧
    ((new (floatKind fused) ⟨[], []⟩ ()).run (floatKind fused) zeroGen [.insert (.fin (2 ^ 1023)) 1024, .insert (.fin (2 ^ 1023)) 1024]).map
      (fun d => (d.high, d.floatAverage)) = some (.fin (2 ^ 1023), .inf false) := by
  refine ⟨by decide +kernel, ?_, ?_⟩ <;> cases fused <;> decide +kernel

/-- **C66 is violated (`FloatDist`, `ReservoirAverage`).**  The average of two slots `2^127` is infinite. -/
theorem C66_float_reservoir_average_violated (fused : Bool) :
    ((new (floatKind fused) ⟨[], []⟩ ()).run (floatKind fused) zeroGen [.insert (.fin (2 ^ 127)) 1024, .insert (.fin (2 ^ 127)) 1024]).map
      (fun d => ((d.query (floatKind fused) 1).map (·.2), d.reservoirAverage (floatKind fused))) = some (some (.fin (2 ^ 127)), .inf false) := by
  cases fused <;> decide +kernel

/-- What `Stats` says of a float: itself. -/
theorem float_toF (fused : Bool) (v : F) : ((floatKind fused).toF v).float = v := by
  cases v <;> rfl

/-- **C67 (reports).**  With at least one value since the last `Reset`, `Stats` of a `FloatDist` reports under `sum`, `min`, `max` and `recent` those aggregates – the very float64 values, NaN and infinities included –, under
`count` the number of values and under `rmin`, `r10`, `r50`, `r90`, `r99`, `rmax` what `Query` returns; without one, only a `count` of zero. -/
theorem C67_report (fused : Bool) (next : G → UInt64 × G) (key : Key) (g : G) (ops : List (Op F)) (hq : ∀ q, Op.query q ∈ ops → Rep 53 q)
    (hl : ops.length < 2 ^ 63) (d : Dist F F G) (hd : (new (floatKind fused) key g).run (floatKind fused) next ops = some d) :
    ∃ d' r, d.stats (floatKind fused) = some (d', r) ∧ FHolds (inserted ops) d' ∧
      (inserted ops = [] → r = [(d.key, b!"count", .int 0)]) ∧
      (inserted ops ≠ [] → r.map (·.2.1) = [b!"count", b!"sum", b!"min", b!"max", b!"rmin", b!"ravg", b!"r10", b!"r50", b!"r90", b!"r99", b!"rmax", b!"recent"] ∧
        (∀ x ∈ r, x.1 = d.key) ∧
        (∃ n : Int64, (d.key, b!"count", .int n) ∈ r ∧ n.toInt = (inserted ops).length) ∧
        (∀ p ∈ [(b!"sum", d.sum), (b!"min", d.low), (b!"max", d.high), (b!"recent", d.recent)], ∃ f : FVal, (d.key, p.1, f) ∈ r ∧ f.float = p.2) ∧
        (∀ p ∈ [(b!"rmin", (0 : ℚ)), (b!"r10", rn 53 (1 / 10)), (b!"r50", 1 / 2), (b!"r90", rn 53 (9 / 10)), (b!"r99", rn 53 (99 / 100)), (b!"rmax", 1)],
          ∃ (f : FVal) (y : F), (d.query (floatKind fused) p.2).map (·.2) = some y ∧ (d.key, p.1, f) ∈ r ∧ f.float = y)) := by
  obtain ⟨d₀, e', i⟩ := inv_run (float_ordered fused) next key g ops hq hl
  rw [hd] at e'
  cases e'
  obtain ⟨d', r, h1, h2, h3, h4⟩ := stats_spec (float_ordered fused) i
  refine ⟨d', r, h1, holds h2, fun hn => ?_, fun hne => ?_⟩
  · rw [h3 hn]
    have : d.count = 0 := by apply Int64.toInt_inj.mp; rw [i.count, hn]; rfl
    rw [this]
  · obtain ⟨q0, q10, q50, q90, q99, q1, ravg, a0, a10, a50, a90, a99, a1, rfl⟩ := h4 hne
    have half : lit (1 / 2) = 1 / 2 := by decide +kernel
    rw [half] at a50
    refine ⟨rfl, by simp, ⟨d.count, by simp, i.count⟩, ?_, ?_⟩
    · intro p hp
      simp only [List.mem_cons, List.not_mem_nil, or_false] at hp
      rcases hp with rfl | rfl | rfl | rfl <;> exact ⟨_, by simp, float_toF fused _⟩
    · intro p hp
      simp only [List.mem_cons, List.not_mem_nil, or_false] at hp
      rcases hp with rfl | rfl | rfl | rfl | rfl | rfl
      · exact ⟨_, q0, a0, by simp, float_toF fused _⟩
      · exact ⟨_, q10, a10, by simp, float_toF fused _⟩
      · exact ⟨_, q50, a50, by simp, float_toF fused _⟩
      · exact ⟨_, q90, a90, by simp, float_toF fused _⟩
      · exact ⟨_, q99, a99, by simp, float_toF fused _⟩
      · exact ⟨_, q1, a1, by simp, float_toF fused _⟩

end Monkit
