import Verif.Props.Dist4
import Verif.Props.Counter
import Verif.Model.Units

/-!
# C79: copies of distributions, C80: the units of the reported numbers
-/

namespace Monkit
open Monkit.Spec Monkit.Dist Go Go.Float

variable {G : Type}

/-! ## C79 -/

section
variable {V R : Type}

theorem inv_copy {K : DistKind V R} {vs : List V} {d : Dist V R G} (i : Dist.Inv K vs d) (g : G) : Dist.Inv K vs (d.copy g) :=
  ⟨i.len, i.count, i.low, i.high, i.recent, i.sum, i.mem, i.perm, i.srt⟩

theorem sort_copy (K : DistKind V R) (d : Dist V R G) (g : G) : (d.copy g).sortReservoir K = (d.sortReservoir K).copy g := by
  unfold sortReservoir copy
  simp only [rlen]
  split <;> rfl

theorem query_copy (K : DistKind V R) (d : Dist V R G) (g : G) (q : ℚ) :
    (d.copy g).query K q = (d.query K q).map fun x => (x.1.copy g, x.2) := by
  unfold query
  simp only [sort_copy]
  have e1 : (d.copy g).rlen = d.rlen := rfl
  have e2 : (d.copy g).reservoir = d.reservoir := rfl
  have e3 : ((d.sortReservoir K).copy g).reservoir = (d.sortReservoir K).reservoir := rfl
  rw [e1, e2, e3]
  split
  · rw [Option.map_map]; rfl
  split
  · rw [Option.map_map]; rfl
  split
  · rw [Option.map_map]; rfl
  split
  · rfl
  · split <;> rfl

theorem stats_copy (K : DistKind V R) (d : Dist V R G) (g : G) :
    (d.copy g).stats K = (d.stats K).map fun x => (x.1.copy g, x.2) := by
  unfold stats
  have e1 : (d.copy g).count = d.count := rfl
  rw [e1]
  split
  · simp only [query_copy, Option.bind_eq_bind]
    cases d.query K (lit 0) with
    | none => rfl
    | some x1 =>
    simp only [Option.map_some, Option.bind_some, query_copy]
    cases x1.1.query K (lit (1 / 10)) with
    | none => rfl
    | some x2 =>
    simp only [Option.map_some, Option.bind_some, query_copy]
    cases x2.1.query K (lit (1 / 2)) with
    | none => rfl
    | some x3 =>
    simp only [Option.map_some, Option.bind_some, query_copy]
    cases x3.1.query K (lit (9 / 10)) with
    | none => rfl
    | some x4 =>
    simp only [Option.map_some, Option.bind_some, query_copy]
    cases x4.1.query K (lit (99 / 100)) with
    | none => rfl
    | some x5 =>
    simp only [Option.map_some, Option.bind_some, query_copy]
    cases x5.1.query K (lit 1) with
    | none => rfl
    | some x6 => rfl
  · rfl

end

/-- **C79 (the copy is faithful).**  At whatever point of whatever history a distribution is copied, the copy answers every query and reports the same
statistics as the original, with a generator of its own. -/
theorem C79_copy_same {V R : Type} (K : DistKind V R) (d : Dist V R G) (g : G) (q : ℚ) :
    ((d.copy g).query K q).map (·.2) = (d.query K q).map (·.2) ∧
    ((d.copy g).stats K).map (·.2) = (d.stats K).map (·.2) ∧
    (d.copy g).reservoirAverage K = d.reservoirAverage K ∧
    (d.copy g).count = d.count ∧ (d.copy g).sum = d.sum ∧ (d.copy g).low = d.low ∧
    (d.copy g).high = d.high ∧ (d.copy g).recent = d.recent ∧ (d.copy g).rng = g := by
  refine ⟨?_, ?_, rfl, rfl, rfl, rfl, rfl, rfl, rfl⟩
  · rw [query_copy, Option.map_map]; rfl
  · rw [stats_copy, Option.map_map]; rfl

theorem inserted_length {V : Type} (ops : List (Op V)) : (inserted ops).length ≤ ops.length := by
  induction ops using List.reverseRecOn with
  | nil => simp [inserted]
  | append_singleton os o ih => rw [inserted_snoc]; cases o <;> simp <;> omega

/-- **C79 (the copy lives on).**  A distribution is used with the calls `ops`, copied, and the copy used with the calls `ops'`: the copy then
holds the values of both, as a distribution used with `ops` and `ops'` would – count, sum, minimum, maximum, last value, and a reservoir of values
inserted. -/
theorem C79_copy_continues {K oob fused} (hK : IsIntKind K oob fused) (next : G → UInt64 × G)
    (key : Key) (g g' : G) (ops ops' : List (Op Int64)) (hv : Valid (ops ++ ops')) :
    ∃ d d', (new K key g).run K next ops = some d ∧ (d.copy g').run K next ops' = some d' ∧
      d'.count.toInt = (inserted (ops ++ ops')).length ∧
      d'.sum.toInt = wrapSum (inserted (ops ++ ops')) ∧
      isMinOrZero (inserted (ops ++ ops')) d'.low ∧
      isMaxOrZero (inserted (ops ++ ops')) d'.high ∧
      d'.recent = (inserted (ops ++ ops')).getLast?.getD 0 ∧
      (sample d').length = min (inserted (ops ++ ops')).length 64 ∧
      (∀ x ∈ sample d', ∃ v ∈ inserted (ops ++ ops'), x = rn 24 v.toInt) ∧
      ((inserted (ops ++ ops')).length ≤ 64 →
        (sample d').Perm ((inserted (ops ++ ops')).map fun v => rn 24 v.toInt)) := by
  have hlen := hv.1
  rw [List.length_append] at hlen
  obtain ⟨d, e, i⟩ := inv_run hK.numeric.ordered next key g ops
    (fun q hq => hv.2 q (List.mem_append_left _ hq)) (by omega)
  have hins : (inserted ops).length ≤ ops.length := inserted_length ops
  obtain ⟨d', e', i'⟩ := inv_run_from hK.numeric.ordered (next := next) ops ops' (d.copy g') (inv_copy i g')
    (fun q hq => hv.2 q (List.mem_append_right _ hq)) (by omega)
  refine ⟨d, d', e, e', i'.count, ?_, ?_, ?_, ?_, ?_⟩
  · rw [i'.sum, hK.sum]
  · rw [i'.low]; exact hK.low _
  · rw [i'.high]; exact hK.high _
  · rw [i'.recent, hK.zero]
  rw [sample_eq i']
  refine ⟨?_, ?_, ?_⟩
  · rw [List.length_take, i'.len]; unfold used; omega
  · intro x hx
    obtain ⟨v, h1, h2⟩ := i'.mem x hx
    exact ⟨v, h1, by rw [h2, hK.toR]⟩
  · intro h
    have := i'.perm h
    have hu : used (inserted (ops ++ ops')) = (inserted (ops ++ ops')).length := by unfold used; omega
    rw [hu]
    refine this.trans ?_
    rw [List.map_congr_left (fun v _ => hK.toR v)]

/-- The hypotheses are met. -/
example : Valid (sampleOps ++ [.insert 100 1024, .stats, .query 1]) := by
  refine ⟨by decide, ?_⟩
  intro q hq
  rcases List.mem_append.mp hq with hq | hq
  · exact sampleOps_valid.2 q hq
  · simp only [List.mem_cons, Op.query.injEq, reduceCtorEq, false_or, List.not_mem_nil, or_false] at hq
    subst hq
    exact_mod_cast rep_nat (p := 53) (n := 1) (by norm_num)

/-! ## C80 -/

theorem rep_int {p : ℕ} (hp : 0 < p) {k : ℤ} (h : |k| ≤ 2 ^ p) : Rep p (k : ℚ) := by
  have := rep_of_le (p := p) (m := k) (e := 0) h hp
  simpa using this

/-- **C80 (whole numbers).**  A reported integer is off by at most one part in `2^53`, and exact up to `2^53`. -/
theorem C80_int_exact (i : Int64) : ∃ x, (FVal.int i).float = .fin x ∧
    |x - i.toInt| ≤ |(i.toInt : ℚ)| / 2 ^ 53 ∧ (|i.toInt| ≤ 2 ^ 53 → x = i.toInt) :=
  ⟨_, rfl, rn_rel _, fun h => rn_of_rep (by norm_num) (rep_int (by norm_num) h)⟩

/-- **C80 (durations).**  A duration of `d` nanoseconds is reported in seconds: the number is off by at most one part in `2^51`, exact for whole seconds, and has the sign of the duration. -/
theorem C80_seconds (d : Int64) : ∃ x, (FVal.secs d).float = .fin x ∧
    |x - d.toInt / 10 ^ 9| ≤ |(d.toInt : ℚ) / 10 ^ 9| / 2 ^ 51 ∧
    ((10 : ℤ) ^ 9 ∣ d.toInt → x = (d.toInt / 10 ^ 9 : ℤ)) ∧
    (0 ≤ d.toInt → 0 ≤ x) ∧ (d.toInt ≤ 0 → x ≤ 0) := by
  have b1 := d.le_toInt
  have b2 := d.toInt_lt
  refine ⟨seconds d, rfl, ?_⟩
  have hdq : (d / 1000000000).toInt = d.toInt.tdiv 1000000000 := Int64.toInt_div_of_ne_right _ _ (by decide)
  have hdr : (d % 1000000000).toInt = d.toInt.tmod 1000000000 := Int64.toInt_mod _ _
  rw [seconds, hdq, hdr]
  clear hdq hdr
  generalize d.toInt = v at *
  have hdiv : v = 1000000000 * v.tdiv 1000000000 + v.tmod 1000000000 := (Int.mul_tdiv_add_tmod v 1000000000).symm
  have hpos : 0 ≤ v → 0 ≤ v.tdiv 1000000000 ∧ 0 ≤ v.tmod 1000000000 := fun h =>
    ⟨Int.tdiv_nonneg h (by norm_num), Int.tmod_nonneg _ h⟩
  have hneg : v ≤ 0 → v.tdiv 1000000000 ≤ 0 ∧ v.tmod 1000000000 ≤ 0 := by
    intro h
    have h1 := Int.tdiv_nonneg (a := -v) (b := 1000000000) (by omega) (by norm_num)
    have h2 := Int.tmod_nonneg (a := -v) 1000000000 (by omega)
    rw [Int.neg_tdiv] at h1; rw [Int.neg_tmod] at h2
    omega
  have hlt : |v.tmod 1000000000| < 1000000000 := by
    have h1 := Int.tmod_lt_of_pos v (b := 1000000000) (by norm_num)
    have h2 := Int.tmod_lt_of_pos (-v) (b := 1000000000) (by norm_num)
    rw [Int.neg_tmod] at h2
    rw [abs_lt]; constructor <;> omega
  have hdvd : (10 : ℤ) ^ 9 ∣ v → v.tmod 1000000000 = 0 := fun h => Int.tmod_eq_zero_of_dvd (by simpa using h)
  have hq : (10 : ℤ) ^ 9 ∣ v → v / 10 ^ 9 = v.tdiv 1000000000 := by
    intro h; have := hdvd h; norm_num; omega
  generalize v.tdiv 1000000000 = s at *
  generalize v.tmod 1000000000 = n at *
  have hs : rn 53 (s : ℚ) = s := rn_of_rep (by norm_num) (rep_int (by norm_num) (by rw [abs_le]; constructor <;> omega))
  have hn : rn 53 (n : ℚ) = n := rn_of_rep (by norm_num) (rep_int (by norm_num) (by have := abs_lt.mp hlt; rw [abs_le]; constructor <;> omega))
  rw [hs, hn]
  have hv : (v : ℚ) / 10 ^ 9 = s + n / 1000000000 := by rw [hdiv]; push_cast; ring
  rw [hv]
  have r1 := rn_rel (p := 53) ((n : ℚ) / 1000000000)
  have r2 := rn_rel (p := 53) ((s : ℚ) + rn 53 ((n : ℚ) / 1000000000))
  have hsame : |(n : ℚ) / 1000000000| ≤ |(s : ℚ) + n / 1000000000| := by
    rcases le_total 0 v with h | h
    · obtain ⟨h1, h2⟩ := hpos h
      have h1' : (0 : ℚ) ≤ s := by exact_mod_cast h1
      have h2' : (0 : ℚ) ≤ (n : ℚ) / 1000000000 := by positivity
      rw [abs_of_nonneg h2', abs_of_nonneg (by linarith)]; linarith
    · obtain ⟨h1, h2⟩ := hneg h
      have h1' : (s : ℚ) ≤ 0 := by exact_mod_cast h1
      have h2' : (n : ℚ) / 1000000000 ≤ 0 := by
        have : (n : ℚ) ≤ 0 := by exact_mod_cast h2
        linarith
      rw [abs_of_nonpos h2', abs_of_nonpos (by linarith)]; linarith
  have hsgn1 : 0 ≤ n → 0 ≤ rn 53 ((n : ℚ) / 1000000000) := fun h => rn_nonneg (by norm_num) (by positivity)
  have hsgn2 : n ≤ 0 → rn 53 ((n : ℚ) / 1000000000) ≤ 0 := by
    intro h
    have : (n : ℚ) ≤ 0 := by exact_mod_cast h
    have h2 := rn_mono (p := 53) (by norm_num) (show (n : ℚ) / 1000000000 ≤ 0 by linarith)
    rwa [rn_zero] at h2
  have hz : n = 0 → rn 53 ((n : ℚ) / 1000000000) = 0 := by rintro rfl; simp [rn_zero]
  generalize hQ : rn 53 ((n : ℚ) / 1000000000) = Q at *
  generalize (n : ℚ) / 1000000000 = N at *
  refine ⟨?_, ?_, ?_, ?_⟩
  · have e : rn 53 ((s : ℚ) + Q) - (s + N) = (rn 53 ((s : ℚ) + Q) - (s + Q)) + (Q - N) := by ring
    rw [e]
    refine le_trans (abs_add_le _ _) ?_
    have h3 : |(s : ℚ) + Q| ≤ |(s : ℚ) + N| + |Q - N| := by
      have : (s : ℚ) + Q = (s + N) + (Q - N) := by ring
      rw [this]; exact abs_add_le _ _
    have h0 := abs_nonneg ((s : ℚ) + N)
    have p1 : |Q - N| ≤ |(s : ℚ) + N| / 2 ^ 53 := le_trans r1 (by gcongr)
    have p2 : |(s : ℚ) + Q| / 2 ^ 53 ≤ (|(s : ℚ) + N| + |(s : ℚ) + N| / 2 ^ 53) / 2 ^ 53 := by
      gcongr; linarith
    have : |(s : ℚ) + N| / 2 ^ 53 + (|(s : ℚ) + N| + |(s : ℚ) + N| / 2 ^ 53) / 2 ^ 53 ≤ |(s : ℚ) + N| / 2 ^ 51 := by
      have c : |(s : ℚ) + N| / 2 ^ 53 + (|(s : ℚ) + N| + |(s : ℚ) + N| / 2 ^ 53) / 2 ^ 53 =
        |(s : ℚ) + N| * (2 / 2 ^ 53 + 1 / 2 ^ 106) := by ring
      have c' : |(s : ℚ) + N| / 2 ^ 51 = |(s : ℚ) + N| * (1 / 2 ^ 51) := by ring
      rw [c, c']
      exact mul_le_mul_of_nonneg_left (by norm_num) h0
    linarith
  · intro h
    rw [hz (hdvd h), add_zero, hs, hq h]
  · intro h
    obtain ⟨h1, h2⟩ := hpos h
    have h1' : (0 : ℚ) ≤ s := by exact_mod_cast h1
    exact rn_nonneg (by norm_num) (add_nonneg h1' (hsgn1 h2))
  · intro h
    obtain ⟨h1, h2⟩ := hneg h
    have h1' : (s : ℚ) ≤ 0 := by exact_mod_cast h1
    have h2' := rn_mono (p := 53) (by norm_num) (show (s : ℚ) + Q ≤ 0 from add_nonpos h1' (hsgn2 h2))
    rwa [rn_zero] at h2'

/-- The number `x` shows `v` units of which `n` make one, up to one part in `2^51`. -/
def Shows (n : ℚ) (v : ℤ) (x : ℚ) : Prop := |x - v / n| ≤ |(v : ℚ) / n| / 2 ^ 51

theorem shows_int (i : Int64) : ∃ x, (FVal.int i).float = .fin x ∧ Shows 1 i.toInt x := by
  obtain ⟨x, h, b, -⟩ := C80_int_exact i
  refine ⟨x, h, ?_⟩
  unfold Shows
  rw [div_one]
  refine le_trans b ?_
  have := abs_nonneg (i.toInt : ℚ)
  apply div_le_div_of_nonneg_left this <;> norm_num

/-- **C80 (reports).**  With at least one value since the last `Reset`, the float64 numbers that `Stats` reports under `sum`, `min`, `max` and `recent` are, up to one
part in `2^51`, those aggregates: of an IntDist (`IntVal`) as they are, of a DurationDist (`DurationVal`, `Timer`, the times of a `Func`) in seconds; and `count` is the number of values. -/
theorem C80_report (oob : ℚ → Int64) (fused dur : Bool) (next : G → UInt64 × G)
    (key : Key) (g : G) (ops : List (Op Int64)) (hv : Valid ops) (hc : Convertible ops) (hne : inserted ops ≠ [])
    (d : Dist Int64 ℚ G)
    (e : (new (if dur then durKind oob fused else intKind oob fused) key g).run
      (if dur then durKind oob fused else intKind oob fused) next ops = some d) :
    ∃ d' r, d.stats (if dur then durKind oob fused else intKind oob fused) = some (d', r) ∧ ∃ low high recent : Int64,
      isMinOrZero (inserted ops) low ∧ isMaxOrZero (inserted ops) high ∧ (inserted ops).getLast? = some recent ∧
      (∃ f x, (d.key, b!"count", f) ∈ r ∧ f.float = .fin x ∧ Shows 1 (inserted ops).length x) ∧
      ∀ p ∈ [(b!"sum", wrapSum (inserted ops)), (b!"min", low.toInt), (b!"max", high.toInt), (b!"recent", recent.toInt)],
        ∃ f x, (d.key, p.1, f) ∈ r ∧ f.float = .fin x ∧ Shows (if dur then 10 ^ 9 else 1) p.2 x := by
  have hK : IsIntKind (if dur then durKind oob fused else intKind oob fused) oob fused := by
    cases dur
    · exact .inl rfl
    · exact .inr rfl
  obtain ⟨d', r, h1, -, h3⟩ := C06_stats_report_partial hK next key g ops hv hc d e
  obtain ⟨sum, low, high, recent, rmin, ravg, r10, r50, r90, r99, rmax, cnt, a1, a2, a3, a4, a5, -, -, -, -, -, hr⟩ := h3 hne
  have hsh : ∀ v : Int64, ∃ x, ((if dur then durKind oob fused else intKind oob fused).toF v).float = .fin x ∧
      Shows (if dur then 10 ^ 9 else 1) v.toInt x := by
    intro v
    cases dur
    · exact shows_int v
    · obtain ⟨x, h, b, -⟩ := C80_seconds v
      exact ⟨x, h, b⟩
  refine ⟨d', r, h1, low, high, recent, a3, a4, a5, ?_, ?_⟩
  · obtain ⟨x, h, b⟩ := shows_int cnt
    exact ⟨_, x, by rw [hr]; simp, h, by rw [← a1]; exact b⟩
  · intro p hp
    simp only [List.mem_cons, List.not_mem_nil, or_false] at hp
    rcases hp with rfl | rfl | rfl | rfl
    · obtain ⟨x, h, b⟩ := hsh sum
      exact ⟨_, x, by rw [hr]; simp, h, by rw [← a2]; exact b⟩
    · obtain ⟨x, h, b⟩ := hsh low
      exact ⟨_, x, by rw [hr]; simp, h, b⟩
    · obtain ⟨x, h, b⟩ := hsh high
      exact ⟨_, x, by rw [hr]; simp, h, b⟩
    · obtain ⟨x, h, b⟩ := hsh recent
      exact ⟨_, x, by rw [hr]; simp, h, b⟩

/-- The hypotheses are met; one and a half seconds are shown as 1.5. -/
example : Valid sampleOps ∧ Convertible sampleOps ∧ inserted sampleOps ≠ [] ∧ (FVal.secs 1500000000).float = .fin (3 / 2) :=
  ⟨sampleOps_valid, sampleOps_convertible, by simp [sampleOps, inserted], by decide +kernel⟩

/-- **C80 (counters).**  What a counter reports after whatever calls: its value, up to one part in `2^51`; under `high` and `low` NaN if it has taken no value since it was made or last reset, and
otherwise the highest and lowest value it took, up to one part in `2^51`. -/
theorem C80_counter (k : Key) (pre post : List Counter.Op) :
    ∃ hi lo v, ((Counter.new k).run (pre ++ .stats :: post)).2[pre.length]? = some (.report [(k, b!"high", hi), (k, b!"low", lo), (k, b!"value", v)]) ∧
      (∃ x, v.float = .fin x ∧ Shows 1 (counterValue pre) x) ∧
      ((∀ y, ¬ tookSinceReset pre y) → hi.float = .nan ∧ lo.float = .nan) ∧
      ((∃ y, tookSinceReset pre y) → ∃ h l x y, counterHigh pre h ∧ counterLow pre l ∧ hi.float = .fin x ∧ lo.float = .fin y ∧ Shows 1 h x ∧ Shows 1 l y) := by
  obtain ⟨r, h1, hi, lo, v, rfl, h2, h3⟩ := C02_counter_stats k pre post
  obtain ⟨x, h4, h5⟩ := shows_int v
  refine ⟨hi, lo, _, h1, ⟨x, h4, h2 ▸ h5⟩, ?_, ?_⟩
  · intro hn
    rcases h3 with ⟨-, rfl, rfl⟩ | ⟨_, _, -, -, -, -, -, -, y, hy⟩
    · exact ⟨rfl, rfl⟩
    · exact absurd hy (hn y)
  · rintro ⟨y, hy⟩
    rcases h3 with ⟨hn, -, -⟩ | ⟨h, l, rfl, rfl, a, b, -, -, -⟩
    · exact absurd hy (hn y)
    · obtain ⟨x, e1, e2⟩ := shows_int h
      obtain ⟨y, e3, e4⟩ := shows_int l
      exact ⟨_, _, x, y, a, b, e1, e3, e2, e4⟩

/-- Both cases occur. -/
example : (∀ y, ¬ tookSinceReset [.reset] y) ∧ tookSinceReset [.inc 5, .reset, .set 3] 3 := by
  refine ⟨?_, ⟨[.inc 5, .reset], .set 3, [], rfl, rfl, by decide, by decide⟩⟩
  rintro y ⟨a, o, b, h, ho, -, -⟩
  cases a with
  | nil => cases h; cases ho
  | cons x a => simp at h

end Monkit
