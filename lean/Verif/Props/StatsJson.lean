import Verif.Spec.StatsJson
import Verif.Proofs.Json
import Verif.Proofs.Ieee
import Verif.Props.ListWriter
import Mathlib.Tactic.Linarith

/-!
# C114: statistics as JSON; C56: what json.Marshal does with them
-/

namespace Monkit.StatsJson
open Go Go.Float Go.JsonEnc
open Monkit.JsonSpec
open Monkit.ListWriter (Writer)
open Spec

theorem near_neg {f : Format} (x : ℚ) : f.near (-x) = -f.near x := by
  unfold Format.near
  rw [abs_neg]
  split
  · rw [neg_div, rhe_neg]; push_cast; ring
  · rw [rn_neg]

theorem round_neg {f : Format} {x q : ℚ} (h : f.round x = .fin q) : f.round (-x) = .fin (-q) := by
  unfold Format.round at h ⊢
  rw [near_neg, abs_neg]
  split at h
  · rename_i h1
    cases h
    rw [if_pos h1]
  · cases h

theorem round_rep {q : ℚ} (h : b64.Rep q) : b64.round q = .fin q := by
  obtain ⟨h1, h2, h3⟩ := h
  have e : b64.near q = q := near_of_rep (f := b64) (by decide) h1 h2
  unfold Format.round
  rw [e, if_pos h3]

theorem rep_abs {q : ℚ} (h : b64.Rep q) : b64.Rep |q| := by
  obtain ⟨h1, ⟨n, h2⟩, h3⟩ := h
  rcases abs_choice q with e | e
  · rw [e]; exact ⟨h1, ⟨n, h2⟩, h3⟩
  · rw [e]
    refine ⟨rep_neg h1, ⟨-n, by rw [h2]; push_cast; ring⟩, by rwa [abs_neg]⟩

/-- The number that is written gives the value back. -/
theorem number_gives {short : ℚ → Dec} (hc : Chosen short) {q : ℚ} (hq : b64.Rep q) : ∃ v, meaning (number short q) = .num v ∧ Gives v (.fin q) := by
  unfold number
  split
  · rename_i h0
    subst h0
    refine ⟨0, ?_, round_rep hq⟩
    simp [meaning, floatValue, decValue, zero, natOf]
  · rename_i h0
    obtain ⟨-, h⟩ := hc |q| (rep_abs hq) (abs_pos.2 h0)
    refine ⟨_, by rw [meaning], ?_⟩
    unfold Gives floatValue
    by_cases hneg : q < 0
    · rw [if_pos (by simpa using hneg)]
      have := round_neg h
      rw [abs_of_neg hneg, neg_neg] at this
      rw [abs_of_neg hneg]
      exact this
    · rw [if_neg (by simpa using hneg)]
      rw [abs_of_nonneg (not_lt.1 hneg)] at h ⊢
      exact h

/-- Sorting the tags. -/
theorem meaning_tags (l : List (Str × Str)) : ∃ ts : List (Str × Str), ts.Perm l ∧
    meaning (map (l.map fun t => (t.1, .str t.2))) = .obj (ts.map fun t => (fixUtf8 t.1, text t.2)) := by
  have hins : ∀ (x : Str × Str) l, ins (fun a b => strLe a.1 b.1) (x.1, Value.str x.2) (l.map fun e : Str × Str => (e.1, Value.str e.2)) =
      (ins (fun a b => strLe a.1 b.1) x l).map fun e => (e.1, Value.str e.2) := by
    intro x l
    induction l with
    | nil => rfl
    | cons y l ih =>
      simp only [List.map_cons, ins]
      split
      · rfl
      · rw [ih]; rfl
  have hsort : ∀ l : List (Str × Str), sortBy (fun a b => strLe a.1 b.1) (l.map fun e => (e.1, Value.str e.2)) =
      (sortBy (fun a b => strLe a.1 b.1) l).map fun e => (e.1, Value.str e.2) := by
    intro l
    induction l with
    | nil => rfl
    | cons x l ih => rw [List.map_cons, sortBy, ih, sortBy, ← hins]
  refine ⟨sortBy (fun a b => strLe a.1 b.1) l, sortBy_perm _ _, ?_⟩
  rw [map, hsort, meaning, mems_eq, List.map_map]
  congr 1

theorem element_says {short : ℚ → Dec} (hc : Chosen short) {x : Stat} (hx : Finite x.2.2.2) :
    ∃ v, element short x = .ok (marshal v) ∧ Says x (meaning v) := by
  obtain ⟨q, h1, h2⟩ := hx
  obtain ⟨y, h3, h4⟩ := number_gives hc h2
  obtain ⟨ts, h5, h6⟩ := meaning_tags x.2.1.tags
  refine ⟨_, by rw [element, h1], ts, y, h5, by rw [h1]; exact h4, ?_⟩
  rw [meaning, elems_eq]
  simp only [List.map_cons, List.map_nil, h3, tags]
  cases x.1
  · simp only [Bool.false_eq_true, if_false, h6]; rfl
  · rfl

/-- **C114**.  With a writer that does not fail, and statistics that are finite float64s, `StatsJSON` succeeds and writes a JSON text in UTF-8: a list that says
for each statistic, in the order of the report, its measurement, its tags, its field and a number which is read back as exactly the float64 that was
reported.  This holds whatever digits strconv chooses, if they are rounded back to the number they were chosen for. -/
theorem C114_document (short : ℚ → Dec) (hc : Chosen short) (w : Writer) (hw : ∀ i, w i = .ok) (stats : List Stat) (hs : ∀ x ∈ stats, Finite x.2.2.2) :
    (statsJSON short w stats).2 = none ∧ IsUtf8 (statsJSON short w stats).1 ∧
      ∃ js, read (statsJSON short w stats).1 = some (.arr js) ∧ List.Forall₂ Says stats js := by
  have : ∃ vs : List Value, stats.map (element short) = (vs.map marshal).map .ok ∧ List.Forall₂ Says stats (vs.map meaning) := by
    induction stats with
    | nil => exact ⟨[], rfl, .nil⟩
    | cons x l ih =>
      obtain ⟨vs, h1, h2⟩ := ih fun y hy => hs y (by simp [hy])
      obtain ⟨v, h3, h4⟩ := element_says hc (hs x (by simp))
      exact ⟨v :: vs, by simp only [List.map_cons, h1, h3], .cons h4 h2⟩
  obtain ⟨vs, h1, h2⟩ := this
  unfold statsJSON
  rw [ListWriter.C55_succeeds (element short) w stats (vs.map marshal) h1 hw]
  exact ⟨rfl, utf8_document vs, _, read_document vs, h2⟩

/-- **C114**.  What the document says about a statistic determines it: if all names are UTF-8, statistics about which the same is said have the same measurement,
tags, field and value, to the last bit. -/
theorem C114_apart (x y : Stat) (j : Json) (hx : Says x j) (hy : Says y j)
    (ux : IsUtf8 x.2.1.measurement ∧ IsUtf8 x.2.2.1 ∧ ∀ t ∈ x.2.1.tags, IsUtf8 t.1 ∧ IsUtf8 t.2)
    (uy : IsUtf8 y.2.1.measurement ∧ IsUtf8 y.2.2.1 ∧ ∀ t ∈ y.2.1.tags, IsUtf8 t.1 ∧ IsUtf8 t.2)
    (tx : x.1 = true → x.2.1.tags = []) (ty : y.1 = true → y.2.1.tags = []) :
    x.2.1.measurement = y.2.1.measurement ∧ x.2.1.tags.Perm y.2.1.tags ∧ x.2.2.1 = y.2.2.1 ∧ x.2.2.2.float = y.2.2.2.float := by
  obtain ⟨ts, v, h1, h2, h3⟩ := hx
  obtain ⟨us, u, g1, g2, g3⟩ := hy
  rw [h3] at g3
  simp only [Json.arr.injEq, List.cons.injEq, text, Json.str.injEq, Json.num.injEq, and_true] at g3
  obtain ⟨e1, e2, e3, e4⟩ := g3
  rw [fix_utf8 ux.1, fix_utf8 uy.1] at e1
  rw [fix_utf8 ux.2.1, fix_utf8 uy.2.1] at e3
  refine ⟨e1, ?_, e3, ?_⟩
  · have id : ∀ (l m : List (Str × Str)), l.Perm m → (∀ t ∈ m, IsUtf8 t.1 ∧ IsUtf8 t.2) → (l.map fun t => (fixUtf8 t.1, Json.str (fixUtf8 t.2))) = l.map fun t => (t.1, Json.str t.2) := by
      intro l m hp hu
      apply List.map_congr_left
      intro t ht
      obtain ⟨a, b⟩ := hu t (hp.mem_iff.1 ht)
      rw [fix_utf8 a, fix_utf8 b]
    cases hx : x.1 <;> cases hy : y.1
    · simp only [hx, hy, Bool.false_eq_true, if_false, Json.obj.injEq] at e2
      rw [id ts _ h1 ux.2.2, id us _ g1 uy.2.2] at e2
      have : ts = us := by
        refine (List.map_inj_right ?_).1 e2
        rintro ⟨a, b⟩ ⟨c, d⟩ h
        simp only [Prod.mk.injEq, Json.str.injEq] at h
        rw [h.1, h.2]
      subst this
      exact h1.symm.trans g1
    · simp [hx, hy] at e2
    · simp [hx, hy] at e2
    · rw [tx hx, ty hy]
  · unfold Gives at h2 g2
    rw [← h2, ← g2, e4]

/-- **C56**: what is assumed of `json.Marshal` in the other theorems about `StatsJSON` is so: it fails exactly on the values that are not numbers. -/
theorem C56_marshal (short : ℚ → Dec) (isNil : Key × Str × FVal → Bool) : ListWriter.Marshals fun x => element short (isNil x, x) := by
  intro x
  unfold ListWriter.Number element
  dsimp only
  cases h : x.2.2.float <;> simp

/-! ## The digits that are assumed exist -/

theorem natOf_lt {s : Str} (h : ∀ c ∈ s, digit c = true) : natOf s < 10 ^ s.length := by
  induction s using List.reverseRecOn with
  | nil => simp [natOf]
  | append_singleton s c ih =>
    have h1 := ih fun c hc => h c (by simp [hc])
    have h2 := h c (by simp)
    have h3 : natOf [c] < 10 := by
      simp only [digit, Bool.and_eq_true, decide_eq_true_eq] at h2
      simp only [natOf, List.foldl_cons, List.foldl_nil]
      omega
    rw [natOf_append, List.length_append, List.length_singleton, pow_succ]
    omega

theorem le_natOf {c : UInt8} {s : Str} (hc : digit c = true) (h0 : c ≠ 48) : 10 ^ s.length ≤ natOf (c :: s) := by
  have h1 : 1 ≤ natOf [c] := by
    simp only [digit, Bool.and_eq_true, decide_eq_true_eq] at hc
    have : c.toNat ≠ 48 := fun h => h0 (by rw [← UInt8.toNat_inj]; exact h)
    simp only [natOf, List.foldl_cons, List.foldl_nil]
    omega
  have : c :: s = [c] ++ s := rfl
  rw [this, natOf_append]
  have := Nat.mul_le_mul_right (10 ^ s.length) h1
  omega

theorem exact_digits {q : ℚ} (hq : b64.Rep q) (h0 : 0 < q) : ∃ d : Dec, d.ds ≠ [] ∧ value d = q := by
  obtain ⟨-, ⟨n, hn⟩, ht⟩ := hq
  have hp : (0 : ℚ) < (2 : ℚ) ^ b64.low := two_zpow_pos _
  have npos : 0 < n := by
    have : (0 : ℚ) < n := by
      rw [hn] at h0
      exact (mul_pos_iff_of_pos_right hp).1 h0
    exact_mod_cast this
  obtain ⟨k, rfl⟩ : ∃ k : ℕ, n = k := ⟨n.toNat, by omega⟩
  have kpos : 0 < k := by exact_mod_cast npos
  obtain ⟨N, hN⟩ : ∃ N, N = k * 5 ^ 1074 := ⟨_, rfl⟩
  have e : q * 10 ^ 1074 = N := by
    rw [hn, hN, show b64.low = -((1074 : ℕ) : ℤ) from rfl, zpow_neg, zpow_natCast, show (10 : ℚ) = 2 * 5 by norm_num, mul_pow]
    have : (2 : ℚ) ^ 1074 ≠ 0 := pow_ne_zero _ (by norm_num)
    generalize (2 : ℚ) ^ 1074 = a at *
    push_cast
    generalize (5 : ℚ) ^ 1074 = b at *
    field_simp
    try ring
  have Nlow : 10 ^ 75 ≤ N := by
    rw [hN]
    calc 10 ^ 75 ≤ 5 ^ 1074 := by decide +kernel
      _ ≤ k * 5 ^ 1074 := Nat.le_mul_of_pos_left _ kpos
  have Nhigh : N < 10 ^ 2074 := by
    rw [abs_of_pos h0] at ht
    have h1 : q * 10 ^ 1074 < (2 : ℚ) ^ b64.top * 10 ^ 1074 := by
      apply mul_lt_mul_of_pos_right ht
      positivity
    rw [e] at h1
    have h2 : (2 : ℚ) ^ b64.top * 10 ^ 1074 = ((2 ^ 1024 * 10 ^ 1074 : ℕ) : ℚ) := by
      rw [show b64.top = ((1024 : ℕ) : ℤ) from rfl, zpow_natCast, Nat.cast_mul, Nat.cast_pow, Nat.cast_pow, Nat.cast_ofNat, Nat.cast_ofNat]
    rw [h2] at h1
    have h3 : N < 2 ^ 1024 * 10 ^ 1074 := by exact_mod_cast h1
    exact h3.trans (by decide +kernel)
  have N0 : N ≠ 0 := by rintro rfl; exact absurd Nlow (by decide +kernel)
  obtain ⟨c, t, h1, h2, h3⟩ := decimal_head N N0
  have hd := digit_decimal N
  have hl1 : 75 < (decimal N).length := by
    by_contra hlt
    have := natOf_lt hd
    rw [natOf_decimal] at this
    have h4 : 10 ^ (decimal N).length ≤ 10 ^ 75 := Nat.pow_le_pow_right (by norm_num) (by omega)
    omega
  have hl2 : (decimal N).length ≤ 2074 := by
    by_contra hlt
    have h4 := le_natOf (s := t) h2 h3
    rw [← h1, natOf_decimal] at h4
    have h5 : t.length + 1 = (decimal N).length := by rw [h1]; rfl
    have h6 : 10 ^ 2074 ≤ 10 ^ t.length := Nat.pow_le_pow_right (by norm_num) (by omega)
    exact absurd (h6.trans h4) (not_le.2 Nhigh)
  refine ⟨⟨decimal N, (decimal N).length - 1074, ?_, ?_, ?_, by omega, by omega⟩, ?_, ?_⟩
  · intro c hc
    have := hd c hc
    simp only [digit, Bool.and_eq_true, decide_eq_true_eq] at this
    omega
  · rw [h1]; simpa using h3
  · rw [h1]; intro h; simp at h
  · simp only; rw [h1]; simp
  · show (natOf (decimal N) : ℚ) * (10 : ℚ) ^ (((decimal N).length : ℤ) - 1074 - ((decimal N).length : ℤ)) = q
    rw [natOf_decimal, show ((decimal N).length : ℤ) - 1074 - ((decimal N).length : ℤ) = -((1074 : ℕ) : ℤ) by push_cast; ring, zpow_neg, zpow_natCast, ← e]
    have : (10 : ℚ) ^ 1074 ≠ 0 := pow_ne_zero _ ten_ne
    generalize (10 : ℚ) ^ 1074 = a at *
    field_simp

/-- The assumption about strconv can be met: every positive float64 has digits that stand for it exactly. -/
theorem chosen_exists : ∃ short, Chosen short := by
  classical
  refine ⟨fun q => if h : b64.Rep q ∧ 0 < q then (exact_digits h.1 h.2).choose else zero, ?_⟩
  intro q hq h0
  dsimp only
  rw [dif_pos ⟨hq, h0⟩]
  obtain ⟨h1, h2⟩ := (exact_digits hq h0).choose_spec
  refine ⟨h1, ?_⟩
  rw [h2]
  exact round_rep hq

/-! ## Integers and durations are finite float64s -/

theorem b64_rep_rn {x : ℚ} (h : x = 0 ∨ (2 : ℚ) ^ (-1022 : ℤ) ≤ |x|) (hb : |x| ≤ (2 : ℚ) ^ (64 : ℤ)) : b64.Rep (rn 53 x) := by
  have e : b64.near x = rn 53 x := near_eq_rn (f := b64) (by simpa [b64] using h)
  rw [← e]
  refine ⟨near_rep (f := b64) (by decide) x, near_multiple (f := b64) (by decide) x, ?_⟩
  refine lt_of_le_of_lt (near_abs_le (f := b64) (by decide) (e := 64) (by decide) hb) ?_
  exact zpow_lt_zpow_right₀ (by norm_num) (by decide)

theorem finite_int (i : Int64) : Finite (.int i) := by
  refine ⟨_, rfl, b64_rep_rn ?_ ?_⟩
  · by_cases h : i.toInt = 0
    · left; rw [h]; rfl
    · right
      have h1 : (1 : ℤ) ≤ |i.toInt| := Int.one_le_abs h
      have h2 : (1 : ℚ) ≤ |(i.toInt : ℚ)| := by exact_mod_cast h1
      refine le_trans ?_ h2
      have := zpow_le_zpow_right₀ (a := (2 : ℚ)) (by norm_num) (show (-1022 : ℤ) ≤ 0 by decide)
      simpa using this
  · have h1 : |i.toInt| ≤ 2 ^ 64 := by
      have := Int64.toInt_lt i
      have := Int64.le_toInt i
      rw [abs_le]; constructor <;> norm_num <;> omega
    have h2 : |(i.toInt : ℚ)| ≤ 2 ^ 64 := by exact_mod_cast h1
    exact_mod_cast h2

theorem rn_abs (x : ℚ) : |rn 53 x| = rn 53 |x| := by
  rcases le_total 0 x with h | h
  · rw [abs_of_nonneg h, abs_of_nonneg (rn_nonneg (by decide) h)]
  · have e : rn 53 x = -rn 53 (-x) := by rw [rn_neg, neg_neg]
    rw [abs_of_nonpos h, e, abs_neg, abs_of_nonneg (rn_nonneg (by decide) (by linarith))]

theorem rn_ge {x : ℚ} {e : ℤ} (h : (2 : ℚ) ^ e ≤ |x|) : (2 : ℚ) ^ e ≤ |rn 53 x| := by
  have := rn_mono (p := 53) (by decide) h
  rwa [rn_of_rep (by decide) (rep_two_zpow (by decide) e), ← rn_abs] at this

theorem rn_le {x : ℚ} {e : ℤ} (h : |x| ≤ (2 : ℚ) ^ e) : |rn 53 x| ≤ (2 : ℚ) ^ e := by
  have := rn_mono (p := 53) (by decide) h
  rwa [rn_of_rep (by decide) (rep_two_zpow (by decide) e), ← rn_abs] at this

theorem int_abs_le (i : Int64) : |(i.toInt : ℚ)| ≤ (2 : ℚ) ^ (63 : ℤ) := by
  have h1 : |i.toInt| ≤ 2 ^ 63 := by
    have := Int64.toInt_lt i
    have := Int64.le_toInt i
    rw [abs_le]; constructor <;> norm_num <;> omega
  have h2 : |(i.toInt : ℚ)| ≤ 2 ^ 63 := by exact_mod_cast h1
  exact_mod_cast h2

theorem int_abs_ge {i : Int64} (h : i.toInt ≠ 0) : (2 : ℚ) ^ (0 : ℤ) ≤ |(i.toInt : ℚ)| := by
  have h1 : (1 : ℤ) ≤ |i.toInt| := Int.one_le_abs h
  have h2 : (1 : ℚ) ≤ |(i.toInt : ℚ)| := by exact_mod_cast h1
  simpa using h2

theorem finite_secs (d : Int64) : Finite (.secs d) := by
  refine ⟨_, rfl, ?_⟩
  unfold seconds
  generalize d / 1000000000 = a
  generalize d % 1000000000 = b
  have A : (∃ n : ℤ, rn 53 (a.toInt : ℚ) = n * (2 : ℚ) ^ (-82 : ℤ)) := by
    by_cases h : a.toInt = 0
    · exact ⟨0, by rw [h]; simp [rn_zero]⟩
    · obtain ⟨n, hn⟩ := rep_multiple (rn_rep (p := 53) (by decide) (a.toInt : ℚ)) (rn_ge (int_abs_ge h))
      refine ⟨n * 2 ^ 30, ?_⟩
      rw [hn, show (0 : ℤ) - ((53 : ℕ) : ℤ) + 1 = ((30 : ℕ) : ℤ) + -82 by norm_num, zpow_add₀ (by norm_num), zpow_natCast]
      push_cast
      ring
  have B : (∃ n : ℤ, rn 53 (rn 53 (b.toInt : ℚ) / 1000000000) = n * (2 : ℚ) ^ (-82 : ℤ)) := by
    by_cases h : b.toInt = 0
    · exact ⟨0, by rw [h]; simp [rn_zero]⟩
    · have h1 : (2 : ℚ) ^ (-30 : ℤ) ≤ |rn 53 (b.toInt : ℚ) / 1000000000| := by
        have := rn_ge (int_abs_ge h)
        rw [zpow_zero] at this
        rw [abs_div, abs_of_pos (show (0 : ℚ) < 1000000000 by norm_num), le_div_iff₀ (by norm_num)]
        refine le_trans ?_ this
        norm_num
      obtain ⟨n, hn⟩ := rep_multiple (rn_rep (p := 53) (by decide) _) (rn_ge h1)
      exact ⟨n, by rw [hn]; norm_num⟩
  have hA := rn_le (int_abs_le a)
  have hB : |rn 53 (rn 53 (b.toInt : ℚ) / 1000000000)| ≤ (2 : ℚ) ^ (63 : ℤ) := by
    apply rn_le
    have := rn_le (int_abs_le b)
    rw [abs_div, abs_of_pos (show (0 : ℚ) < 1000000000 by norm_num)]
    exact le_trans (div_le_self (abs_nonneg _) (by norm_num)) this
  generalize rn 53 (a.toInt : ℚ) = x at *
  generalize rn 53 (rn 53 (b.toInt : ℚ) / 1000000000) = y at *
  obtain ⟨n, rfl⟩ := A
  obtain ⟨m, rfl⟩ := B
  apply b64_rep_rn
  · rw [← add_mul, ← Int.cast_add]
    by_cases h : n + m = 0
    · left; rw [h]; simp
    · right
      have h1 : (1 : ℚ) ≤ |((n + m : ℤ) : ℚ)| := by exact_mod_cast Int.one_le_abs h
      rw [abs_mul, abs_of_pos (two_zpow_pos (-82))]
      have h2 := zpow_le_zpow_right₀ (a := (2 : ℚ)) (by norm_num) (show (-1022 : ℤ) ≤ -82 by decide)
      refine h2.trans ?_
      exact le_mul_of_one_le_left (two_zpow_pos _).le h1
  · refine (abs_add_le _ _).trans ?_
    rw [show (2 : ℚ) ^ (64 : ℤ) = (2 : ℚ) ^ (63 : ℤ) + (2 : ℚ) ^ (63 : ℤ) by norm_num]
    exact add_le_add hA hB

/-- **C114**.  Statistics that are integers or durations are always finite float64s, so they can always be written. -/
theorem C114_integers (v : FVal) (h : (∃ i, v = .int i) ∨ ∃ d, v = .secs d) : Finite v := by
  rcases h with ⟨i, rfl⟩ | ⟨d, rfl⟩
  · exact finite_int i
  · exact finite_secs d

/-! ## Examples -/

/-- The digits of 2.5, of 0.0000001, of 1e22 and of 1234.5. -/
def d25 : Dec := ⟨b!"25", 1, by decide, by decide, by decide, by decide, by decide⟩
def d17 : Dec := ⟨b!"1", -6, by decide, by decide, by decide, by decide, by decide⟩
def d22 : Dec := ⟨b!"1", 23, by decide, by decide, by decide, by decide, by decide⟩
def d12 : Dec := ⟨b!"12345", 4, by decide, by decide, by decide, by decide, by decide⟩

example : JsonEnc.float false false d25 = b!"2.5" := by decide +kernel
example : JsonEnc.float true true d17 = b!"-1e-7" := by decide +kernel
example : JsonEnc.float false true d22 = b!"1e+22" := by decide +kernel
example : JsonEnc.float false false d12 = b!"1234.5" := by decide +kernel
example : JsonEnc.float false true d12 = b!"1.2345e+03" := by decide +kernel

/-- A document. -/
example : (statsJSON (fun _ => d25) (fun _ => .ok) [(true, ⟨b!"m", []⟩, b!"f", .flt (5 / 2)), (false, ⟨b!"m", [(b!"b", b!"1"), (b!"a", b!"2")]⟩, b!"g", .int 0)]).1 =
    b!"[\n [\"m\",null,\"f\",2.5],\n [\"m\",{\"a\":\"2\",\"b\":\"1\"},\"g\",0]]\n" := by decide +kernel

example : Finite (.int 3) := finite_int 3

end Monkit.StatsJson
