import Verif.Proofs.Dist

namespace Monkit.Dist
open Monkit.Spec Go.Float
variable {G : Type}

/-! ## Interpolation -/

theorem lerp_bounds (fused : Bool) {a b diff : ℚ} (ha : Rep 53 a) (hb : Rep 53 b) (hab : a ≤ b)
    (d0 : 0 ≤ diff) (d1 : diff < 1) (hd : Rep 53 diff) :
    a ≤ lerp fused a b diff ∧ lerp fused a b diff ≤ b := by
  have h53 : 0 < 53 := by norm_num
  have hs0 : 0 ≤ rn 53 (b - a) := rn_nonneg h53 (by linarith)
  have hd' := rep_lt_one hd d1
  have key : ∀ y : ℚ, 0 ≤ y → y ≤ b - a → a ≤ rn 53 (a + y) ∧ rn 53 (a + y) ≤ b := by
    intro y h1 h2
    constructor
    · have := rn_mono h53 (show a ≤ a + y by linarith)
      rwa [rn_of_rep h53 ha] at this
    · have := rn_mono h53 (show a + y ≤ b by linarith)
      rwa [rn_of_rep h53 hb] at this
  cases fused
  · simp only [lerp, Bool.false_eq_true, if_false]
    apply key
    · exact rn_nonneg h53 (mul_nonneg d0 hs0)
    · rcases eq_or_lt_of_le hab with rfl | hlt
      · simp [rn_zero]
      · have hs : 0 < rn 53 (b - a) := rn_pos h53 (by linarith)
        have := rn_shrink h53 (rn_rep h53 (b - a)) hs (mul_le_mul_of_nonneg_right hd' hs.le)
        exact le_of_lt_rn h53 (rn_rep h53 _) this
  · simp only [lerp, if_true]
    apply key
    · exact mul_nonneg d0 hs0
    · have hrel := rn_rel (p := 53) (b - a)
      rw [abs_of_nonneg (show 0 ≤ b - a by linarith)] at hrel
      have h1 := (abs_le.mp hrel).2
      have hba : 0 ≤ b - a := by linarith
      calc diff * rn 53 (b - a) ≤ (1 - 1 / (2 : ℚ) ^ 53) * rn 53 (b - a) :=
            mul_le_mul_of_nonneg_right hd' hs0
        _ ≤ (1 - 1 / (2 : ℚ) ^ 53) * ((b - a) + (b - a) / (2 : ℚ) ^ 53) :=
            mul_le_mul_of_nonneg_left (by linarith) (by norm_num)
        _ ≤ b - a := by
          have : (1 - 1 / (2 : ℚ) ^ 53) * ((b - a) + (b - a) / (2 : ℚ) ^ 53) =
              (b - a) - (b - a) * (1 / (2 : ℚ) ^ 53 * (1 / (2 : ℚ) ^ 53)) := by ring
          rw [this]
          have : 0 ≤ (b - a) * (1 / (2 : ℚ) ^ 53 * (1 / (2 : ℚ) ^ 53)) :=
            mul_nonneg hba (by norm_num)
          linarith

theorem lerp_mono (fused : Bool) {a b d d' : ℚ} (hab : a ≤ b) (h : d ≤ d') :
    lerp fused a b d ≤ lerp fused a b d' := by
  have h53 : 0 < 53 := by norm_num
  have hs0 : 0 ≤ rn 53 (b - a) := rn_nonneg h53 (by linarith)
  have hm := mul_le_mul_of_nonneg_right h hs0
  cases fused
  · simp only [lerp, Bool.false_eq_true, if_false]
    have := rn_mono h53 hm
    exact rn_mono h53 (by linarith)
  · simp only [lerp, if_true]
    exact rn_mono h53 (by linarith)

/-- The kinds whose slots are rationals and whose values are obtained from floats by a monotone
conversion `c`. -/
structure Numeric {V : Type} (K : DistKind V ℚ) (fused : Bool) (c : ℚ → V) : Prop where
  rle : ∀ a b, K.rle a b = decide (a ≤ b)
  rep : ∀ v, Rep 24 (K.toR v)
  out : ∀ x, K.out x = c x
  interp : ∀ a b d, K.interp a b d = c (lerp fused a b d)

theorem Numeric.ordered {V : Type} {K : DistKind V ℚ} {fused : Bool} {c : ℚ → V}
    (h : Numeric K fused c) : Ordered K := by
  constructor
  · intro a b c; simp only [h.rle, decide_eq_true_eq]; exact le_trans
  · intro a b; simp only [h.rle, Bool.or_eq_true, decide_eq_true_eq]; exact le_total a b

/-- The slots `res` stand for the numbers `x`, and results between two of them are conversions `c` of numbers `L` that lie between theirs. -/
structure Between {V R : Type} (K : DistKind V R) (res : List R) (x : R → ℚ) (L : R → R → ℚ → ℚ) (c : ℚ → V) : Prop where
  sorted : 2 ≤ res.length → res.Pairwise (fun a b => x a ≤ x b)
  out : ∀ a ∈ res, K.out a = c (x a)
  interp : ∀ a ∈ res, ∀ b ∈ res, x a ≤ x b → ∀ d, 0 ≤ d → d < 1 → Rep 53 d →
    K.interp a b d = c (L a b d) ∧ x a ≤ L a b d ∧ L a b d ≤ x b
  mono : ∀ a ∈ res, ∀ b ∈ res, x a ≤ x b → ∀ d d', d ≤ d' → L a b d ≤ L a b d'

section
variable {V R : Type} {K : DistKind V R} {res : List R} {x : R → ℚ} {L : R → R → ℚ → ℚ} {c : ℚ → V}

theorem Between.get (B : Between K res x L c) (hl : 2 ≤ res.length) (i j : ℕ) (hi : i < res.length) (hj : j < res.length) (hij : i ≤ j) :
    x res[i] ≤ x res[j] := by
  rcases Nat.eq_or_lt_of_le hij with rfl | hlt
  · exact le_refl _
  · exact List.pairwise_iff_getElem.mp (B.sorted hl) i j hi hj hlt

theorem Between.query (B : Between K res x L c) {q : ℚ} {v : V} (h : QueryResult K res q v) :
    ∃ y lo hi, v = c y ∧ lo ∈ res ∧ hi ∈ res ∧ (∀ a ∈ res, x lo ≤ x a ∧ x a ≤ x hi) ∧ x lo ≤ y ∧ y ≤ x hi ∧
      (q ≤ 0 → y = x lo) ∧ (1 ≤ q → y = x hi) := by
  have hends : 2 ≤ res.length → ∀ (h0 : 0 < res.length) (h1 : res.length - 1 < res.length),
      ∀ a ∈ res, x res[0] ≤ x a ∧ x a ≤ x res[res.length - 1] := by
    intro hl h0 h1 a ha
    obtain ⟨i, hi, rfl⟩ := List.mem_iff_getElem.mp ha
    exact ⟨B.get hl _ _ _ _ (Nat.zero_le _), B.get hl _ _ _ _ (by omega)⟩
  cases h with
  | single a ha e =>
    subst ha
    exact ⟨x a, a, a, by rw [e, B.out a (by simp)], by simp, by simp, by simp, le_refl _, le_refl _,
      fun _ => rfl, fun _ => rfl⟩
  | first a hl ha hq e =>
    have h0 : 0 < res.length := by omega
    have h1 : res.length - 1 < res.length := by omega
    rw [List.getElem?_eq_getElem h0, Option.some.injEq] at ha
    subst ha
    refine ⟨x res[0], res[0], res[res.length - 1], by rw [e, B.out _ (List.getElem_mem _)], List.getElem_mem _,
      List.getElem_mem _, hends hl h0 h1, le_refl _, (hends hl h0 h1 _ (List.getElem_mem _)).2,
      fun _ => rfl, fun hh => ?_⟩
    linarith
  | last a hl ha hq e =>
    have h0 : 0 < res.length := by omega
    have h1 : res.length - 1 < res.length := by omega
    rw [List.getElem?_eq_getElem h1, Option.some.injEq] at ha
    subst ha
    refine ⟨x res[res.length - 1], res[0], res[res.length - 1], by rw [e, B.out _ (List.getElem_mem _)],
      List.getElem_mem _, List.getElem_mem _, hends hl h0 h1,
      (hends hl h0 h1 _ (List.getElem_mem _)).1, le_refl _, fun hh => ?_, fun _ => rfl⟩
    linarith
  | between i diff a b hl q0 q1 hi ha hb hdi hd d0 d1 hr e =>
    have h0 : 0 < res.length := by omega
    have h1 : res.length - 1 < res.length := by omega
    have hi' : i < res.length := by omega
    rw [List.getElem?_eq_getElem hi', Option.some.injEq] at ha
    rw [List.getElem?_eq_getElem hi, Option.some.injEq] at hb
    subst ha hb
    have hab := B.get hl i (i + 1) hi' hi (by omega)
    obtain ⟨l0, l1, l2⟩ := B.interp _ (List.getElem_mem _) _ (List.getElem_mem _) hab diff d0 d1 hr
    refine ⟨_, res[0], res[res.length - 1], by rw [e, l0], List.getElem_mem _,
      List.getElem_mem _, hends hl h0 h1, le_trans (hends hl h0 h1 _ (List.getElem_mem _)).1 l1,
      le_trans l2 (hends hl h0 h1 _ (List.getElem_mem _)).2, fun hh => ?_, fun hh => ?_⟩ <;> linarith

theorem Between.query_mono (B : Between K res x L c) {q q' : ℚ} {v v' : V} (hqq : q ≤ q')
    (h : QueryResult K res q v) (h' : QueryResult K res q' v') :
    ∃ y y', v = c y ∧ v' = c y' ∧ y ≤ y' ∧ (∃ lo ∈ res, x lo ≤ y) ∧ (∃ hi ∈ res, y' ≤ x hi) := by
  obtain ⟨y, lo, hi, e, hlo, hhi, hall, b1, b2, z1, z2⟩ := B.query h
  obtain ⟨y', lo', hi', e', hlo', hhi', hall', b1', b2', z1', z2'⟩ := B.query h'
  have hl : x lo = x lo' := le_antisymm (hall _ hlo').1 (hall' _ hlo).1
  have hh : x hi = x hi' := le_antisymm (hall' _ hhi).2 (hall _ hhi').2
  cases h with
  | single a ha _ =>
    subst ha
    simp only [List.mem_singleton] at hlo hhi hlo' hhi'
    subst hlo hhi hlo' hhi'
    exact ⟨y, y', e, e', by linarith, ⟨_, by simp, b1⟩, ⟨_, by simp, b2'⟩⟩
  | first a _ _ hq _ =>
    exact ⟨y, y', e, e', by rw [z1 hq, hl]; exact b1', ⟨lo, hlo, b1⟩, ⟨hi', hhi', b2'⟩⟩
  | last a _ _ hq _ =>
    exact ⟨y, y', e, e', by rw [z2' (by linarith), ← hh]; exact b2, ⟨lo, hlo, b1⟩, ⟨hi', hhi', b2'⟩⟩
  | between i diff a b hl q0 q1 hi1 ha hb hdi hd d0 d1 hr ev =>
    cases h' with
    | single a ha _ => subst ha; simp at hl
    | first a _ _ hq _ => linarith
    | last a _ _ hq _ =>
      exact ⟨y, y', e, e', by rw [z2' hq, ← hh]; exact b2, ⟨lo, hlo, b1⟩, ⟨hi', hhi', b2'⟩⟩
    | between i' diff' a' b' _ q0' q1' hi1' ha' hb' hdi' hd' d0' d1' hr' ev' =>
      have h53 : 0 < 53 := by norm_num
      have hm : rn 53 (q * ((res.length - 1 : ℕ) : ℚ)) ≤ rn 53 (q' * ((res.length - 1 : ℕ) : ℚ)) :=
        rn_mono h53 (mul_le_mul_of_nonneg_right hqq (by positivity))
      have hii : i ≤ i' := by
        have := trunc_mono hm
        rw [← hdi, ← hdi'] at this
        exact_mod_cast this
      have hil : i < res.length := by omega
      have hil' : i' < res.length := by omega
      rw [List.getElem?_eq_getElem hil, Option.some.injEq] at ha
      rw [List.getElem?_eq_getElem hi1, Option.some.injEq] at hb
      rw [List.getElem?_eq_getElem hil', Option.some.injEq] at ha'
      rw [List.getElem?_eq_getElem hi1', Option.some.injEq] at hb'
      have hab : x a ≤ x b := by rw [← ha, ← hb]; exact B.get hl _ _ _ _ (by omega)
      have hab' : x a' ≤ x b' := by rw [← ha', ← hb']; exact B.get hl _ _ _ _ (by omega)
      have ma : a ∈ res := by rw [← ha]; exact List.getElem_mem _
      have mb : b ∈ res := by rw [← hb]; exact List.getElem_mem _
      have ma' : a' ∈ res := by rw [← ha']; exact List.getElem_mem _
      have mb' : b' ∈ res := by rw [← hb']; exact List.getElem_mem _
      obtain ⟨l0, l1, l2⟩ := B.interp a ma b mb hab diff d0 d1 hr
      obtain ⟨l0', l1', l2'⟩ := B.interp a' ma' b' mb' hab' diff' d0' d1' hr'
      refine ⟨L a b diff, L a' b' diff', by rw [ev, l0],
        by rw [ev', l0'], ?_, ⟨a, ma, l1⟩, ⟨b', mb', l2'⟩⟩
      rcases Nat.eq_or_lt_of_le hii with rfl | hlt
      · have : a = a' := by rw [← ha, ← ha']
        subst this
        have : b = b' := by rw [← hb, ← hb']
        subst this
        apply B.mono a ma b mb hab
        rw [hd, hd']; linarith
      · have : x b ≤ x a' := by rw [← hb, ← ha']; exact B.get hl _ _ _ _ (by omega)
        linarith

end

theorem Numeric.between {V : Type} {K : DistKind V ℚ} {fused : Bool} {c : ℚ → V}
    (hK : Numeric K fused c) {res : List ℚ} (hrep : ∀ x ∈ res, Rep 24 x)
    (hs : 2 ≤ res.length → res.Pairwise (· ≤ ·)) : Between K res id (lerp fused) c where
  sorted := hs
  out _ _ := hK.out _
  interp a ha b hb hab d d0 d1 hr := ⟨hK.interp _ _ _, lerp_bounds fused (rep_mono (by norm_num) (hrep _ ha))
    (rep_mono (by norm_num) (hrep _ hb)) hab d0 d1 hr⟩
  mono _ _ _ _ hab _ _ := lerp_mono fused hab

/-- The float whose conversion `Query` returns, with its bounds, for a sorted list of slots. -/
theorem query_float {V : Type} {K : DistKind V ℚ} {fused : Bool} {c : ℚ → V}
    (hK : Numeric K fused c) {res : List ℚ} (hrep : ∀ x ∈ res, Rep 24 x)
    (hs : 2 ≤ res.length → res.Pairwise (· ≤ ·)) {q : ℚ} {v : V} (h : QueryResult K res q v) :
    ∃ y lo hi, v = c y ∧ lo ∈ res ∧ hi ∈ res ∧ (∀ x ∈ res, lo ≤ x ∧ x ≤ hi) ∧ lo ≤ y ∧ y ≤ hi ∧
      (q ≤ 0 → y = lo) ∧ (1 ≤ q → y = hi) :=
  (hK.between hrep hs).query h

/-- Monotonicity in the quantile. -/
theorem query_float_mono {V : Type} {K : DistKind V ℚ} {fused : Bool} {c : ℚ → V}
    (hK : Numeric K fused c) {res : List ℚ} (hrep : ∀ x ∈ res, Rep 24 x)
    (hs : 2 ≤ res.length → res.Pairwise (· ≤ ·)) {q q' : ℚ} {v v' : V} (hqq : q ≤ q')
    (h : QueryResult K res q v) (h' : QueryResult K res q' v') :
    ∃ y y', v = c y ∧ v' = c y' ∧ y ≤ y' ∧ (∃ lo ∈ res, lo ≤ y) ∧ (∃ hi ∈ res, y' ≤ hi) :=
  (hK.between hrep hs).query_mono hqq h h'

/-! ## int64 -/

theorem int_numeric (oob : ℚ → Int64) (fused : Bool) :
    Numeric (intKind oob fused) fused (toI64 oob) :=
  ⟨fun _ _ => rfl, fun _ => rn_rep (by norm_num) _, fun _ => rfl, fun _ _ _ => rfl⟩

theorem dur_numeric (oob : ℚ → Int64) (fused : Bool) :
    Numeric (durKind oob fused) fused (toI64 oob) :=
  ⟨fun _ _ => rfl, fun _ => rn_rep (by norm_num) _, fun _ => rfl, fun _ _ _ => rfl⟩

/-- A float in the int64 range. -/
def InRange (x : ℚ) : Prop := -(2 : ℚ) ^ 63 ≤ x ∧ x < (2 : ℚ) ^ 63

theorem toI64_toInt (oob : ℚ → Int64) {x : ℚ} (h : InRange x) :
    (toI64 oob x).toInt = trunc x := by
  have h1 : -(2 : Int) ^ 63 ≤ trunc x ∧ trunc x < 2 ^ 63 := by
    unfold trunc
    obtain ⟨a, b⟩ := h
    split_ifs with hx
    · have := Int.floor_nonneg.mpr hx
      refine ⟨by omega, Int.floor_lt.mpr (by push_cast; exact b)⟩
    · push Not at hx
      have h0 : ⌈x⌉ ≤ 0 := Int.ceil_le.mpr (by simpa using hx.le)
      refine ⟨?_, by omega⟩
      have : -(2 : ℤ) ^ 63 ≤ ⌊x⌋ := Int.le_floor.mpr (by push_cast; exact a)
      exact le_trans this (Int.floor_le_ceil x)
  unfold toI64
  rw [if_pos h1, Int64.toInt_ofInt]
  show Int.bmod _ (2 ^ 64) = _
  rw [Int.bmod_eq_of_le] <;> omega

/-- The float32 nearest to an int64 below `2^63 - 2^38` is in the int64 range. -/
theorem inRange_f32 {v : Int64} (h : v.toInt < 2 ^ 63 - 2 ^ 38) : InRange (rn 24 v.toInt) := by
  have h24 : 0 < 24 := by norm_num
  have hv := Int64.le_toInt v
  constructor
  · have r : Rep 24 (-(2 : ℚ) ^ 63) := ⟨-1, 63, by norm_num, by norm_num⟩
    have : (-(2 : ℚ) ^ 63) ≤ (v.toInt : ℚ) := by
      have : (-(2 : ℤ) ^ 63) ≤ v.toInt := by simpa using hv
      exact_mod_cast this
    have := rn_mono h24 this
    rwa [rn_of_rep h24 r] at this
  · by_contra hc
    push Not at hc
    have r : Rep 24 ((2 : ℚ) ^ 63 - (2 : ℚ) ^ 39) := ⟨2 ^ 24 - 1, 39, by norm_num, by norm_num⟩
    have hvq : (v.toInt : ℚ) < 2 ^ 63 - 2 ^ 38 := by exact_mod_cast h
    rcases le_or_gt (v.toInt : ℚ) ((2 : ℚ) ^ 63 - (2 : ℚ) ^ 39) with hle | hgt
    · have := rn_mono h24 hle
      rw [rn_of_rep h24 r] at this
      have : (2 : ℚ) ^ 63 ≤ (2 : ℚ) ^ 63 - (2 : ℚ) ^ 39 := le_trans hc this
      norm_num at this
    · have h1 := rn_nearest h24 (v.toInt : ℚ) r
      rw [abs_of_neg (a := (2 : ℚ) ^ 63 - (2 : ℚ) ^ 39 - v.toInt) (by linarith),
        abs_of_nonneg (by
          have : (2 : ℚ) ^ 38 > 0 := by norm_num
          linarith)] at h1
      have e39 : (2 : ℚ) ^ 39 = 2 * 2 ^ 38 := by norm_num
      rw [e39] at h1
      linarith

theorem lowOf_min {oob : ℚ → Int64} {fused : Bool} (vs : List Int64) :
    isMinOrZero vs (lowOf (intKind oob fused) vs) := by
  cases vs with
  | nil => exact .inl ⟨rfl, rfl⟩
  | cons a as =>
    right
    induction as using List.reverseRecOn with
    | nil => simp [lowOf]
    | append_singleton as x ih =>
      have e : a :: (as ++ [x]) = (a :: as) ++ [x] := rfl
      rw [e, lowOf_snoc _ (by simp)]
      simp only [intKind, decide_eq_true_eq] at ih ⊢
      generalize lowOf _ (a :: as) = m at ih ⊢
      split
      · next hlt =>
        rw [Int64.lt_iff_toInt_lt] at hlt
        refine ⟨by simp, fun v hv => ?_⟩
        rcases List.mem_append.mp hv with hv | hv
        · have := ih.2 v hv; omega
        · simp at hv; subst hv; exact Int.le_refl _
      · next hlt =>
        rw [Int64.lt_iff_toInt_lt] at hlt
        refine ⟨by simp only [List.mem_append]; exact .inl ih.1, fun v hv => ?_⟩
        rcases List.mem_append.mp hv with hv | hv
        · exact ih.2 v hv
        · simp at hv; subst hv; omega

theorem highOf_max {oob : ℚ → Int64} {fused : Bool} (vs : List Int64) :
    isMaxOrZero vs (highOf (intKind oob fused) vs) := by
  cases vs with
  | nil => exact .inl ⟨rfl, rfl⟩
  | cons a as =>
    right
    induction as using List.reverseRecOn with
    | nil => simp [highOf]
    | append_singleton as x ih =>
      have e : a :: (as ++ [x]) = (a :: as) ++ [x] := rfl
      rw [e, highOf_snoc _ (by simp)]
      simp only [intKind, decide_eq_true_eq] at ih ⊢
      generalize highOf _ (a :: as) = m at ih ⊢
      split
      · next hlt =>
        rw [Int64.lt_iff_toInt_lt] at hlt
        refine ⟨by simp, fun v hv => ?_⟩
        rcases List.mem_append.mp hv with hv | hv
        · have := ih.2 v hv; omega
        · simp at hv; subst hv; exact Int.le_refl _
      · next hlt =>
        rw [Int64.lt_iff_toInt_lt] at hlt
        refine ⟨by simp only [List.mem_append]; exact .inl ih.1, fun v hv => ?_⟩
        rcases List.mem_append.mp hv with hv | hv
        · exact ih.2 v hv
        · simp at hv; subst hv; omega

theorem sum_wrap (vs : List Int64) :
    (vs.foldl (fun a b => a + b) 0).toInt = wrapSum vs := by
  unfold wrapSum
  induction vs using List.reverseRecOn with
  | nil => rfl
  | append_singleton as x ih =>
    rw [List.foldl_append]
    simp only [List.foldl_cons, List.foldl_nil, List.map_append, List.sum_append, List.map_cons,
      List.map_nil, List.sum_cons, List.sum_nil]
    rw [Int64.toInt_add, ih]
    simp

end Monkit.Dist
