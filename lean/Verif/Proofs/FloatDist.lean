import Verif.Proofs.DistQuery
import Verif.Proofs.Ieee

/-!
# Lemmas for `FloatDist`
-/

namespace Monkit.Dist
open Monkit.Spec Go.Float
variable {G : Type}

/-- A finite float32. -/
structure Slot (z : ℚ) : Prop where
  rep : Rep 24 z
  mul : ∃ n : ℤ, z = (n : ℚ) * (2 : ℚ) ^ (-149 : ℤ)
  lt : |z| < (2 : ℚ) ^ (128 : ℤ)

theorem slot_conv {q z : ℚ} (h : F.conv b32 (.fin q) = .fin z) : z = b32.near q ∧ Slot z := by
  change b32.round q = .fin z at h
  unfold Format.round at h
  split at h
  · next hlt =>
    cases h
    exact ⟨rfl, near_rep (f := b32) (by decide) q, near_multiple (f := b32) (by decide) q, hlt⟩
  · cases h

theorem Slot.near {z : ℚ} (h : Slot z) : b64.near z = z := by
  obtain ⟨n, hn⟩ := h.mul
  refine near_of_rep (f := b64) (by decide) (rep_mono (by decide) h.rep) ⟨n * 2 ^ 925, ?_⟩
  rw [hn]
  show (n : ℚ) * (2 : ℚ) ^ (-149 : ℤ) = ((n * 2 ^ 925 : ℤ) : ℚ) * (2 : ℚ) ^ (-1074 : ℤ)
  push_cast
  rw [mul_assoc, ← zpow_natCast, ← zpow_add₀ (by norm_num)]
  norm_num

/-- `prior + diff*(next-prior)` for finite slots. -/
def flerpQ (fused : Bool) (a b d : ℚ) : ℚ :=
  b64.near (a + if fused then d * b64.near (b - a) else b64.near (d * b64.near (b - a)))

theorem flerpQ_mono (fused : Bool) {a b d d' : ℚ} (hab : a ≤ b) (h : d ≤ d') : flerpQ fused a b d ≤ flerpQ fused a b d' := by
  have h53 : 0 < b64.p := by decide
  have hs : 0 ≤ b64.near (b - a) := near_nonneg h53 (by linarith)
  have hm := mul_le_mul_of_nonneg_right h hs
  unfold flerpQ
  apply near_mono h53
  cases fused
  · have := near_mono h53 hm
    simp only [Bool.false_eq_true, if_false]; linarith
  · simp only [if_true]; linarith

theorem flerp_fin (fused : Bool) {a b d : ℚ} (ha : Slot a) (hb : Slot b) (hab : a ≤ b) (d0 : 0 ≤ d) (d1 : d < 1) (hd : Rep 53 d) :
    flerp fused (.fin a) (.fin b) d = .fin (flerpQ fused a b d) ∧ a ≤ flerpQ fused a b d ∧ flerpQ fused a b d ≤ b := by
  have h53 : 0 < b64.p := by decide
  have p53 : 0 < 53 := by decide
  -- the difference is zero or at least 2^-149
  have hgap : b - a = 0 ∨ (2 : ℚ) ^ (-149 : ℤ) ≤ b - a := by
    obtain ⟨n, hn⟩ := ha.mul
    obtain ⟨m, hm⟩ := hb.mul
    have hz := two_zpow_pos (-149)
    have e : b - a = ((m - n : ℤ) : ℚ) * (2 : ℚ) ^ (-149 : ℤ) := by rw [hn, hm]; push_cast; ring
    rcases eq_or_lt_of_le hab with h | h
    · left; linarith
    · right
      have h1 : 0 < ((m - n : ℤ) : ℚ) := by
        by_contra hc
        push Not at hc
        have := mul_nonpos_of_nonpos_of_nonneg hc hz.le
        rw [← e] at this
        linarith
      have h2 : (1 : ℚ) ≤ ((m - n : ℤ) : ℚ) := by
        have : 0 < m - n := by exact_mod_cast h1
        exact_mod_cast this
      rw [e]
      nlinarith
  have hba : 0 ≤ b - a := by linarith
  have hle149 : (2 : ℚ) ^ (-1022 : ℤ) ≤ (2 : ℚ) ^ (-149 : ℤ) := zpow_le_zpow_right₀ (by norm_num) (by norm_num)
  have hs : b64.near (b - a) = rn 53 (b - a) := by
    apply near_eq_rn (f := b64)
    rcases hgap with h | h
    · exact .inl h
    · right
      rw [abs_of_nonneg hba]
      exact le_trans hle149 h
  have hs0 : 0 ≤ rn 53 (b - a) := rn_nonneg p53 hba
  have hd' := rep_lt_one hd d1
  have hl1 := (abs_lt.1 ha.lt).1
  have hl2 := (abs_lt.1 hb.lt).2
  -- what is added lies between 0 and the difference
  have hadd : 0 ≤ (if fused then d * rn 53 (b - a) else b64.near (d * rn 53 (b - a))) ∧
      (if fused then d * rn 53 (b - a) else b64.near (d * rn 53 (b - a))) ≤ b - a := by
    cases fused
    · simp only [Bool.false_eq_true, if_false]
      refine ⟨near_nonneg h53 (mul_nonneg d0 hs0), ?_⟩
      rcases hgap with h | h
      · rw [h, rn_zero, mul_zero, near_zero h53]
      · rcases lt_or_ge (d * rn 53 (b - a)) ((2 : ℚ) ^ (-1022 : ℤ)) with hlt | hge
        · have := near_mono h53 hlt.le
          rw [near_two_zpow h53 (by decide)] at this
          linarith
        · have e : b64.near (d * rn 53 (b - a)) = rn 53 (d * rn 53 (b - a)) := by
            apply near_eq_rn (f := b64)
            right
            exact le_trans hge (le_abs_self _)
          rw [e]
          have hlt : 0 < b - a := lt_of_lt_of_le (two_zpow_pos _) h
          have hs : 0 < rn 53 (b - a) := rn_pos p53 hlt
          have := rn_shrink p53 (rn_rep p53 (b - a)) hs (mul_le_mul_of_nonneg_right hd' hs.le)
          exact le_of_lt_rn p53 (rn_rep p53 _) this
    · simp only [if_true]
      refine ⟨mul_nonneg d0 hs0, ?_⟩
      have hrel := rn_rel (p := 53) (b - a)
      rw [abs_of_nonneg hba] at hrel
      have h1 := (abs_le.mp hrel).2
      calc d * rn 53 (b - a) ≤ (1 - 1 / (2 : ℚ) ^ 53) * rn 53 (b - a) :=
            mul_le_mul_of_nonneg_right hd' hs0
        _ ≤ (1 - 1 / (2 : ℚ) ^ 53) * ((b - a) + (b - a) / (2 : ℚ) ^ 53) :=
            mul_le_mul_of_nonneg_left (by linarith) (by norm_num)
        _ ≤ b - a := by
          have : (1 - 1 / (2 : ℚ) ^ 53) * ((b - a) + (b - a) / (2 : ℚ) ^ 53) =
              (b - a) - (b - a) * (1 / (2 : ℚ) ^ 53 * (1 / (2 : ℚ) ^ 53)) := by ring
          rw [this]
          have : 0 ≤ (b - a) * (1 / (2 : ℚ) ^ 53 * (1 / (2 : ℚ) ^ 53)) :=
            mul_nonneg hba (by norm_num)
          linarith
  have hb1 : a ≤ flerpQ fused a b d ∧ flerpQ fused a b d ≤ b := by
    unfold flerpQ
    rw [hs]
    constructor
    · have := near_mono h53 (show a ≤ a + _ from le_add_of_nonneg_right hadd.1)
      rwa [ha.near] at this
    · have := near_mono h53 (show a + (if fused then d * rn 53 (b - a) else b64.near (d * rn 53 (b - a))) ≤ b by linarith [hadd.2])
      rwa [hb.near] at this
  refine ⟨?_, hb1⟩
  -- nothing overflows
  have t1 : (2 : ℚ) ^ (129 : ℤ) < (2 : ℚ) ^ (1024 : ℤ) := zpow_lt_zpow_right₀ (by norm_num) (by norm_num)
  have t2 : (2 : ℚ) ^ (129 : ℤ) = (2 : ℚ) ^ (128 : ℤ) + (2 : ℚ) ^ (128 : ℤ) := by norm_num
  have t0 := two_zpow_pos 128
  have t3 : (2 : ℚ) ^ (128 : ℤ) + (2 : ℚ) ^ (128 : ℤ) < (2 : ℚ) ^ (1024 : ℤ) := by rw [← t2]; exact t1
  have o1 : b64.round (b - a) = .fin (b64.near (b - a)) := by
    apply round_fin
    have : |b64.near (b - a)| ≤ (2 : ℚ) ^ (129 : ℤ) := near_abs_le h53 (by decide) (by rw [abs_of_nonneg hba]; linarith)
    exact lt_of_le_of_lt this t1
  have o2 : fused = false → b64.round (d * b64.near (b - a)) = .fin (b64.near (d * b64.near (b - a))) := by
    rintro rfl
    apply round_fin
    rw [hs]
    have := hadd.2
    simp only [Bool.false_eq_true, if_false] at this
    rw [abs_of_nonneg (near_nonneg h53 (mul_nonneg d0 hs0))]
    show _ < (2 : ℚ) ^ (1024 : ℤ)
    clear t1 t2 o1 hle149 hgap hd'
    generalize (2 : ℚ) ^ (1024 : ℤ) = T at *
    generalize (2 : ℚ) ^ (128 : ℤ) = B at *
    linarith
  have o3 : |flerpQ fused a b d| < (2 : ℚ) ^ (1024 : ℤ) := by
    clear t1 t2 o1 o2 hle149 hgap hd'
    generalize (2 : ℚ) ^ (1024 : ℤ) = T at *
    generalize (2 : ℚ) ^ (128 : ℤ) = B at *
    rw [abs_lt]; constructor <;> linarith [hb1.1, hb1.2]
  unfold flerp
  cases fused
  · simp only [Bool.false_eq_true, if_false, F.sub, F.neg, F.add, F.mul, F.times, F.conv]
    rw [← sub_eq_add_neg, o1]
    simp only [F.times]
    rw [o2 rfl]
    exact round_fin o3
  · simp only [if_true, F.sub, F.neg, F.add, F.fma]
    rw [← sub_eq_add_neg, o1]
    simp only [F.times, F.add]
    rw [add_comm]
    exact round_fin o3

/-! ## The order -/

theorem F.lt_nan (a : F) : F.lt a .nan = false ∧ F.lt .nan a = false := by
  constructor <;> cases a <;> first | rfl | (rename_i b; cases b <;> rfl)

theorem F.le_refl {a : F} (h : a ≠ .nan) : F.le a a = true := by
  rcases a with _ | b | q
  · exact absurd rfl h
  · cases b <;> rfl
  · simp [F.le]

theorem F.le_of_not_lt {a b : F} (ha : a ≠ .nan) (hb : b ≠ .nan) (h : F.lt a b = false) : F.le b a = true := by
  rcases a with _ | s | q <;> rcases b with _ | t | r <;> try (exact absurd rfl ha) <;> try (exact absurd rfl hb)
  all_goals try cases s
  all_goals try cases t
  all_goals simp_all [F.le, F.lt]

theorem F.le_of_lt {a b : F} (h : F.lt a b = true) : F.le a b = true := by
  rcases a with _ | s | q <;> rcases b with _ | t | r
  all_goals try cases s
  all_goals try cases t
  all_goals simp_all [F.le, F.lt]
  exact _root_.le_of_lt h

theorem F.le_trans {a b c : F} (h : F.le a b = true) (h' : F.le b c = true) : F.le a c = true := by
  rcases a with _ | s | q <;> rcases b with _ | t | r <;> rcases c with _ | u | w
  all_goals try cases s
  all_goals try cases t
  all_goals try cases u
  all_goals simp_all [F.le]
  exact _root_.le_trans h h'

theorem float_ordered (fused : Bool) : Ordered (floatKind fused) := by
  constructor
  · intro a b c h1 h2
    simp only [floatKind, Bool.or_eq_true, decide_eq_true_eq] at *
    rcases h1 with h1 | h1
    · exact .inl h1
    · rcases h2 with h2 | h2
      · subst h2
        rcases a with _ | s | q <;> try cases s
        all_goals simp [F.le] at h1
      · exact .inr (F.le_trans h1 h2)
  · intro a b
    simp only [floatKind, Bool.or_eq_true, decide_eq_true_eq]
    by_cases ha : a = .nan
    · exact .inl (.inl ha)
    · by_cases hb : b = .nan
      · exact .inr (.inl hb)
      · cases h : F.lt b a
        · exact .inl (.inr (F.le_of_not_lt hb ha h))
        · exact .inr (.inr (F.le_of_lt h))

/-! ## Minimum and maximum -/

theorem float_low (fused : Bool) (a : F) (vs : List F) : lowOf (floatKind fused) (a :: vs) ∈ a :: vs ∧
    (a = .nan → lowOf (floatKind fused) (a :: vs) = .nan) ∧
    (a ≠ .nan → lowOf (floatKind fused) (a :: vs) ≠ .nan ∧ ∀ v ∈ a :: vs, v ≠ .nan → F.le (lowOf (floatKind fused) (a :: vs)) v = true) := by
  induction vs using List.reverseRecOn with
  | nil => simpa [lowOf] using fun h => ⟨h, fun h => F.le_refl h⟩
  | append_singleton as x ih =>
    have e : a :: (as ++ [x]) = (a :: as) ++ [x] := rfl
    rw [e, lowOf_snoc _ (by simp)]
    obtain ⟨i1, i2, i3⟩ := ih
    have hlt : (floatKind fused).lt = F.lt := rfl
    rw [hlt]
    generalize lowOf _ (a :: as) = m at *
    cases h : F.lt x m
    · simp only [Bool.false_eq_true, if_false]
      refine ⟨List.mem_append_left _ i1, i2, fun ha => ⟨(i3 ha).1, fun v hv hn => ?_⟩⟩
      rcases List.mem_append.1 hv with hv | hv
      · exact (i3 ha).2 v hv hn
      · rw [List.mem_singleton] at hv
        subst hv
        exact F.le_of_not_lt hn (i3 ha).1 h
    · simp only [if_true]
      have hx : x ≠ .nan := by rintro rfl; rw [(F.lt_nan m).2] at h; cases h
      refine ⟨by simp, fun ha => ?_, fun ha => ⟨hx, fun v hv hn => ?_⟩⟩
      · rw [i2 ha, (F.lt_nan x).1] at h; cases h
      · rcases List.mem_append.1 hv with hv | hv
        · exact F.le_trans (F.le_of_lt h) ((i3 ha).2 v hv hn)
        · rw [List.mem_singleton] at hv
          subst hv
          exact F.le_refl hn

theorem float_high (fused : Bool) (a : F) (vs : List F) : highOf (floatKind fused) (a :: vs) ∈ a :: vs ∧
    (a = .nan → highOf (floatKind fused) (a :: vs) = .nan) ∧
    (a ≠ .nan → highOf (floatKind fused) (a :: vs) ≠ .nan ∧ ∀ v ∈ a :: vs, v ≠ .nan → F.le v (highOf (floatKind fused) (a :: vs)) = true) := by
  induction vs using List.reverseRecOn with
  | nil => simpa [highOf] using fun h => ⟨h, fun h => F.le_refl h⟩
  | append_singleton as x ih =>
    have e : a :: (as ++ [x]) = (a :: as) ++ [x] := rfl
    rw [e, highOf_snoc _ (by simp)]
    obtain ⟨i1, i2, i3⟩ := ih
    have hlt : (floatKind fused).lt = F.lt := rfl
    rw [hlt]
    generalize highOf _ (a :: as) = m at *
    cases h : F.lt m x
    · simp only [Bool.false_eq_true, if_false]
      refine ⟨List.mem_append_left _ i1, i2, fun ha => ⟨(i3 ha).1, fun v hv hn => ?_⟩⟩
      rcases List.mem_append.1 hv with hv | hv
      · exact (i3 ha).2 v hv hn
      · rw [List.mem_singleton] at hv
        subst hv
        exact F.le_of_not_lt (i3 ha).1 hn h
    · simp only [if_true]
      have hx : x ≠ .nan := by rintro rfl; rw [(F.lt_nan m).1] at h; cases h
      refine ⟨by simp, fun ha => ?_, fun ha => ⟨hx, fun v hv hn => ?_⟩⟩
      · rw [i2 ha, (F.lt_nan x).2] at h; cases h
      · rcases List.mem_append.1 hv with hv | hv
        · exact F.le_trans ((i3 ha).2 v hv hn) (F.le_of_lt h)
        · rw [List.mem_singleton] at hv
          subst hv
          exact F.le_refl hn

end Monkit.Dist
