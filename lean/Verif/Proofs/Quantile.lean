import Verif.Spec.Quantile
import Verif.Proofs.DistQuery
import Verif.Proofs.FloatDist
import Mathlib.Tactic.Linarith
import Mathlib.Tactic.NormNum
import Mathlib.Tactic.Positivity
import Mathlib.Tactic.FieldSimp
import Mathlib.Tactic.Ring

namespace Monkit.Dist
open Monkit.Spec Go.Float

theorem countP_ge_take {R : Type} {p : R → Bool} {l : List R} {k : ℕ} (hk : k ≤ l.length) (h : ∀ i (hi : i < l.length), i < k → p l[i] = true) :
    k ≤ l.countP p := by
  have e : l.countP p = (l.take k).countP p + (l.drop k).countP p := by
    rw [← List.countP_append, List.take_append_drop]
  have : (l.take k).countP p = (l.take k).length := by
    rw [List.countP_eq_length]
    intro a ha
    obtain ⟨i, hi, rfl⟩ := List.mem_iff_getElem.mp ha
    rw [List.length_take] at hi
    rw [List.getElem_take]
    exact h i (by omega) (by omega)
  rw [List.length_take] at this
  omega

theorem countP_ge_drop {R : Type} {p : R → Bool} {l : List R} {k : ℕ} (h : ∀ i (hi : i < l.length), k ≤ i → p l[i] = true) :
    l.length - k ≤ l.countP p := by
  have e : l.countP p = (l.take k).countP p + (l.drop k).countP p := by
    rw [← List.countP_append, List.take_append_drop]
  have : (l.drop k).countP p = (l.drop k).length := by
    rw [List.countP_eq_length]
    intro a ha
    obtain ⟨i, hi, rfl⟩ := List.mem_iff_getElem.mp ha
    rw [List.length_drop] at hi
    rw [List.getElem_drop]
    exact h _ (by omega) (by omega)
  rw [List.length_drop] at this
  omega

/-- Where the code looks for a quantile: rounding the position can only move it up to the next whole position. -/
theorem position {t : ℚ} (h0 : 0 ≤ t) (h1 : t ≤ 63) {i : ℕ} (hi : (i : ℤ) = trunc (rn 53 t)) :
    (i : ℚ) ≤ rn 53 t ∧ t < i + 1 ∧ (rn 53 t = i ∧ (i : ℚ) - 1 < t ∨ (i : ℚ) ≤ t) := by
  have h53 : 0 < 53 := by norm_num
  have hr0 := rn_nonneg h53 h0
  have ht : trunc (rn 53 t) = ⌊rn 53 t⌋ := by unfold trunc; rw [if_pos hr0]
  rw [ht] at hi
  have hle : (i : ℚ) ≤ rn 53 t := by
    have := Int.floor_le (rn 53 t); rw [← hi] at this; exact_mod_cast this
  have hlt : rn 53 t < i + 1 := by
    have := Int.lt_floor_add_one (rn 53 t); rw [← hi] at this; exact_mod_cast this
  have hi63 : i ≤ 63 := by
    have r : Rep 53 (63 : ℚ) := by exact_mod_cast rep_nat (p := 53) (n := 63) (by norm_num)
    have := rn_mono h53 h1
    rw [rn_of_rep h53 r] at this
    have : (i : ℚ) ≤ 63 := le_trans hle this
    exact_mod_cast this
  refine ⟨hle, ?_, ?_⟩
  · by_contra hc
    push Not at hc
    have r : Rep 53 ((i + 1 : ℕ) : ℚ) := rep_nat (by have : (i + 1) < 2 ^ 53 := by omega
                                                     omega)
    have := rn_mono h53 hc
    push_cast at r
    rw [rn_of_rep h53 r] at this
    linarith
  · by_cases hc : (i : ℚ) ≤ t
    · exact .inr hc
    · left
      push Not at hc
      have r : Rep 53 ((i : ℕ) : ℚ) := rep_nat (by have : i < 2 ^ 53 := by omega
                                                   omega)
      have := rn_mono h53 hc.le
      rw [rn_of_rep h53 r] at this
      refine ⟨by linarith, ?_⟩
      by_contra hcc
      push Not at hcc
      obtain ⟨j, rfl⟩ : ∃ j, i = j + 1 := by
        refine ⟨i - 1, ?_⟩
        have : (0 : ℚ) < i := by linarith
        have : 0 < i := by exact_mod_cast this
        omega
      have r' : Rep 53 ((j : ℕ) : ℚ) := rep_nat (by have : j < 2 ^ 53 := by omega
                                                    omega)
      push_cast at hcc hle
      have := rn_mono h53 hcc
      rw [add_sub_cancel_right, rn_of_rep h53 r'] at this
      linarith

variable {V R : Type} {K : DistKind V R} {res : List R} {x : R → ℚ} {L : R → R → ℚ → ℚ} {c : ℚ → V}

theorem Between.rank (B : Between K res x L c) (hz : ∀ a ∈ res, ∀ b ∈ res, x a ≤ x b → L a b 0 = x a) (h64 : res.length ≤ 64)
    {q : ℚ} (hq0 : 0 ≤ q) (hq1 : q ≤ 1) {v : V} (h : QueryResult K res q v) :
    ∃ y, v = c y ∧ (∃ a ∈ res, x a ≤ y) ∧ (∃ a ∈ res, y ≤ x a) ∧ q * ((res.length : ℚ) - 1) < res.countP (fun a => x a ≤ y) ∧
      (1 - q) * ((res.length : ℚ) - 1) ≤ res.countP (fun a => y ≤ x a) := by
  cases h with
  | single a ha e =>
    subst ha
    refine ⟨x a, by rw [e, B.out a (by simp)], ⟨a, by simp⟩, ⟨a, by simp⟩, ?_, ?_⟩ <;> simp
  | first a hl ha hq e =>
    have : q = 0 := le_antisymm hq hq0
    subst this
    have h0 : 0 < res.length := by omega
    rw [List.getElem?_eq_getElem h0, Option.some.injEq] at ha
    subst ha
    refine ⟨x res[0], by rw [e, B.out _ (List.getElem_mem _)], ⟨_, List.getElem_mem _, le_refl _⟩, ⟨_, List.getElem_mem _, le_refl _⟩, ?_, ?_⟩
    · have : 1 ≤ res.countP (fun a => x a ≤ x res[0]) := countP_ge_take (by omega) fun i hi hi1 => by
        have : i = 0 := by omega
        subst this; simp
      rw [zero_mul]
      exact_mod_cast this
    · have : res.length - 0 ≤ res.countP (fun a => x res[0] ≤ x a) := countP_ge_drop fun i hi _ => by
        simpa using B.get hl 0 i h0 hi (by omega)
      have : (res.length : ℚ) ≤ (res.countP (fun a => x res[0] ≤ x a) : ℕ) := by exact_mod_cast this
      linarith
  | last a hl ha hq e =>
    have : q = 1 := le_antisymm hq1 hq
    subst this
    have h0 : res.length - 1 < res.length := by omega
    rw [List.getElem?_eq_getElem h0, Option.some.injEq] at ha
    subst ha
    refine ⟨x res[res.length - 1], by rw [e, B.out _ (List.getElem_mem _)], ⟨_, List.getElem_mem _, le_refl _⟩, ⟨_, List.getElem_mem _, le_refl _⟩, ?_, ?_⟩
    · have : res.length ≤ res.countP (fun a => x a ≤ x res[res.length - 1]) := countP_ge_take (le_refl _) fun i hi _ => by
        simpa using B.get hl i (res.length - 1) hi h0 (by omega)
      have : (res.length : ℚ) ≤ (res.countP (fun a => x a ≤ x res[res.length - 1]) : ℕ) := by exact_mod_cast this
      linarith
    · rw [sub_self, zero_mul]; positivity
  | between i diff a b hl q0 q1 hi ha hb hdi hd d0 d1 hr e =>
    have hi' : i < res.length := by omega
    rw [List.getElem?_eq_getElem hi', Option.some.injEq] at ha
    rw [List.getElem?_eq_getElem hi, Option.some.injEq] at hb
    subst ha hb
    have hab := B.get hl i (i + 1) hi' hi (by omega)
    obtain ⟨l0, l1, l2⟩ := B.interp _ (List.getElem_mem _) _ (List.getElem_mem _) hab diff d0 d1 hr
    have hn : ((res.length - 1 : ℕ) : ℚ) = (res.length : ℚ) - 1 := by
      rw [Nat.cast_sub (by omega)]; simp
    have hn63 : ((res.length - 1 : ℕ) : ℚ) ≤ 63 := by
      have : res.length - 1 ≤ 63 := by omega
      exact_mod_cast this
    have hn0 : (0 : ℚ) ≤ ((res.length - 1 : ℕ) : ℚ) := by positivity
    obtain ⟨p1, p2, p3⟩ := position (t := q * ((res.length - 1 : ℕ) : ℚ)) (by positivity)
      (by nlinarith) hdi
    rw [hn] at p1 p2 p3 hd
    refine ⟨_, by rw [e, l0], ⟨_, List.getElem_mem hi', l1⟩, ⟨_, List.getElem_mem hi, l2⟩, ?_, ?_⟩
    · have : i + 1 ≤ res.countP (fun a => x a ≤ L res[i] res[i + 1] diff) := countP_ge_take (by omega) fun j hj hj1 => by
        simpa using le_trans (B.get hl j i hj hi' (by omega)) l1
      have : ((i + 1 : ℕ) : ℚ) ≤ (res.countP (fun a => x a ≤ L res[i] res[i + 1] diff) : ℕ) := by exact_mod_cast this
      push_cast at this
      linarith
    · rcases p3 with ⟨p3, p4⟩ | p3
      · have hd0 : diff = 0 := by rw [hd, p3]; ring
        have hL : L res[i] res[i + 1] diff = x res[i] := by
          rw [hd0]; exact hz _ (List.getElem_mem _) _ (List.getElem_mem _) hab
        have : res.length - i ≤ res.countP (fun a => L res[i] res[i + 1] diff ≤ x a) := countP_ge_drop fun j hj hj1 => by
          rw [hL]
          simpa using B.get hl i j hi' hj hj1
        have h2 : ((res.length - i : ℕ) : ℚ) ≤ (res.countP (fun a => L res[i] res[i + 1] diff ≤ x a) : ℕ) := by exact_mod_cast this
        rw [Nat.cast_sub hi'.le] at h2
        nlinarith
      · have : res.length - (i + 1) ≤ res.countP (fun a => L res[i] res[i + 1] diff ≤ x a) := countP_ge_drop fun j hj hj1 => by
          simpa using le_trans l2 (B.get hl (i + 1) j hi hj hj1)
        have h2 : ((res.length - (i + 1) : ℕ) : ℚ) ≤ (res.countP (fun a => L res[i] res[i + 1] diff ≤ x a) : ℕ) := by exact_mod_cast this
        rw [Nat.cast_sub hi.le] at h2
        push_cast at h2
        nlinarith

/-- With no fraction, interpolation gives the lower value. -/
theorem lerp_zero (fused : Bool) {a : ℚ} (b : ℚ) (ha : Rep 53 a) : lerp fused a b 0 = a := by
  unfold lerp
  cases fused <;> simp [rn_zero, rn_of_rep (by norm_num : 0 < 53) ha]

theorem abs_mul_le {d e : ℚ} (h0 : 0 ≤ d) (h1 : d ≤ 1) : |d * e| ≤ |e| := by
  rw [abs_mul, abs_of_nonneg h0]
  have := abs_nonneg e
  nlinarith

/-- The rounding error of the interpolation. -/
theorem lerp_error (fused : Bool) {a b d m : ℚ} (ha : |a| ≤ m) (hb : |b| ≤ m) (d0 : 0 ≤ d) (d1 : d ≤ 1) :
    |lerp fused a b d - (a + d * (b - a))| ≤ m / 2 ^ 49 := by
  have hm : 0 ≤ m := le_trans (abs_nonneg a) ha
  have hba : |b - a| ≤ 2 * m := by
    have := abs_sub b a; linarith
  have e1 := rn_rel (p := 53) (b - a)
  generalize hD : rn 53 (b - a) = D at e1
  have e1' : |D - (b - a)| ≤ 2 * m / 2 ^ 53 := le_trans e1 (by gcongr)
  have hDm : |D| ≤ 2 * m + 2 * m / 2 ^ 53 := by
    have := abs_add_le (D - (b - a)) (b - a)
    rw [sub_add_cancel] at this
    linarith
  have e2 : |d * D - d * (b - a)| ≤ 2 * m / 2 ^ 53 := by
    rw [← mul_sub]; exact le_trans (abs_mul_le d0 d1) e1'
  have hdD : |d * D| ≤ 2 * m + 2 * m / 2 ^ 53 := le_trans (abs_mul_le d0 d1) hDm
  have fin : ∀ P, |P - d * D| ≤ (2 * m + 2 * m / 2 ^ 53) / 2 ^ 53 → |rn 53 (a + P) - (a + d * (b - a))| ≤ m / 2 ^ 49 := by
    intro P hP
    have e3 := rn_rel (p := 53) (a + P)
    have hP2 : |P| ≤ (2 * m + 2 * m / 2 ^ 53) / 2 ^ 53 + (2 * m + 2 * m / 2 ^ 53) := by
      have := abs_add_le (P - d * D) (d * D)
      rw [sub_add_cancel] at this
      linarith
    have hS : |a + P| ≤ 4 * m := by
      have := abs_add_le a P
      have : m + ((2 * m + 2 * m / 2 ^ 53) / 2 ^ 53 + (2 * m + 2 * m / 2 ^ 53)) ≤ 4 * m := by
        norm_num; linarith
      linarith
    have e3' : |rn 53 (a + P) - (a + P)| ≤ 4 * m / 2 ^ 53 := le_trans e3 (by gcongr)
    have t1 := abs_add_le (rn 53 (a + P) - (a + P)) (a + P - (a + d * (b - a)))
    have t2 := abs_add_le (P - d * D) (d * D - d * (b - a))
    have i1 : rn 53 (a + P) - (a + P) + (a + P - (a + d * (b - a))) = rn 53 (a + P) - (a + d * (b - a)) := by ring
    have i2 : P - d * D + (d * D - d * (b - a)) = a + P - (a + d * (b - a)) := by ring
    rw [i1] at t1
    rw [i2] at t2
    have : 4 * m / 2 ^ 53 + ((2 * m + 2 * m / 2 ^ 53) / 2 ^ 53 + 2 * m / 2 ^ 53) ≤ m / 2 ^ 49 := by
      norm_num; linarith
    linarith
  unfold lerp
  rw [hD]
  cases fused with
  | true =>
    simp only [if_true]
    exact fin _ (by rw [sub_self, abs_zero]; positivity)
  | false =>
    simp only [Bool.false_eq_true, if_false]
    apply fin
    exact le_trans (rn_rel _) (by gcongr)

theorem onLine_at {l : List ℚ} {t : ℚ} {k : ℕ} (h0 : (k : ℚ) ≤ t) (h1 : t < k + 1) (hk : k + 1 < l.length) :
    onLine l t = l[k] + (t - k) * (l[k + 1] - l[k]) := by
  have : ⌊t⌋ = (k : ℤ) := Int.floor_eq_iff.mpr ⟨by exact_mod_cast h0, by exact_mod_cast h1⟩
  unfold onLine
  rw [this]
  simp only [Int.toNat_natCast]
  have hk' : k < l.length := by omega
  simp [List.getElem?_eq_getElem hk', List.getElem?_eq_getElem hk]

theorem onLine_nat {l : List ℚ} {k : ℕ} (hk : k < l.length) : onLine l k = l[k] := by
  unfold onLine
  simp [List.getElem?_eq_getElem hk]

/-- `Query` gives, up to rounding, the value on the straight line between neighbours. -/
theorem Numeric.accurate {V : Type} {K : DistKind V ℚ} {fused : Bool} {c : ℚ → V} (hK : Numeric K fused c) {res : List ℚ}
    (hrep : ∀ x ∈ res, Rep 24 x) (hs : 2 ≤ res.length → res.Pairwise (· ≤ ·)) (h64 : res.length ≤ 64)
    {q : ℚ} (hq0 : 0 ≤ q) (hq1 : q ≤ 1) {v : V} (h : QueryResult K res q v) {m : ℚ} (hm : ∀ x ∈ res, |x| ≤ m) :
    ∃ y, v = c y ∧ (∃ a ∈ res, a ≤ y) ∧ (∃ a ∈ res, y ≤ a) ∧ |y - onLine res (q * ((res.length : ℚ) - 1))| ≤ m / 2 ^ 45 := by
  have B := hK.between hrep hs
  have hm0 : ∀ x ∈ res, 0 ≤ m := fun x hx => le_trans (abs_nonneg _) (hm x hx)
  cases h with
  | single a ha e =>
    subst ha
    refine ⟨a, by rw [e, hK.out], ⟨a, by simp⟩, ⟨a, by simp⟩, ?_⟩
    have := hm0 a (by simp)
    have e := onLine_nat (l := [a]) (k := 0) (by simp)
    simp only [List.length_singleton, Nat.cast_one, sub_self, mul_zero]
    simp only [Nat.cast_zero, List.getElem_cons_zero] at e
    rw [e, sub_self, abs_zero]
    positivity
  | first a hl ha hq e =>
    have : q = 0 := le_antisymm hq hq0
    subst this
    have h0 : 0 < res.length := by omega
    rw [List.getElem?_eq_getElem h0, Option.some.injEq] at ha
    subst ha
    refine ⟨res[0], by rw [e, hK.out], ⟨_, List.getElem_mem _, le_refl _⟩, ⟨_, List.getElem_mem _, le_refl _⟩, ?_⟩
    have := hm0 _ (List.getElem_mem h0)
    have e := onLine_nat h0
    rw [zero_mul]
    rw [Nat.cast_zero] at e
    rw [e, sub_self, abs_zero]
    positivity
  | last a hl ha hq e =>
    have : q = 1 := le_antisymm hq1 hq
    subst this
    have h0 : res.length - 1 < res.length := by omega
    rw [List.getElem?_eq_getElem h0, Option.some.injEq] at ha
    subst ha
    refine ⟨res[res.length - 1], by rw [e, hK.out], ⟨_, List.getElem_mem _, le_refl _⟩, ⟨_, List.getElem_mem _, le_refl _⟩, ?_⟩
    have := hm0 _ (List.getElem_mem h0)
    have e := onLine_nat h0
    rw [Nat.cast_sub (by omega), Nat.cast_one] at e
    rw [one_mul, e, sub_self, abs_zero]
    positivity
  | between i diff a b hl q0 q1 hi ha hb hdi hd d0 d1 hr e =>
    have hi' : i < res.length := by omega
    rw [List.getElem?_eq_getElem hi', Option.some.injEq] at ha
    rw [List.getElem?_eq_getElem hi, Option.some.injEq] at hb
    subst ha hb
    have hab := B.get hl i (i + 1) hi' hi (by omega)
    obtain ⟨l0, l1, l2⟩ := B.interp _ (List.getElem_mem _) _ (List.getElem_mem _) hab diff d0 d1 hr
    have hn : ((res.length - 1 : ℕ) : ℚ) = (res.length : ℚ) - 1 := by
      rw [Nat.cast_sub (by omega)]; simp
    have hn63 : ((res.length - 1 : ℕ) : ℚ) ≤ 63 := by
      have : res.length - 1 ≤ 63 := by omega
      exact_mod_cast this
    have hn0 : (0 : ℚ) ≤ ((res.length - 1 : ℕ) : ℚ) := by positivity
    have ht0 : 0 ≤ q * ((res.length - 1 : ℕ) : ℚ) := by positivity
    have ht63 : q * ((res.length - 1 : ℕ) : ℚ) ≤ 63 := by nlinarith
    obtain ⟨p1, p2, p3⟩ := position ht0 ht63 hdi
    have herr := rn_rel (p := 53) (q * ((res.length - 1 : ℕ) : ℚ))
    rw [abs_of_nonneg ht0] at herr
    rw [hn] at p1 p2 p3 hd herr ht0 ht63
    generalize q * ((res.length : ℚ) - 1) = t at *
    have hma := hm _ (List.getElem_mem hi')
    have hmb := hm _ (List.getElem_mem hi)
    have hmm := hm0 _ (List.getElem_mem hi')
    have herr' : |rn 53 t - t| ≤ 63 / 2 ^ 53 := le_trans herr (by gcongr)
    have slope : ∀ j k (hj : j < res.length) (hk : k < res.length), |(rn 53 t - t) * (res[j] - res[k])| ≤ 63 / 2 ^ 53 * (2 * m) := by
      intro j k hj hk
      rw [abs_mul]
      have h1 := hm _ (List.getElem_mem hj)
      have h2 := hm _ (List.getElem_mem hk)
      have h3 := abs_sub res[j] res[k]
      exact mul_le_mul herr' (by linarith) (abs_nonneg _) (by positivity)
    refine ⟨lerp fused res[i] res[i + 1] diff, by rw [e, l0], ⟨_, List.getElem_mem hi', l1⟩, ⟨_, List.getElem_mem hi, l2⟩, ?_⟩
    by_cases hti : (i : ℚ) ≤ t
    · rw [onLine_at hti p2 hi]
      have h1 := lerp_error fused hma hmb d0 d1.le
      have h2 := slope (i + 1) i hi hi'
      have h3 := abs_add_le (lerp fused res[i] res[i + 1] diff - (res[i] + diff * (res[i + 1] - res[i]))) ((rn 53 t - t) * (res[i + 1] - res[i]))
      have e : lerp fused res[i] res[i + 1] diff - (res[i] + diff * (res[i + 1] - res[i])) + (rn 53 t - t) * (res[i + 1] - res[i]) =
          lerp fused res[i] res[i + 1] diff - (res[i] + (t - i) * (res[i + 1] - res[i])) := by
        rw [hd]; ring
      rw [e] at h3
      refine le_trans h3 (le_trans (add_le_add h1 h2) ?_)
      norm_num; linarith
    · obtain ⟨p3, p4⟩ : rn 53 t = i ∧ (i : ℚ) - 1 < t := by
        rcases p3 with p3 | p3
        · exact p3
        · exact absurd p3 hti
      push Not at hti
      obtain ⟨j, rfl⟩ : ∃ j, i = j + 1 := by
        refine ⟨i - 1, ?_⟩
        have : (0 : ℚ) < i := by linarith
        have : 0 < i := by exact_mod_cast this
        omega
      have hd0 : diff = 0 := by rw [hd, p3]; ring
      rw [hd0, lerp_zero fused _ (rep_mono (by norm_num) (hrep _ (List.getElem_mem _)))]
      push_cast at p4 hti
      rw [onLine_at (k := j) (by linarith) hti hi']
      have h2 := slope (j + 1) j hi' (by omega)
      have e : (rn 53 t - t) * (res[j + 1] - res[j]) = res[j + 1] - (res[j] + (t - j) * (res[j + 1] - res[j])) := by
        rw [p3]; push_cast; ring
      rw [e] at h2
      refine le_trans h2 ?_
      norm_num; linarith

end Monkit.Dist
