import Verif.Model.Id
import Mathlib.Data.Nat.ModEq
import Mathlib.Tactic.Ring

/-! # C37: what `NewId` returns -/

namespace Monkit.Id
open Go

/-- The start of the process: either way of seeding. -/
inductive Seeded : UInt64 → UInt64 → Prop where
  | random (buf : UInt64) : Seeded (seed buf).1 (seed buf).2
  | fallback (x y : Int64) (hx : 0 ≤ x) (hy : 0 ≤ y) : Seeded (seedFallback x y).1 (seedFallback x y).2

/-- In either case the increment is 3 modulo 4 and below 2^63. -/
theorem seeded_inc {c inc : UInt64} (h : Seeded c inc) : inc.toNat % 4 = 3 ∧ inc.toNat < 2 ^ 63 := by
  have key : ∀ x : Nat, x < 2 ^ 63 → (x ||| 3) % 4 = 3 ∧ (x ||| 3) < 2 ^ 63 := by
    intro x hx
    refine ⟨?_, Nat.or_lt_two_pow hx (by decide)⟩
    have := Nat.or_mod_two_pow (a := x) (b := 3) (n := 2)
    have h4 : x % 4 < 4 := Nat.mod_lt _ (by decide)
    simp only [show 2 ^ 2 = 4 from rfl] at this
    rw [this]
    have : ∀ y < 4, y ||| 3 % 4 = 3 := by decide
    exact this _ h4
  cases h with
  | random buf =>
    have e : (seed buf).2.toNat = buf.toNat / 2 ||| 3 := by
      simp [seed, UInt64.toNat_or, UInt64.toNat_shiftRight, Nat.shiftRight_eq_div_pow]
    rw [e]
    exact key _ (by have := buf.toNat_lt; omega)
  | fallback x y hx hy =>
    have e : (seedFallback x y).2.toNat = y.toUInt64.toNat ||| 3 := by
      have : (seedFallback x y).2 = y.toUInt64 ||| 3 := by
        simp only [seedFallback, Int64.toUInt64_or]; rfl
      rw [this, UInt64.toNat_or]; rfl
    rw [e]
    refine key _ ?_
    rw [Int64.le_iff_toInt_le] at hy
    have h1 : y.toInt = y.toUInt64.toNat := by
      have h2 := y.toBitVec.toInt_eq_toNat_cond
      change y.toInt = _ at h2
      change _ = if _ then (y.toUInt64.toNat : Int) else _ at h2
      rw [h2]
      split
      · rfl
      · rename_i hc
        rw [if_neg hc] at h2
        have := y.toBitVec.isLt
        have : (0 : Int64).toInt = 0 := rfl
        omega
    have := y.toInt_lt
    omega

theorem values {inc c0 : UInt64} {tr : List (Nat × Int64)} {c : UInt64} (h : Exec (Step inc) c0 tr c) :
    c = c0 + UInt64.ofNat tr.length * inc ∧
      ∀ (i t : Nat) (v : Int64), tr[i]? = some (t, v) → v = value (c0 + UInt64.ofNat (i + 1) * inc) := by
  refine Exec.induct (fun tr c => c = c0 + UInt64.ofNat tr.length * inc ∧
      ∀ (i t : Nat) (v : Int64), tr[i]? = some (t, v) → v = value (c0 + UInt64.ofNat (i + 1) * inc)) ?_ ?_ h
  · exact ⟨by simp, by simp⟩
  · rintro tr c e c' ⟨h1, h2⟩ st
    cases st with
    | newId t =>
      have e1 : c + inc = c0 + UInt64.ofNat (tr.length + 1) * inc := by
        rw [h1, UInt64.ofNat_add]
        have : UInt64.ofNat 1 = 1 := rfl
        grind
      refine ⟨by simpa using e1, ?_⟩
      intro i t' v hi
      simp only [Option.toList_some] at hi
      rcases Nat.lt_trichotomy i tr.length with hl | hl | hl
      · rw [List.getElem?_append_left hl] at hi; exact h2 i t' v hi
      · subst hl
        simp at hi
        rw [← e1]; exact hi.2.symm
      · rw [List.getElem?_eq_none (by simp; omega)] at hi; cases hi

/-- C37, first half: no id is negative, whatever the state. -/
theorem C37_nonneg {inc c0 : UInt64} {tr : List (Nat × Int64)} {c : UInt64} (h : Exec (Step inc) c0 tr c) (t : Nat)
    (v : Int64) (hv : (t, v) ∈ tr) : 0 ≤ v := by
  obtain ⟨i, hi, e⟩ := List.getElem_of_mem hv
  have := (values h).2 i t v (by rw [List.getElem?_eq_getElem hi, e])
  rw [this, Int64.le_iff_toInt_le]
  have h1 : ∀ x : UInt64, ((x >>> 1).toInt64).toInt = ((x.toNat / 2 : Nat) : Int) := by
    intro x
    have hx := x.toNat_lt
    have h2 := (x >>> 1).toInt64.toBitVec.toInt_eq_toNat_cond
    change ((x >>> 1).toInt64).toInt = if _ < _ then (((x >>> 1).toNat : Nat) : Int) else _ at h2
    have h3 : (x >>> 1).toNat = x.toNat / 2 := by
      simp [UInt64.toNat_shiftRight, Nat.shiftRight_eq_div_pow]
    rw [h2, if_pos, h3]
    change 2 * (x >>> 1).toNat < 2 ^ 64
    rw [h3]; omega
  show (0 : Int64).toInt ≤ _
  rw [value, h1]
  exact Int.natCast_nonneg _

/-- Equal ids come from counters that differ by at most one. -/
theorem value_eq {a b : UInt64} (h : value a = value b) : a = b ∨ a = b + 1 ∨ a = b + (-1) := by
  have h1 : a >>> 1 = b >>> 1 := by
    have := congrArg Int64.toUInt64 h
    simpa [value] using this
  have h2 : a.toNat / 2 = b.toNat / 2 := by
    have := congrArg UInt64.toNat h1
    simpa [UInt64.toNat_shiftRight, Nat.shiftRight_eq_div_pow] using this
  rcases Nat.lt_trichotomy a.toNat b.toNat with hl | hl | hl
  · right; right
    have : b = a + 1 := by
      apply UInt64.toNat_inj.mp
      have := b.toNat_lt
      rw [UInt64.toNat_add]
      simp only [UInt64.toNat_one]
      omega
    rw [this]; grind
  · left; exact UInt64.toNat_inj.mp hl
  · right; left
    apply UInt64.toNat_inj.mp
    have := a.toNat_lt
    rw [UInt64.toNat_add]
    simp only [UInt64.toNat_one]
    omega

/-- An odd increment comes back to the same counter after 2^64 calls only. -/
theorem odd_mul_ne_zero {inc : UInt64} (ho : inc.toNat % 2 = 1) {d : Nat} (h0 : 0 < d) (hd : d < 2 ^ 64) :
    UInt64.ofNat d * inc ≠ 0 := by
  intro e
  have h := congrArg UInt64.toNat e
  rw [UInt64.toNat_mul, UInt64.toNat_ofNat_of_lt' hd] at h
  change d * inc.toNat % 2 ^ 64 = 0 at h
  have hc : Nat.Coprime (2 ^ 64) inc.toNat := by
    apply Nat.Coprime.pow_left
    rw [Nat.Coprime, Nat.gcd_rec, ho]; rfl
  have := Nat.Coprime.dvd_of_dvd_mul_right hc (Nat.dvd_of_mod_eq_zero h)
  exact absurd (Nat.le_of_dvd h0 this) (by omega)

theorem diff {inc c0 : UInt64} {i j : Nat} (hij : i < j) (x : UInt64) :
    (c0 + UInt64.ofNat (j + 1) * inc = c0 + UInt64.ofNat (i + 1) * inc + x ↔ UInt64.ofNat (j - i) * inc = x) := by
  have : UInt64.ofNat (j + 1) = UInt64.ofNat (i + 1) + UInt64.ofNat (j - i) := by
    rw [← UInt64.ofNat_add]; congr 1; omega
  rw [this]
  constructor <;> intro h <;> grind

/-- C37, second half, as far as it is true.  If no `d` below the number of calls has `d * inc = ±1` modulo 2^64, the
ids returned are pairwise distinct. -/
theorem C37_distinct_partial {c0 inc : UInt64} (hs : Seeded c0 inc) {tr : List (Nat × Int64)} {c : UInt64}
    (h : Exec (Step inc) c0 tr c) (hlen : tr.length ≤ 2 ^ 64)
    (hgood : ∀ d : Nat, 0 < d → d < tr.length → UInt64.ofNat d * inc ≠ 1 ∧ UInt64.ofNat d * inc ≠ -1)
    (i j t t' : Nat) (v v' : Int64) (hij : i < j) (hi : tr[i]? = some (t, v)) (hj : tr[j]? = some (t', v')) : v ≠ v' := by
  intro e
  obtain ⟨ho, -⟩ := seeded_inc hs
  have hjl : j < tr.length := by
    rcases Nat.lt_or_ge j tr.length with h | h
    · exact h
    · rw [List.getElem?_eq_none h] at hj; cases hj
  rw [(values h).2 i t v hi, (values h).2 j t' v' hj] at e
  rcases value_eq e.symm with e | e | e
  · have e' : c0 + UInt64.ofNat (j + 1) * inc = c0 + UInt64.ofNat (i + 1) * inc + 0 := by rw [e]; grind
    exact odd_mul_ne_zero (by omega) (by omega) (by omega) ((diff hij 0).mp e')
  · exact (hgood (j - i) (by omega) (by omega)).1 ((diff hij 1).mp e)
  · exact (hgood (j - i) (by omega) (by omega)).2 ((diff hij (-1)).mp e)

/-- The increments for which two of the first `n` ids can be equal are few: at most `2 n` of the 2^61 there are. -/
theorem C37_few_bad_seeds (n : Nat) :
    ∃ bad : List UInt64, bad.length ≤ 2 * n ∧ ∀ inc : UInt64, inc ∉ bad →
      ∀ d : Nat, 0 < d → d < n → UInt64.ofNat d * inc ≠ 1 ∧ UInt64.ofNat d * inc ≠ -1 := by
  induction n with
  | zero => exact ⟨[], by simp, fun _ _ _ _ h => by omega⟩
  | succ n ih =>
    obtain ⟨bad, h1, h2⟩ := ih
    have one : ∀ y : UInt64, y = 1 ∨ y = -1 → ∃ l : List UInt64, l.length ≤ 1 ∧ ∀ inc, UInt64.ofNat n * inc = y → inc ∈ l := by
      intro y hy
      by_cases hx : ∃ x, UInt64.ofNat n * x = y
      · obtain ⟨x, hx⟩ := hx
        refine ⟨[x], by simp, fun inc hi => ?_⟩
        simp only [List.mem_singleton]
        rcases hy with rfl | rfl <;> grind
      · exact ⟨[], by simp, fun inc hi => absurd ⟨inc, hi⟩ hx⟩
    obtain ⟨l1, a1, b1⟩ := one 1 (.inl rfl)
    obtain ⟨l2, a2, b2⟩ := one (-1) (.inr rfl)
    refine ⟨bad ++ l1 ++ l2, by simp only [List.length_append]; omega, ?_⟩
    intro inc hi d hd hn
    simp only [List.mem_append, not_or] at hi
    rcases Nat.lt_succ_iff_lt_or_eq.mp hn with hlt | rfl
    · exact h2 inc hi.1.1 d hd hlt
    · exact ⟨fun e => hi.1.2 (b1 inc e), fun e => hi.2 (b2 inc e)⟩

/-- Whatever the seed, no id is returned three times within 2^64 calls. -/
theorem C37_at_most_twice {c0 inc : UInt64} (hs : Seeded c0 inc) {tr : List (Nat × Int64)} {c : UInt64}
    (h : Exec (Step inc) c0 tr c) (hlen : tr.length ≤ 2 ^ 64) (i j k t t' t'' : Nat) (v v' v'' : Int64) (hij : i < j)
    (hjk : j < k) (hi : tr[i]? = some (t, v)) (hj : tr[j]? = some (t', v')) (hk : tr[k]? = some (t'', v'')) :
    ¬(v = v' ∧ v' = v'') := by
  rintro ⟨e1, e2⟩
  obtain ⟨ho, -⟩ := seeded_inc hs
  have hkl : k < tr.length := by
    rcases Nat.lt_or_ge k tr.length with h | h
    · exact h
    · rw [List.getElem?_eq_none h] at hk; cases hk
  rw [(values h).2 i t v hi, (values h).2 j t' v' hj] at e1
  rw [(values h).2 j t' v' hj, (values h).2 k t'' v'' hk] at e2
  have ne : ∀ a b : Nat, a < b → b < tr.length → c0 + UInt64.ofNat (b + 1) * inc ≠ c0 + UInt64.ofNat (a + 1) * inc := by
    intro a b hab hb e
    have ho' : inc.toNat % 2 = 1 := by omega
    exact odd_mul_ne_zero ho' (d := b - a) (by omega) (by omega) ((diff hab 0).mp (by rw [e]; grind))
  -- three counters with the same half cannot be distinct
  have three : ∀ x y z : UInt64, value x = value y → value y = value z → x = y ∨ y = z ∨ x = z := by
    intro x y z h1 h2
    have g : ∀ a b : UInt64, value a = value b → a.toNat / 2 = b.toNat / 2 := by
      intro a b h
      have := congrArg (fun w => (Int64.toUInt64 w).toNat) h
      simpa [value, UInt64.toNat_shiftRight, Nat.shiftRight_eq_div_pow] using this
    have g1 := g x y h1
    have g2 := g y z h2
    have g3 : x.toNat = y.toNat ∨ y.toNat = z.toNat ∨ x.toNat = z.toNat := by omega
    rcases g3 with h | h | h
    · exact .inl (UInt64.toNat_inj.mp h)
    · exact .inr (.inl (UInt64.toNat_inj.mp h))
    · exact .inr (.inr (UInt64.toNat_inj.mp h))
  rcases three _ _ _ e1 e2 with e | e | e
  · exact ne i j hij (by omega) e.symm
  · exact ne j k hjk hkl e.symm
  · exact ne i k (by omega) hkl e.symm

theorem small_mul {n d : Nat} (h4 : n % 4 = 3) (hl : n < 2 ^ 63) (h0 : 0 < d) (h5 : d < 5) :
    d * n % 2 ^ 64 ≠ 0 ∧ d * n % 2 ^ 64 ≠ 1 ∧ d * n % 2 ^ 64 ≠ 2 ^ 64 - 1 := by
  have hd : d = 1 ∨ d = 2 ∨ d = 3 ∨ d = 4 := by omega
  have e := Nat.div_add_mod (d * n) (2 ^ 64)
  have hq : d * n / 2 ^ 64 < 2 := by
    apply Nat.div_lt_of_lt_mul
    rcases hd with rfl | rfl | rfl | rfl <;> omega
  generalize d * n % 2 ^ 64 = r at *
  generalize d * n / 2 ^ 64 = q at *
  have hq' : q = 0 ∨ q = 1 := by omega
  clear hq
  rcases hd with rfl | rfl | rfl | rfl <;> rcases hq' with rfl | rfl <;>
    refine ⟨?_, ?_, ?_⟩ <;> rintro rfl <;> clear h0 h5 <;> omega

/-- Whatever the seed, any five ids in a row are distinct. -/
theorem C37_five_in_a_row {c0 inc : UInt64} (hs : Seeded c0 inc) {tr : List (Nat × Int64)} {c : UInt64}
    (h : Exec (Step inc) c0 tr c) (i j t t' : Nat) (v v' : Int64) (hij : i < j) (hj5 : j < i + 5)
    (hi : tr[i]? = some (t, v)) (hj : tr[j]? = some (t', v')) : v ≠ v' := by
  intro e
  obtain ⟨h4, hl⟩ := seeded_inc hs
  rw [(values h).2 i t v hi, (values h).2 j t' v' hj] at e
  have nat : (UInt64.ofNat (j - i) * inc).toNat = (j - i) * inc.toNat % 2 ^ 64 := by
    rw [UInt64.toNat_mul, UInt64.toNat_ofNat_of_lt' (Nat.lt_of_lt_of_le (show j - i < 5 by omega) (by decide))]
  obtain ⟨n0, n1, n2⟩ := small_mul h4 hl (show 0 < j - i by omega) (by omega)
  rw [← nat] at n0 n1 n2
  rcases value_eq e.symm with e | e | e
  · exact n0 (congrArg UInt64.toNat ((diff hij 0).mp (by rw [e]; grind)))
  · exact n1 (congrArg UInt64.toNat ((diff hij 1).mp e))
  · exact n2 (congrArg UInt64.toNat ((diff hij (-1)).mp e))

/-- Calls by one goroutine. -/
def ids (inc : UInt64) : Nat → UInt64 → List (Nat × Int64)
  | 0, _ => []
  | n + 1, c => (0, value (c + inc)) :: ids inc n (c + inc)

theorem exec_ids (inc : UInt64) : ∀ (n : Nat) (c0 : UInt64), ∃ c, Exec (Step inc) c0 (ids inc n c0) c
  | 0, c0 => ⟨c0, .start⟩
  | n + 1, c0 => by
    obtain ⟨c, h⟩ := exec_ids inc n (c0 + inc)
    exact ⟨c, Exec.append (.step _ .start (.newId c0 0)) h⟩

/-- **C37 is false of the code**: with these random bytes the second and the seventh id are the same. -/
theorem C37_distinct_violated :
    let s := seed 0x6666666666666666
    ∃ c tr, Exec (Step s.2) s.1 tr c ∧ ∃ v, tr[1]? = some (0, v) ∧ tr[6]? = some (0, v) := by
  obtain ⟨c, h⟩ := exec_ids (seed 0x6666666666666666).2 7 (seed 0x6666666666666666).1
  exact ⟨c, _, h, (0x4ccccccccccccccc : Int64), by decide +kernel, by decide +kernel⟩

/-- The hypothesis of `C37_distinct_partial` is met by ordinary seeds: with increment 7 for a million ids and more. -/
example : Seeded 7 7 ∧ ∀ d : Nat, 0 < d → d < 1000000 → UInt64.ofNat d * 7 ≠ 1 ∧ UInt64.ofNat d * 7 ≠ -1 := by
  refine ⟨Seeded.random 14, fun d h0 h => ?_⟩
  have e : (UInt64.ofNat d * 7).toNat = d * 7 := by
    rw [UInt64.toNat_mul, UInt64.toNat_ofNat_of_lt' (Nat.lt_of_lt_of_le h (by decide))]
    show d * 7 % 2 ^ 64 = _
    omega
  constructor <;> intro he <;> rw [he] at e
  · change 1 = d * 7 at e; omega
  · change 2 ^ 64 - 1 = d * 7 at e; omega

end Monkit.Id
