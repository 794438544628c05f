import Verif.Proofs.Rng
import Verif.Model.Dist

/-!
# C10, C11: random number generators
-/

namespace Monkit
open Monkit.Rng

/-- The state of a generator holds no set bit. -/
def X1024.dead (s : X1024) : Prop := ∀ i, s.s i = 0

/-- A `xorshift1024` whose position is a valid array index; `Seed` gives such a state. -/
def X1024.valid (s : X1024) : Prop := 0 ≤ s.p ∧ s.p < 16

/-- **C10.** One call is injective on the state, for each generator: no two states ever merge. -/
theorem C10_step_injective :
    (∀ s t, (lcg s).2 = (lcg t).2 → s = t) ∧
    (∀ s t, (xorshift64 s).2 = (xorshift64 t).2 → s = t) ∧
    (∀ s t, (xorshift128 s).2 = (xorshift128 t).2 → s = t) ∧
    (∀ s t : X1024, X1024.valid s → X1024.valid t →
      (xorshift1024 s).2 = (xorshift1024 t).2 → s = t) := by
  refine ⟨fun s t h => lcg_step_inj (lcg_step_inj h), fun s t => x64_inj, fun s t => x128_inj, ?_⟩
  have norm : ∀ s : X1024, X1024.valid s → ∃ n : Fin 16, s.p = Int64.ofNat n.val := by
    intro s ⟨h1, h2⟩
    rw [Int64.le_iff_toInt_le] at h1
    rw [Int64.lt_iff_toInt_lt] at h2
    change 0 ≤ s.p.toInt at h1
    change s.p.toInt < 16 at h2
    refine ⟨⟨s.p.toInt.toNat, by omega⟩, ?_⟩
    apply Int64.toInt_inj.mp
    rw [Int64.toInt_ofNat_of_lt]
    · exact (Int.toNat_of_nonneg h1).symm
    · show s.p.toInt.toNat < _; omega
  exact fun s t hs ht => x1024_inj (norm s hs) (norm t ht)

/-- Injective steps that fix one state never lead any other state there. -/
theorem iter_ne {G : Type} (next : G → UInt64 × G) (z : G) (hz : (next z).2 = z)
    (inj : ∀ s t, (next s).2 = (next t).2 → s = t) (n : Nat) (g : G) (hg : g ≠ z) :
    iter next n g ≠ z := by
  induction n generalizing g with
  | zero => exact hg
  | succ n ih => exact ih _ (fun h => hg (inj _ _ (h.trans hz.symm)))

/-- **C10.** However many numbers are drawn, a non-zero xorshift state never becomes zero. -/
theorem C10_never_dies (n : Nat) :
    (∀ s, s ≠ 0 → iter xorshift64 n s ≠ 0) ∧
    (∀ s, s ≠ ⟨0, 0⟩ → iter xorshift128 n s ≠ ⟨0, 0⟩) ∧
    (∀ s : X1024, X1024.valid s → ¬ X1024.dead s → ¬ X1024.dead (iter xorshift1024 n s)) := by
  refine ⟨iter_ne _ _ x64_zero C10_step_injective.2.1 n,
    iter_ne _ _ x128_zero C10_step_injective.2.2.1 n, ?_⟩
  have key : ∀ (n : Nat) (m : Fin 16) (s : Fin 16 → UInt64), (∃ i, s i ≠ 0) →
      ∃ i, (iter xorshift1024 n ⟨s, Int64.ofNat m.val⟩).s i ≠ 0 := by
    intro n
    induction n with
    | zero => intro m s h; exact h
    | succ n ih =>
      intro m s ⟨i, hi⟩
      show ∃ i, (iter xorshift1024 n (xorshift1024 ⟨s, Int64.ofNat m.val⟩).2).s i ≠ 0
      rw [x1024_step]
      apply ih
      apply Classical.byContradiction
      intro hno
      have hall : ∀ j, (xorshift1024 ⟨s, Int64.ofNat m.val⟩).2.s j = 0 := by
        intro j
        apply Classical.byContradiction
        intro hj
        exact hno ⟨j, by rw [x1024_step] at hj; exact hj⟩
      have : (⟨s, Int64.ofNat m.val⟩ : X1024) = ⟨fun _ => 0, Int64.ofNat m.val⟩ := by
        apply x1024_inj ⟨m, rfl⟩ ⟨m, rfl⟩
        rw [x1024_zero]
        have hp : (xorshift1024 ⟨s, Int64.ofNat m.val⟩).2.p = Int64.ofNat (m + 1 : Fin 16).val := by
          rw [x1024_step]
        generalize (xorshift1024 ⟨s, Int64.ofNat m.val⟩).2 = y at hall hp ⊢
        obtain ⟨ys, yp⟩ := y
        simp only at hall hp
        rw [hp]; congr 1; funext j; exact hall j
      rw [X1024.mk.injEq] at this
      exact hi (congrFun this.1 i)
  intro s hv hd
  have : ∃ i, s.s i ≠ 0 := Classical.byContradiction fun h =>
    hd fun i => Classical.byContradiction fun h' => h ⟨i, h'⟩
  obtain ⟨m, hm⟩ : ∃ n : Fin 16, s.p = Int64.ofNat n.val := by
    obtain ⟨h1, h2⟩ := hv
    rw [Int64.le_iff_toInt_le] at h1
    rw [Int64.lt_iff_toInt_lt] at h2
    change 0 ≤ s.p.toInt at h1
    change s.p.toInt < 16 at h2
    refine ⟨⟨s.p.toInt.toNat, by omega⟩, ?_⟩
    apply Int64.toInt_inj.mp
    rw [Int64.toInt_ofNat_of_lt]
    · exact (Int.toNat_of_nonneg h1).symm
    · show s.p.toInt.toNat < _; omega
  obtain ⟨ss, sp⟩ := s
  simp only at hm this
  subst hm
  obtain ⟨i, hi⟩ := key n m ss this
  exact fun h => hi (h i)

/-- **C10.** `Int63` is never negative, for any generator. -/
theorem C10_int63_nonneg {G : Type} (next : G → UInt64 × G) (g : G) : 0 ≤ (int63 next g).toInt := by
  unfold int63
  generalize (next g).1 = x
  have : (x >>> 1).toNat < 2 ^ 63 := by
    rw [UInt64.toNat_shiftRight]
    have := x.toNat_lt
    simp [Nat.shiftRight_eq_div_pow]; omega
  show 0 ≤ (x >>> 1).toBitVec.toInt
  have e : (x >>> 1).toBitVec.toNat = (x >>> 1).toNat := rfl
  rw [BitVec.toInt_eq_toNat_of_lt (by omega)]
  omega

/-- **C11**, violated for one seed: `rand.Int63` may return 0, and the generator seeded with 0
returns 0 forever. -/
theorem C11_seed_zero_violated : ∀ n, output xorshift128 (seed128 0) n = 0 := by
  have h : ∀ n, iter xorshift128 n ⟨0, 0⟩ = ⟨0, 0⟩ := by
    intro n
    induction n with
    | zero => rfl
    | succ n ih => show iter xorshift128 n (xorshift128 ⟨0, 0⟩).2 = _; rw [x128_zero]; exact ih
  intro n
  have : seed128 0 = ⟨0, 0⟩ := by decide
  rw [output, this, h]; decide

/-- **C11** (partial: all seeds but 0).  Full statement: for every seed `newXORShift128` can draw
(`0 ≤ seed`), the generator is not the all-zero generator.  Proved: for every other seed it is not,
nor does it become so after any number of calls. -/
theorem C11_seed_live_partial (seed : Int64) (h : seed ≠ 0) (n : Nat) :
    iter xorshift128 n (seed128 seed) ≠ ⟨0, 0⟩ := by
  apply (C10_never_dies n).2.1
  intro h0
  have h1 : (xorshift64 seed.toUInt64).1 = 0 := congrArg X128.s0 h0
  have h2 : seed.toUInt64 = 0 := x64_inj (h1.trans x64_zero.symm)
  apply h
  have := congrArg UInt64.toInt64 h2
  simpa using this

theorem draw64_ne {g : UInt64} (h : g ≠ 0) (n : Nat) : draw64 g n ≠ 0 := by
  induction n generalizing g with
  | zero => exact fun h0 => h (x64_inj (h0.trans x64_zero.symm))
  | succ n ih => exact ih fun h0 => h (x64_inj (h0.trans x64_zero.symm))

theorem toUInt64_inj {a b : Int64} (h : a.toUInt64 = b.toUInt64) : a = b := by
  have := congrArg UInt64.toInt64 h
  simpa using this

/-- **C11**, the other generator (partial for the same reason): no word of its state is zero, and it does not die after any number of calls. -/
theorem C11_seed1024_live_partial (seed : Int64) (h : seed ≠ 0) :
    (∀ i, (seed1024 seed).s i ≠ 0) ∧ ∀ n, ¬ X1024.dead (iter xorshift1024 n (seed1024 seed)) := by
  have h0 : seed.toUInt64 ≠ 0 := fun e => h (toUInt64_inj (b := 0) e)
  have h1 : ∀ i, (seed1024 seed).s i ≠ 0 := fun i => draw64_ne h0 i.val
  exact ⟨h1, fun n => (C10_never_dies n).2.2 _ ⟨show (0 : Int64) ≤ 0 by decide, show (0 : Int64) < 16 by decide⟩ fun hd => h1 0 (hd 0)⟩

/-- **C11**, different seeds give different states, of either generator: their first words differ. -/
theorem C11_seeds_differ (a b : Int64) (h : a ≠ b) : (seed128 a).s0 ≠ (seed128 b).s0 ∧ (seed1024 a).s 0 ≠ (seed1024 b).s 0 :=
  ⟨fun e => h (toUInt64_inj (x64_inj e)), fun e => h (toUInt64_inj (x64_inj e))⟩

/-- **C11.** What a dead generator means for sampling: once 64 values are in, every further value
overwrites slot 0 and no other slot ever changes again. -/
theorem C11_dead_sampler {V R : Type} (K : DistKind V R) (W : Int64) (d d' : Dist V R X128) (v : V)
    (hdead : d.rng = seed128 0) (hfull : 64 ≤ d.count.toInt)
    (h : d.insert K xorshift128 W v = some d') :
    d'.rng = seed128 0 ∧ d'.reservoir = d.reservoir.set 0 (K.toR v) := by
  have hz : seed128 0 = ⟨0, 0⟩ := by decide
  rw [hz] at hdead ⊢
  have hn : xorshift128 ⟨0, 0⟩ = (0, ⟨0, 0⟩) := by decide
  have hlt : ¬ d.count < 64 := by
    rw [Int64.lt_iff_toInt_lt]; show ¬ d.count.toInt < 64; omega
  unfold Dist.insert at h
  have red : ∀ (dd : Dist V R X128), (if (d.count != 0) = true then
        (let d1 : Dist V R X128 := if K.lt v d.low then { d with low := v } else d
         if K.lt d1.high v then { d1 with high := v } else d1)
      else { d with low := v, high := v }) = dd →
      dd.count = d.count ∧ dd.reservoir = d.reservoir ∧ dd.rng = d.rng := by
    rintro _ rfl
    split
    · by_cases h1 : K.lt v d.low = true
      · by_cases h2 : K.lt d.high v = true <;> simp [h1, h2]
      · by_cases h2 : K.lt d.high v = true <;> simp [h1, h2]
    · exact ⟨rfl, rfl, rfl⟩
  generalize hdd : (if (d.count != 0) = true then
        (let d1 : Dist V R X128 := if K.lt v d.low then { d with low := v } else d
         if K.lt d1.high v then { d1 with high := v } else d1)
      else { d with low := v, high := v }) = dd at h
  obtain ⟨r1, r2, r3⟩ := red dd hdd
  simp only [r1, r2, r3, hlt, if_false, hdead, hn] at h
  split at h
  · cases h
  · have h0 : (0 : UInt64) % (Dist.window W (d.count + 1)).toUInt64 = 0 := by simp
    rw [h0] at h
    have h := (Option.some.inj h).symm
    subst h
    exact ⟨rfl, rfl⟩

/-- The hypotheses are met: a live seed, and a valid non-zero `xorshift1024`. -/
example : (7 : Int64) ≠ 0 ∧ X1024.valid (seed1024 7) ∧ ¬ X1024.dead (seed1024 7) ∧
    (output xorshift128 (seed128 7) 0 ≠ output xorshift128 (seed128 7) 1) := by
  refine ⟨by decide, ⟨by decide, by decide⟩, fun h => absurd (h 0) (by decide), by decide⟩

end Monkit
