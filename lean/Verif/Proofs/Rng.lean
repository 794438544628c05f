import Verif.Model.Rng

namespace Monkit.Rng

/-- `x ^ (x >> k)` is injective for `k > 0`. -/
theorem bv_xor_shr_inj {w k : Nat} (hk : 0 < k) {x y : BitVec w}
    (h : x ^^^ (x >>> k) = y ^^^ (y >>> k)) : x = y := by
  have key : ∀ n i, w ≤ i + n → x.getLsbD i = y.getLsbD i := by
    intro n
    induction n with
    | zero => intro i hi; simp only [Nat.add_zero] at hi; rw [BitVec.getLsbD_of_ge _ _ hi, BitVec.getLsbD_of_ge _ _ hi]
    | succ n ih =>
      intro i hi
      have h1 := ih (k + i) (by omega)
      have h2 := congrArg (fun z => z.getLsbD i) h
      simp only [BitVec.getLsbD_xor, BitVec.getLsbD_ushiftRight, h1] at h2
      simpa using h2
  apply BitVec.eq_of_getLsbD_eq
  intro i hi
  exact key w i (by omega)

/-- `x ^ (x << k)` is injective for `k > 0`. -/
theorem bv_xor_shl_inj {w k : Nat} (hk : 0 < k) {x y : BitVec w}
    (h : x ^^^ (x <<< k) = y ^^^ (y <<< k)) : x = y := by
  have key : ∀ i, x.getLsbD i = y.getLsbD i := by
    intro i
    induction i using Nat.strongRecOn with
    | _ i ih =>
      have h2 := congrArg (fun z => z.getLsbD i) h
      simp only [BitVec.getLsbD_xor, BitVec.getLsbD_shiftLeft] at h2
      by_cases hik : i < k
      · simpa [hik] using h2
      · rw [ih (i - k) (by omega)] at h2
        simpa using h2
  apply BitVec.eq_of_getLsbD_eq
  intro i _
  exact key i

theorem shr_inj {x y k : UInt64} (hk : 0 < k) (hk' : k < 64)
    (h : x ^^^ (x >>> k) = y ^^^ (y >>> k)) : x = y := by
  have h := congrArg UInt64.toBitVec h
  rw [UInt64.toBitVec_xor, UInt64.toBitVec_xor, UInt64.toBitVec_shiftRight,
    UInt64.toBitVec_shiftRight] at h
  have e : ∀ z : BitVec 64, z >>> (k.toBitVec % 64) = z >>> k.toNat := by
    intro z
    rw [BitVec.ushiftRight_eq']
    congr 1
    have : k.toNat < 64 := hk'
    show (k.toBitVec % 64).toNat = _
    rw [BitVec.toNat_umod]
    simp
    omega
  rw [e, e] at h
  exact UInt64.toBitVec_inj.mp (bv_xor_shr_inj (k := k.toNat) hk h)

theorem shl_inj {x y k : UInt64} (hk : 0 < k) (hk' : k < 64)
    (h : x ^^^ (x <<< k) = y ^^^ (y <<< k)) : x = y := by
  have h := congrArg UInt64.toBitVec h
  rw [UInt64.toBitVec_xor, UInt64.toBitVec_xor, UInt64.toBitVec_shiftLeft,
    UInt64.toBitVec_shiftLeft] at h
  have e : ∀ z : BitVec 64, z <<< (k.toBitVec % 64) = z <<< k.toNat := by
    intro z
    rw [BitVec.shiftLeft_eq']
    congr 1
    have : k.toNat < 64 := hk'
    show (k.toBitVec % 64).toNat = _
    rw [BitVec.toNat_umod]
    simp
    omega
  rw [e, e] at h
  exact UInt64.toBitVec_inj.mp (bv_xor_shl_inj (k := k.toNat) hk h)

theorem mul_inj {m i x y : UInt64} (hmi : m * i = 1) (h : x * m = y * m) : x = y := by
  have := congrArg (· * i) h
  simpa [UInt64.mul_assoc, hmi] using this

theorem lcg_step_inj {x y : UInt64} (h : a * x + c = a * y + c) : x = y := by
  have h : a * x = a * y := by
    have := congrArg (· - c) h
    simpa using this
  rw [UInt64.mul_comm a x, UInt64.mul_comm a y] at h
  exact mul_inj (i := 13877824140714322085) (by decide) h

theorem xor_left_inj {z x y : UInt64} (h : z ^^^ x = z ^^^ y) : x = y := by
  have := congrArg (z ^^^ ·) h
  simpa [← UInt64.xor_assoc] using this

theorem x64_inj {x y : UInt64} (h : (xorshift64 x).2 = (xorshift64 y).2) : x = y := by
  unfold xorshift64 at h
  have h1 := mul_inj (i := 6415128727920758069) (by decide) h
  exact shr_inj (by decide) (by decide) (shl_inj (by decide) (by decide)
    (shr_inj (by decide) (by decide) h1))

theorem x128_inj {s t : X128} (h : (xorshift128 s).2 = (xorshift128 t).2) : s = t := by
  obtain ⟨x, y⟩ := s
  obtain ⟨x', y'⟩ := t
  unfold xorshift128 at h
  simp only [X128.mk.injEq] at h
  obtain ⟨rfl, h⟩ := h
  have r : ∀ u v w z : UInt64, u ^^^ v ^^^ w ^^^ z = v ^^^ (z ^^^ (u ^^^ w)) := by
    intro u v w z
    rw [UInt64.xor_comm u v, UInt64.xor_assoc v, UInt64.xor_assoc v, UInt64.xor_comm z]
  rw [r, r] at h
  have h := xor_left_inj (xor_left_inj h)
  have h := shl_inj (by decide) (by decide) (shr_inj (by decide) (by decide) h)
  rw [h]

theorem x64_zero : (xorshift64 0).2 = 0 := by decide

theorem x128_zero : (xorshift128 ⟨0, 0⟩).2 = ⟨0, 0⟩ := by decide

theorem and15_cases (p : Int64) : ∃ n : Fin 16, p &&& 15 = Int64.ofNat n.val := by
  have hlt : (p &&& 15).toBitVec.toNat < 16 := by
    show (p.toBitVec &&& 15).toNat < 16
    rw [BitVec.toNat_and]
    exact Nat.lt_of_le_of_lt Nat.and_le_right (by decide)
  refine ⟨⟨_, hlt⟩, ?_⟩
  apply Int64.toBitVec_inj.mp
  show _ = BitVec.ofNat 64 _
  simp

theorem idx_ofNat : ∀ n : Fin 16, idx (Int64.ofNat n.val &&& 15) = n := by decide

theorem idx_ofNat' : ∀ n : Fin 16, idx (Int64.ofNat n.val) = n := by decide

theorem succ_ofNat : ∀ n : Fin 16,
    (((Int64.ofNat n.val &&& 15) + 1) &&& 15) = Int64.ofNat (n + 1 : Fin 16).val := by decide

theorem ofNat_inj : ∀ n m : Fin 16, Int64.ofNat n.val = Int64.ofNat m.val → n = m := by decide

/-- The step on normalised states. -/
theorem x1024_step (s : Fin 16 → UInt64) (n : Fin 16) :
    (xorshift1024 ⟨s, Int64.ofNat n.val⟩).2 =
      ⟨fun i => if i = n + 1 then
          (s (n + 1) ^^^ (s (n + 1) <<< 31)) ^^^ s n ^^^
            ((s (n + 1) ^^^ (s (n + 1) <<< 31)) >>> 1) ^^^ (s n >>> 30)
        else s i, Int64.ofNat (n + 1 : Fin 16).val⟩ := by
  simp only [xorshift1024, succ_ofNat, idx_ofNat, idx_ofNat']

theorem succ_inj : ∀ n m : Fin 16, n + 1 = m + 1 → n = m := by decide

theorem ne_succ : ∀ n : Fin 16, n ≠ n + 1 := by decide

theorem x1024_inj {s t : X1024} (hs : ∃ n : Fin 16, s.p = Int64.ofNat n.val)
    (ht : ∃ n : Fin 16, t.p = Int64.ofNat n.val)
    (h : (xorshift1024 s).2 = (xorshift1024 t).2) : s = t := by
  obtain ⟨s, p⟩ := s
  obtain ⟨t, q⟩ := t
  obtain ⟨n, hn⟩ := hs
  obtain ⟨m, hm⟩ := ht
  simp only at hn hm
  subst hn; subst hm
  rw [x1024_step, x1024_step, X1024.mk.injEq] at h
  obtain ⟨h1, h2⟩ := h
  have hnm : n = m := succ_inj _ _ (ofNat_inj _ _ h2)
  subst hnm
  have hne : ∀ i, i ≠ n + 1 → s i = t i := by
    intro i hi
    have := congrFun h1 i
    simpa [hi] using this
  have hn := hne n (ne_succ n)
  have heq := congrFun h1 (n + 1)
  simp only [if_true, hn] at heq
  have r : ∀ u v w z : UInt64, u ^^^ v ^^^ w ^^^ z = v ^^^ (z ^^^ (u ^^^ w)) := by
    intro u v w z
    rw [UInt64.xor_comm u v, UInt64.xor_assoc v, UInt64.xor_assoc v, UInt64.xor_comm z]
  rw [r, r] at heq
  have heq := xor_left_inj (xor_left_inj heq)
  have heq := shl_inj (by decide) (by decide) (shr_inj (by decide) (by decide) heq)
  congr 1
  funext i
  by_cases hi : i = n + 1
  · rw [hi]; exact heq
  · exact hne i hi

theorem x1024_norm (s : X1024) : ∃ n : Fin 16, (xorshift1024 s).2.p = Int64.ofNat n.val :=
  and15_cases _

theorem x1024_zero (n : Fin 16) : (xorshift1024 ⟨fun _ => 0, Int64.ofNat n.val⟩).2 =
    ⟨fun _ => 0, Int64.ofNat (n + 1 : Fin 16).val⟩ := by
  rw [x1024_step]
  congr 1
  funext i
  split <;> rfl

end Monkit.Rng
