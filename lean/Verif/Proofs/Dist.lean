import Verif.Spec.Dist
import Verif.Proofs.Float
import Mathlib.Data.List.Perm.Basic
import Mathlib.Tactic.IntervalCases

namespace Monkit.Dist
open Monkit.Spec Go.Float
variable {V R G : Type}

theorem inserted_snoc (ops : List (Op V)) (o : Op V) :
    inserted (ops ++ [o]) = (match o with
      | .insert v _ => inserted ops ++ [v]
      | .reset => []
      | _ => inserted ops) := by
  cases o <;> simp [inserted]

/-- Running minimum, as the code computes it. -/
def lowOf (K : DistKind V R) : List V → V
  | [] => K.zero
  | v :: vs => vs.foldl (fun a x => if K.lt x a then x else a) v

/-- Running maximum, as the code computes it. -/
def highOf (K : DistKind V R) : List V → V
  | [] => K.zero
  | v :: vs => vs.foldl (fun a x => if K.lt a x then x else a) v

/-- The number of slots in use. -/
def used (vs : List V) : Nat := min vs.length 64

structure Inv (K : DistKind V R) (vs : List V) (d : Dist V R G) : Prop where
  len : d.reservoir.length = 64
  count : d.count.toInt = vs.length
  low : d.low = lowOf K vs
  high : d.high = highOf K vs
  recent : d.recent = vs.getLast?.getD K.zero
  sum : d.sum = vs.foldl K.add K.zero
  mem : ∀ x ∈ d.reservoir.take (used vs), ∃ v ∈ vs, x = K.toR v
  perm : vs.length ≤ 64 → (d.reservoir.take vs.length).Perm (vs.map K.toR)
  srt : d.sorted = true → (d.reservoir.take (used vs)).Pairwise (fun a b => K.rle a b)

/-- The order used for sorting is total and transitive. -/
structure Ordered (K : DistKind V R) : Prop where
  trans : ∀ a b c, K.rle a b → K.rle b c → K.rle a c
  total : ∀ a b, (K.rle a b || K.rle b a)

theorem lowOf_snoc (K : DistKind V R) {vs : List V} (h : vs ≠ []) (v : V) :
    lowOf K (vs ++ [v]) = if K.lt v (lowOf K vs) then v else lowOf K vs := by
  cases vs with
  | nil => exact absurd rfl h
  | cons a as => simp only [lowOf, List.cons_append, List.foldl_append, List.foldl_cons, List.foldl_nil]; rfl

theorem highOf_snoc (K : DistKind V R) {vs : List V} (h : vs ≠ []) (v : V) :
    highOf K (vs ++ [v]) = if K.lt (highOf K vs) v then v else highOf K vs := by
  cases vs with
  | nil => exact absurd rfl h
  | cons a as => simp only [highOf, List.cons_append, List.foldl_append, List.foldl_cons, List.foldl_nil]; rfl

theorem inv_new (K : DistKind V R) (key : Key) (g : G) : Inv K [] (new K key g) := by
  refine ⟨by simp [new, reservoirSize], rfl, rfl, rfl, rfl, rfl, ?_, ?_, ?_⟩
  · simp [used]
  · simp
  · simp [used]

theorem inv_reset (K : DistKind V R) {vs : List V} {d : Dist V R G} (h : Inv K vs d) :
    Inv K [] (d.reset K) := by
  refine ⟨h.len, rfl, rfl, rfl, rfl, rfl, ?_, ?_, ?_⟩ <;> simp [used]

theorem rlen_eq {K : DistKind V R} {vs : List V} {d : Dist V R G} (h : Inv K vs d) :
    d.rlen = (used vs : Int) := by
  unfold rlen used
  rw [h.count]; split <;> omega

theorem inv_sort {K : DistKind V R} (hK : Ordered K) {vs : List V} {d : Dist V R G}
    (h : Inv K vs d) : Inv K vs (d.sortReservoir K) ∧ (d.sortReservoir K).sorted = true := by
  unfold sortReservoir
  rw [rlen_eq h]
  cases hs : d.sorted with
  | true => exact ⟨by simpa [hs] using h, by simp [hs]⟩
  | false =>
    simp only [Int.toNat_natCast, Bool.false_eq_true, if_false, and_true]
    have hu : used vs ≤ 64 := Nat.min_le_right _ _
    have hperm : (Go.sortBy K.rle (d.reservoir.take (used vs))).Perm (d.reservoir.take (used vs)) :=
      Go.sortBy_perm _ _
    have hl : (Go.sortBy K.rle (d.reservoir.take (used vs))).length = used vs := by
      rw [hperm.length_eq, List.length_take, h.len]; omega
    have ht : ∀ l : List R, ((Go.sortBy K.rle (d.reservoir.take (used vs))) ++ l).take (used vs) =
        Go.sortBy K.rle (d.reservoir.take (used vs)) := by
      intro l; rw [List.take_append_of_le_length (by omega), List.take_of_length_le (by omega)]
    refine ⟨?_, h.count, h.low, h.high, h.recent, h.sum, ?_, ?_, ?_⟩
    · simp only [List.length_append, hl, List.length_drop, h.len]; omega
    · intro x hx
      simp only [ht] at hx
      exact h.mem x (hperm.mem_iff.mp hx)
    · intro hn
      have hu' : used vs = vs.length := by unfold used; omega
      have := ht (d.reservoir.drop (used vs))
      rw [hu'] at this hperm
      simp only [hu', this]
      exact hperm.trans (h.perm hn)
    · intro _
      simp only [ht]
      exact Go.sortBy_sorted hK.trans hK.total _

/-- Replacing one slot in use by a new value keeps the slots in use real observations. -/
theorem mem_take_set {l : List R} {i n : Nat} {x y : R} (h : y ∈ (l.set i x).take n) :
    y = x ∨ y ∈ l.take n := by
  rw [List.take_set] at h
  exact (List.mem_or_eq_of_mem_set h).symm

theorem toUInt64_ne_zero {w : Int64} (h : 0 < w.toInt) : w.toUInt64 ≠ 0 := by
  intro hc
  have : w = 0 := by
    apply Int64.toBitVec_inj.mp
    have := congrArg UInt64.toBitVec hc
    simpa using this
  subst this
  simp at h

theorem window_pos {W c : Int64} (h : 0 < c.toInt) : 0 < (window W c).toInt := by
  unfold window
  split
  · next hw =>
    simp only [Bool.and_eq_true, decide_eq_true_eq] at hw
    have := hw.1
    rw [Int64.lt_iff_toInt_lt] at this
    simpa using this
  · exact h

theorem inv_insert {K : DistKind V R} {next : G → UInt64 × G} {W : Int64} {vs : List V}
    {d : Dist V R G} (h : Inv K vs d) (v : V) (hb : vs.length + 1 < 2 ^ 63) :
    ∃ d', d.insert K next W v = some d' ∧ Inv K (vs ++ [v]) d' := by
  have hc := h.count
  have hc1 : (d.count + 1).toInt = (vs.length : Int) + 1 := by
    rw [Int64.toInt_add, hc]
    have : (1 : Int64).toInt = 1 := rfl
    rw [this, Int.bmod_eq_of_le] <;> omega
  have h64 : (64 : Int64).toInt = 64 := rfl
  have hne : (d.count != 0) = true ↔ vs ≠ [] := by
    rw [bne_iff_ne, ne_eq, ne_eq, not_iff_not]
    constructor
    · intro hh
      rw [hh] at hc
      have : (0 : Int64).toInt = 0 := rfl
      rw [this] at hc
      exact List.length_eq_zero_iff.mp (by omega)
    · rintro rfl
      apply Int64.toInt_inj.mp
      simpa using hc
  -- the aggregates
  let dl : Dist V R G := if d.count != 0 then
      let d := if K.lt v d.low then { d with low := v } else d
      if K.lt d.high v then { d with high := v } else d
    else { d with low := v, high := v }
  have hdl : dl = { d with low := lowOf K (vs ++ [v]), high := highOf K (vs ++ [v]) } := by
    by_cases hv : vs = []
    · have : (d.count != 0) = false := by
        cases hx : (d.count != 0)
        · rfl
        · exact absurd hv (hne.mp hx)
      simp only [dl, this]
      subst hv
      rfl
    · simp only [dl, hne.mpr hv, if_true]
      rw [lowOf_snoc K hv, highOf_snoc K hv, ← h.low, ← h.high]
      by_cases h1 : K.lt v d.low = true <;> by_cases h2 : K.lt d.high v = true <;> simp [h1, h2]
  have hins : d.insert K next W v =
      (let d0 : Dist V R G := { d with
          low := lowOf K (vs ++ [v]), high := highOf K (vs ++ [v]), recent := v,
          sum := K.add d.sum v, count := d.count + 1 }
       if d.count < 64 then
        if 0 ≤ d.count then
          some { d0 with
            reservoir := d.reservoir.set d.count.toInt.toNat (K.toR v), sorted := false }
        else none
       else
        let w := (window W (d.count + 1)).toUInt64
        if w = 0 then none
        else
          let j := (next d.rng).1 % w
          if j < 64 then
            some { d0 with rng := (next d.rng).2,
                           reservoir := d.reservoir.set j.toNat (K.toR v), sorted := false }
          else some { d0 with rng := (next d.rng).2 }) := by
    have : d.insert K next W v = (fun dl : Dist V R G =>
        let d := { dl with recent := v, sum := K.add dl.sum v }
        let index : Int64 := d.count
        let d := { d with count := d.count + 1 }
        if index < 64 then
          if 0 ≤ index then
            some { d with reservoir := d.reservoir.set index.toInt.toNat (K.toR v), sorted := false }
          else none
        else
          let w := (window W d.count).toUInt64
          if w = 0 then none
          else
            let (r, g) := next d.rng
            let d := { d with rng := g }
            let j := r % w
            if j < 64 then
              some { d with reservoir := d.reservoir.set j.toNat (K.toR v), sorted := false }
            else some d) dl := rfl
    rw [this, hdl]
  rw [hins]
  have hrecent : (vs ++ [v]).getLast?.getD K.zero = v := by simp
  have hsum : K.add d.sum v = (vs ++ [v]).foldl K.add K.zero := by simp [h.sum]
  have hcount : (d.count + 1).toInt = ((vs ++ [v]).length : Nat) := by
    rw [hc1]; simp
  have hge : 0 ≤ d.count := by
    rw [Int64.le_iff_toInt_le, hc]
    have : (0 : Int64).toInt = 0 := rfl
    rw [this]; omega
  by_cases hlt : d.count < 64
  · rw [Int64.lt_iff_toInt_lt, hc, h64] at hlt
    have hlt' : d.count < 64 := by rw [Int64.lt_iff_toInt_lt, hc, h64]; exact hlt
    simp only [hlt', if_true, hge]
    refine ⟨_, rfl, ?_⟩
    have hu : used vs = vs.length := by unfold used; omega
    have hu1 : used (vs ++ [v]) = vs.length + 1 := by unfold used; simp; omega
    have hn : d.count.toInt.toNat = vs.length := by omega
    have htake : (d.reservoir.set vs.length (K.toR v)).take (vs.length + 1) =
        d.reservoir.take vs.length ++ [K.toR v] := by
      rw [List.take_add_one, List.take_set_of_le (Nat.le_refl _)]
      have : vs.length < d.reservoir.length := by rw [h.len]; omega
      simp [List.getElem?_set_self this]
    refine ⟨by simp [h.len], hcount, rfl, rfl, hrecent.symm, hsum, ?_, ?_, by simp⟩
    · intro x hx
      simp only [hn, hu1, htake] at hx
      rw [← hu] at hx
      rcases List.mem_append.mp hx with hx | hx
      · obtain ⟨y, hy, rfl⟩ := h.mem x hx
        exact ⟨y, by simp [hy], rfl⟩
      · exact ⟨v, by simp, by simpa using hx⟩
    · intro _
      simp only [hn, List.length_append, List.length_singleton, htake, List.map_append]
      exact List.Perm.append (h.perm (by omega)) (by simp)
  · have hge64 : (64 : Int) ≤ vs.length := by
      rw [Int64.lt_iff_toInt_lt, hc, h64] at hlt; omega
    simp only [hlt, if_false]
    have hw : (window W (d.count + 1)).toUInt64 ≠ 0 :=
      toUInt64_ne_zero (window_pos (by rw [hc1]; omega))
    simp only [hw, if_false]
    have hu : used vs = 64 := by unfold used; omega
    have hu1 : used (vs ++ [v]) = 64 := by unfold used; simp; omega
    split
    · refine ⟨_, rfl, ?_⟩
      refine ⟨by simp [h.len], hcount, rfl, rfl, hrecent.symm, hsum, ?_, ?_, by simp⟩
      · intro x hx
        rw [hu1] at hx
        rcases mem_take_set hx with rfl | hx
        · exact ⟨v, by simp, rfl⟩
        · obtain ⟨y, hy, rfl⟩ := h.mem x (by rw [hu]; exact hx)
          exact ⟨y, by simp [hy], rfl⟩
      · intro hh; simp at hh; omega
    · refine ⟨_, rfl, ?_⟩
      refine ⟨h.len, hcount, rfl, rfl, hrecent.symm, hsum, ?_, ?_, ?_⟩
      · intro x hx
        rw [hu1, ← hu] at hx
        obtain ⟨y, hy, rfl⟩ := h.mem x hx
        exact ⟨y, by simp [hy], rfl⟩
      · intro hh; simp at hh; omega
      · intro hs
        rw [hu1, ← hu]; exact h.srt hs

/-- Rounding `quantile * n` for a float64 quantile strictly between 0 and 1 stays in `[0, n)`. -/
theorem idx_bounds {q : ℚ} (hq : Rep 53 q) (h0 : 0 < q) (h1 : q < 1) {n : ℕ} (hn : 1 ≤ n)
    (hn' : n < 2 ^ 53) :
    0 ≤ rn 53 (q * n) ∧ rn 53 (q * n) < n ∧ 0 ≤ trunc (rn 53 (q * n)) ∧
      trunc (rn 53 (q * n)) < n := by
  have hnq : (0 : ℚ) < n := by exact_mod_cast hn
  have a : 0 ≤ rn 53 (q * n) := rn_nonneg (by norm_num) (by positivity)
  have b : rn 53 (q * n) < n :=
    rn_shrink (by norm_num) (rep_nat hn') hnq
      (mul_le_mul_of_nonneg_right (rep_lt_one hq h1) hnq.le)
  refine ⟨a, b, ?_, ?_⟩
  · simp only [trunc, a, if_true]; exact Int.floor_nonneg.mpr a
  · simp only [trunc, a, if_true]
    exact Int.floor_lt.mpr (by push_cast; exact b)

/-- What `Query` returns, when the distribution holds at least one value. -/
inductive QueryResult (K : DistKind V R) (res : List R) (q : ℚ) (v : V) : Prop where
  | single (x : R) (h : res = [x]) (e : v = K.out x)
  | first (x : R) (hl : 2 ≤ res.length) (h : res[0]? = some x) (hq : q ≤ 0) (e : v = K.out x)
  | last (x : R) (hl : 2 ≤ res.length) (h : res[res.length - 1]? = some x) (hq : 1 ≤ q)
      (e : v = K.out x)
  | between (i : Nat) (diff : ℚ) (a b : R) (hl : 2 ≤ res.length) (h1 : 0 < q) (h2 : q < 1)
      (hi : i + 1 < res.length) (ha : res[i]? = some a) (hb : res[i + 1]? = some b)
      (hdi : (i : ℤ) = trunc (rn 53 (q * ((res.length - 1 : ℕ) : ℚ))))
      (hd : diff = rn 53 (q * ((res.length - 1 : ℕ) : ℚ)) - i)
      (d0 : 0 ≤ diff) (d1 : diff < 1) (hr : Rep 53 diff) (e : v = K.interp a b diff)

theorem query_spec {K : DistKind V R} (hK : Ordered K) {vs : List V} {d : Dist V R G}
    (h : Inv K vs d) (q : ℚ) (hq : Rep 53 q) :
    ∃ d' v, d.query K q = some (d', v) ∧ Inv K vs d' ∧
      (2 ≤ vs.length → d'.sorted = true) ∧
      (1 ≤ vs.length → QueryResult K (d'.reservoir.take (used vs)) q v) := by
  unfold query
  have hl : d.rlen = (used vs : Int) := rlen_eq h
  have hu : used vs ≤ 64 := Nat.min_le_right _ _
  by_cases h2 : d.rlen < 2
  · simp only [h2, if_true]
    have hr : d.reservoir ≠ [] := by
      intro hh; have := h.len; rw [hh] at this; simp at this
    obtain ⟨x, xs, hx⟩ := List.exists_cons_of_ne_nil hr
    rw [hx]
    simp only [List.getElem?_cons_zero, Option.map_some]
    refine ⟨d, _, rfl, h, ?_, ?_⟩
    · intro hh; unfold used at hl; omega
    · intro hh
      have : used vs = 1 := by unfold used at hl ⊢; omega
      exact .single x (by rw [hx, this]; simp) rfl
  · simp only [h2, if_false]
    have hv2 : 2 ≤ vs.length := by unfold used at hl; omega
    have hu2 : 2 ≤ used vs := by omega
    obtain ⟨hi, hs⟩ := inv_sort hK h
    have hlen : ((d.sortReservoir K).reservoir.take (used vs)).length = used vs := by
      rw [List.length_take, hi.len]; omega
    rw [hl]
    simp only [Int.toNat_natCast]
    split
    · next hq0 =>
      have hlt : 0 < ((d.sortReservoir K).reservoir.take (used vs)).length := by omega
      rw [List.getElem?_eq_getElem hlt]
      simp only [Option.map_some]
      exact ⟨_, _, rfl, hi, fun _ => hs, fun _ =>
        .first _ (by omega) (List.getElem?_eq_getElem hlt) hq0 rfl⟩
    · next hq0 =>
      split
      · next hq1 =>
        have hlt : used vs - 1 < ((d.sortReservoir K).reservoir.take (used vs)).length := by omega
        rw [List.getElem?_eq_getElem hlt]
        simp only [Option.map_some]
        refine ⟨_, _, rfl, hi, fun _ => hs, fun _ => ?_⟩
        refine .last _ (by omega) ?_ hq1 rfl
        rw [hlen, List.getElem?_eq_getElem hlt]
      · next hq1 =>
        push Not at hq0 hq1
        have hcast : (((used vs : Int) - 1 : Int) : ℚ) = ((used vs - 1 : ℕ) : ℚ) := by
          rw [Nat.cast_sub (by omega)]; push_cast; rfl
        rw [hcast]
        obtain ⟨a, b, c, e⟩ := idx_bounds hq hq0 hq1 (n := used vs - 1) (by omega) (by omega)
        obtain ⟨i, hi'⟩ := Int.eq_ofNat_of_zero_le c
        rw [hi'] at e ⊢
        have hilt : i + 1 < used vs := by omega
        simp only [Int.toNat_natCast]
        rw [if_neg (by omega)]
        rw [List.getElem?_eq_getElem (by omega), List.getElem?_eq_getElem (by omega)]
        have hfl : ⌊rn 53 (q * ((used vs - 1 : ℕ) : ℚ))⌋ = (i : ℤ) := by
          have := hi'; unfold trunc at this; simpa [a] using this
        have hrep : Rep 53 (rn 53 (q * ((used vs - 1 : ℕ) : ℚ)) - ((i : ℤ) : ℚ)) := by
          rw [← hfl]
          exact rep_fract (rn_rep (by norm_num) _) a
        have hdiff := rn_of_rep (by norm_num) hrep
        refine ⟨_, _, rfl, hi, fun _ => hs, fun _ => ?_⟩
        refine .between i _ _ _ (by omega) hq0 hq1 (by omega)
          (List.getElem?_eq_getElem (by omega)) (List.getElem?_eq_getElem (by omega)) ?_ ?_ ?_ ?_ ?_ rfl
        · rw [hlen]; exact hi'.symm
        · rw [hdiff, hlen]; push_cast; rfl
        · rw [hdiff, ← hfl]; have := Int.floor_le (rn 53 (q * ((used vs - 1 : ℕ) : ℚ))); linarith
        · rw [hdiff, ← hfl]
          have := Int.lt_floor_add_one (rn 53 (q * ((used vs - 1 : ℕ) : ℚ))); linarith
        · rw [hdiff]; exact hrep

end Monkit.Dist

namespace Monkit.Dist
open Monkit.Spec Go.Float
variable {V R G : Type}

theorem rep_lit (q : ℚ) : Rep 53 (lit q) := rn_rep (by norm_num) q

theorem query_key {K : DistKind V R} {d d' : Dist V R G} {q : ℚ} {v : V}
    (h : d.query K q = some (d', v)) : d'.key = d.key ∧ (d' = d ∨ d' = d.sortReservoir K) := by
  unfold query at h
  have hk : (d.sortReservoir K).key = d.key := by unfold sortReservoir; split <;> rfl
  split at h
  · simp only [Option.map_eq_some_iff, Prod.mk.injEq] at h
    obtain ⟨_, _, rfl, _⟩ := h; exact ⟨rfl, .inl rfl⟩
  · split at h
    · simp only [Option.map_eq_some_iff, Prod.mk.injEq] at h
      obtain ⟨_, _, rfl, _⟩ := h; exact ⟨hk, .inr rfl⟩
    · split at h
      · simp only [Option.map_eq_some_iff, Prod.mk.injEq] at h
        obtain ⟨_, _, rfl, _⟩ := h; exact ⟨hk, .inr rfl⟩
      · simp only at h
        split at h
        · cases h
        · split at h
          · simp only [Option.some.injEq, Prod.mk.injEq] at h
            obtain ⟨rfl, _⟩ := h; exact ⟨hk, .inr rfl⟩
          · cases h

theorem sort_sort (K : DistKind V R) (d : Dist V R G) :
    (d.sortReservoir K).sortReservoir K = d.sortReservoir K := by
  unfold sortReservoir
  cases h : d.sorted <;> simp [h]

theorem sort_rlen (K : DistKind V R) (d : Dist V R G) : (d.sortReservoir K).rlen = d.rlen := by
  unfold sortReservoir rlen
  cases h : d.sorted <;> simp

/-- Sorting does not change what `Query` returns. -/
theorem query_sort (K : DistKind V R) (d : Dist V R G) (h : 2 ≤ d.rlen) (q : ℚ) :
    (d.sortReservoir K).query K q = d.query K q := by
  have h' : ¬ d.rlen < 2 := by omega
  unfold query
  rw [sort_rlen, sort_sort]
  simp only [h', if_false]

/-- A query changes no later query's value. -/
theorem query_stable {K : DistKind V R} {d d' : Dist V R G} {q : ℚ} {v : V}
    (h : d.query K q = some (d', v)) (q' : ℚ) :
    (d'.query K q').map (·.2) = (d.query K q').map (·.2) := by
  by_cases h2 : d.rlen < 2
  · have : d' = d := by
      unfold query at h
      simp only [h2, if_true, Option.map_eq_some_iff, Prod.mk.injEq] at h
      obtain ⟨_, _, rfl, _⟩ := h; rfl
    rw [this]
  · rcases (query_key h).2 with rfl | rfl
    · rfl
    · rw [query_sort K d (by omega)]

/-- `Stats` succeeds; its queries are answered like queries made directly. -/
theorem stats_spec {K : DistKind V R} (hK : Ordered K) {vs : List V} {d : Dist V R G}
    (h : Inv K vs d) : ∃ d' r, d.stats K = some (d', r) ∧ Inv K vs d' ∧
      (vs = [] → r = [(d.key, b!"count", .int d.count)]) ∧
      (vs ≠ [] → ∃ q0 q10 q50 q90 q99 q1 ravg,
        (d.query K 0).map (·.2) = some q0 ∧ (d.query K (lit (1/10))).map (·.2) = some q10 ∧
        (d.query K (lit (1/2))).map (·.2) = some q50 ∧
        (d.query K (lit (9/10))).map (·.2) = some q90 ∧
        (d.query K (lit (99/100))).map (·.2) = some q99 ∧ (d.query K 1).map (·.2) = some q1 ∧
        r = [(d.key, b!"count", .int d.count), (d.key, b!"sum", K.toF d.sum),
          (d.key, b!"min", K.toF d.low), (d.key, b!"max", K.toF d.high),
          (d.key, b!"rmin", K.toF q0), (d.key, b!"ravg", K.toF ravg), (d.key, b!"r10", K.toF q10),
          (d.key, b!"r50", K.toF q50), (d.key, b!"r90", K.toF q90), (d.key, b!"r99", K.toF q99),
          (d.key, b!"rmax", K.toF q1), (d.key, b!"recent", K.toF d.recent)]) := by
  have h0 : (0 : Int64).toInt = 0 := rfl
  have hc := h.count
  by_cases hv : vs = []
  · subst hv
    have hn : ¬ d.count > 0 := by
      show ¬ (0 < d.count)
      rw [Int64.lt_iff_toInt_lt, hc, h0]; simp
    refine ⟨d, _, by rw [stats, if_neg hn], h, fun _ => rfl, fun hh => absurd rfl hh⟩
  · have hlen : 0 < vs.length := List.length_pos_iff.mpr hv
    have hp : d.count > 0 := by
      show 0 < d.count
      rw [Int64.lt_iff_toInt_lt, hc, h0]; omega
    have l0 : lit 0 = 0 := rn_zero 53
    have l1 : lit 1 = 1 := rn_of_rep (by norm_num) (by exact_mod_cast rep_nat (p := 53) (n := 1) (by norm_num))
    obtain ⟨d1, v0, e1, i1, _⟩ := query_spec hK h (lit 0) (rep_lit _)
    obtain ⟨d2, v10, e2, i2, _⟩ := query_spec hK i1 (lit (1/10)) (rep_lit _)
    obtain ⟨d3, v50, e3, i3, _⟩ := query_spec hK i2 (lit (1/2)) (rep_lit _)
    obtain ⟨d4, v90, e4, i4, _⟩ := query_spec hK i3 (lit (9/10)) (rep_lit _)
    obtain ⟨d5, v99, e5, i5, _⟩ := query_spec hK i4 (lit (99/100)) (rep_lit _)
    obtain ⟨d6, v1, e6, i6, _⟩ := query_spec hK i5 (lit 1) (rep_lit _)
    have s1 := query_stable e1
    have s2 := fun q => (query_stable e2 q).trans (s1 q)
    have s3 := fun q => (query_stable e3 q).trans (s2 q)
    have s4 := fun q => (query_stable e4 q).trans (s3 q)
    have s5 := fun q => (query_stable e5 q).trans (s4 q)
    have hkey : d6.key = d.key := by
      rw [(query_key e6).1, (query_key e5).1, (query_key e4).1, (query_key e3).1, (query_key e2).1,
        (query_key e1).1]
    refine ⟨d6, _, ?_, i6, fun hh => absurd hh hv, fun _ =>
      ⟨v0, v10, v50, v90, v99, v1, d1.reservoirAverage K, ?_, ?_, ?_, ?_, ?_, ?_, rfl⟩⟩
    · rw [stats, if_pos hp, e1]
      simp only [Option.bind_eq_bind, Option.bind_some]
      rw [e2]; simp only [Option.bind_some]
      rw [e3]; simp only [Option.bind_some]
      rw [e4]; simp only [Option.bind_some]
      rw [e5]; simp only [Option.bind_some]
      rw [e6]; simp only [Option.bind_some]
      have hcnt : d6.count = d.count := by
        apply Int64.toInt_inj.mp; rw [i6.count, h.count]
      rw [hkey, hcnt, i6.sum, i6.low, i6.high, i6.recent, h.sum, h.low, h.high, h.recent]
    · rw [← l0, e1]; rfl
    · rw [← s1, e2]; rfl
    · rw [← s2, e3]; rfl
    · rw [← s3, e4]; rfl
    · rw [← s4, e5]; rfl
    · rw [← l1, ← s5, e6]; rfl

theorem inv_run_from {K : DistKind V R} (hK : Ordered K) {next : G → UInt64 × G}
    (pre ops : List (Op V)) (d : Dist V R G) (h : Inv K (inserted pre) d)
    (hq : ∀ q, Op.query q ∈ ops → Rep 53 q) (hl : (inserted pre).length + ops.length < 2 ^ 63) :
    ∃ d', d.run K next ops = some d' ∧ Inv K (inserted (pre ++ ops)) d' := by
  induction ops generalizing pre d with
  | nil => exact ⟨d, rfl, by simpa using h⟩
  | cons o os ih =>
    have hstep : ∃ d', d.step K next o = some d' ∧ Inv K (inserted (pre ++ [o])) d' := by
      rw [inserted_snoc]
      cases o with
      | insert v W =>
        obtain ⟨d', e, i⟩ := inv_insert (K := K) (next := next) (W := W) h v (by simp at hl; omega)
        exact ⟨d', e, i⟩
      | query q =>
        obtain ⟨d', v, e, i, _⟩ := query_spec hK h q (hq q (by simp))
        exact ⟨d', by simp [step, e], i⟩
      | stats =>
        obtain ⟨d', r, e, i, _⟩ := stats_spec hK h
        exact ⟨d', by simp [step, e], i⟩
      | reset => exact ⟨_, rfl, inv_reset K h⟩
    obtain ⟨d', e, i⟩ := hstep
    have hl' : (inserted (pre ++ [o])).length + os.length < 2 ^ 63 := by
      rw [inserted_snoc]
      cases o <;> simp at hl ⊢ <;> omega
    obtain ⟨d'', e', i'⟩ := ih (pre ++ [o]) d' i (fun q hh => hq q (by simp [hh])) hl'
    exact ⟨d'', by simp [run, e, e'], by simpa using i'⟩

theorem inv_run {K : DistKind V R} (hK : Ordered K) (next : G → UInt64 × G) (key : Key) (g : G)
    (ops : List (Op V)) (hq : ∀ q, Op.query q ∈ ops → Rep 53 q) (hl : ops.length < 2 ^ 63) :
    ∃ d, (new K key g).run K next ops = some d ∧ Inv K (inserted ops) d := by
  obtain ⟨d, e, i⟩ := inv_run_from hK (next := next) [] ops (new K key g) (inv_new K key g) hq
    (by simpa [inserted] using hl)
  exact ⟨d, e, by simpa using i⟩

end Monkit.Dist
