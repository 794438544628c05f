import Verif.Spec.Meter
import Verif.Proofs.Float
import Mathlib.Tactic.Linarith

namespace Monkit.Meter
open Monkit Monkit.Spec Go.Float

/-- A period as the meter stores it. -/
def bucketOf (p : Period) : Bucket := ⟨Int64.ofInt p.sum, p.start⟩

/-- When the oldest period of the log began. -/
def oldest (l : Log) : Int := (l.done.getLastD l.cur).start

/-- The log as a list of buckets, newest first, with enough idle ones appended. -/
def padded (l : Log) : List Bucket :=
  (l.cur :: l.done).map bucketOf ++ List.replicate 24 ⟨0, oldest l⟩

def countSum (l : List Bucket) : Int64 := (l.map (·.count)).foldr (· + ·) 0

structure Inv (k : Key) (l : Log) (e : Meter) : Prop where
  key : e.key = k
  slices : e.slices.reverse = (padded l).take 24
  total : e.total = Int64.ofInt l.base + countSum ((padded l).drop 24)

theorem padded_len (l : Log) : 25 ≤ (padded l).length := by
  simp [padded]

theorem Inv.len {k l e} (h : Inv k l e) : e.slices.length = 24 := by
  have := congrArg List.length h.slices
  have h2 := padded_len l
  simp [List.length_take] at this
  omega

theorem Inv.slices' {k l e} (h : Inv k l e) : e.slices = ((padded l).take 24).reverse := by
  rw [← h.slices, List.reverse_reverse]

theorem Inv.last {k l e} (h : Inv k l e) : e.slices[23]? = some (bucketOf l.cur) := by
  rw [h.slices', List.getElem?_reverse]
  · have h2 := padded_len l
    have : ((padded l).take 24).length - 1 - 23 = 0 := by simp
    rw [this, List.getElem?_take]
    simp [padded]
  · have h2 := padded_len l
    simp [List.length_take]; omega

theorem Inv.first {k l e} (h : Inv k l e) : e.slices[0]? = (padded l)[23]? := by
  have h2 := padded_len l
  rw [h.slices', List.getElem?_reverse]
  · have : ((padded l).take 24).length - 1 - 0 = 23 := by simp [List.length_take]; omega
    rw [this, List.getElem?_take]
    simp
  · simp [List.length_take]; omega

theorem countSum_append (a b : List Bucket) : countSum (a ++ b) = countSum a + countSum b := by
  induction a with
  | nil => simp [countSum]
  | cons x xs ih =>
    simp only [countSum, List.map_cons, List.foldr_cons, List.cons_append] at ih ⊢
    rw [ih, Int64.add_assoc]

theorem countSum_replicate (n : Nat) (t : Int) : countSum (List.replicate n ⟨0, t⟩) = 0 := by
  induction n with
  | zero => rfl
  | succ n ih =>
    simp only [countSum, List.replicate_succ, List.map_cons, List.foldr_cons] at ih ⊢
    rw [ih]; rfl

theorem countSum_map (l : List Period) : countSum (l.map bucketOf) = Int64.ofInt (sumOf l) := by
  induction l with
  | nil => rfl
  | cons p ps ih =>
    simp only [countSum, sumOf, List.map_cons, List.foldr_cons, List.sum_cons] at ih ⊢
    rw [ih, Int64.ofInt_add]; rfl

theorem wrap_zero_iff (x : Int) : wrap64 x = 0 ↔ Int64.ofInt x = 0 := by
  rw [← Int64.toInt_inj, Int64.toInt_ofInt]
  exact Iff.rfl

theorem inv_init (k : Key) (t0 : Int) : Inv k ⟨0, ⟨0, t0⟩, []⟩ (new k t0) := by
  refine ⟨rfl, ?_, ?_⟩ <;> simp [new, padded, oldest, bucketOf, ticksToKeep, countSum]

theorem oldest_tick (l : Log) (now : Int) : oldest ⟨l.base, ⟨0, now⟩, l.cur :: l.done⟩ = oldest l := by
  simp only [oldest]
  cases l.done <;> simp [List.getLastD]

theorem inv_step {k l e} (h : Inv k l e) (o : Op) : ∃ e', e.step o = some e' ∧ Inv k (l.step o) e' := by
  have h2 := padded_len l
  cases o with
  | mark a =>
    refine ⟨_, rfl, h.key, ?_, ?_⟩
    · have e1 : (e.mark a).slices.reverse =
          e.slices.reverse.modify 0 (fun b => { b with count := b.count + a }) := by
        apply List.ext_getElem?
        intro i
        by_cases hi : i < 24
        · rw [List.getElem?_reverse (by simp [mark, h.len, hi]), List.getElem?_modify]
          simp only [mark, ticksToKeep, List.length_modify, List.getElem?_modify, h.len]
          rw [List.getElem?_reverse (by rw [h.len]; exact hi), h.len]
          congr 1
          by_cases h0 : i = 0
          · simp [h0]
          · have : ¬ (24 - 1 = 24 - 1 - i) := by omega
            funext b
            rw [if_neg this, if_neg (by omega)]
        · rw [List.getElem?_eq_none (by simp [mark, h.len]; omega),
            List.getElem?_eq_none (by simp [h.len]; omega)]
      rw [e1, h.slices]
      have : oldest (l.step (.mark a)) = oldest l := by
        simp only [oldest, Log.step]
        cases l.done with
        | nil => rfl
        | cons p ps => simp [List.getLastD]
      simp only [padded, this]
      simp only [Log.step, List.map_cons, List.cons_append, List.take_succ_cons,
        List.modify_zero_cons, bucketOf, Int64.ofInt_add]
      simp
    · have : oldest (l.step (.mark a)) = oldest l := by
        simp only [oldest, Log.step]
        cases l.done with
        | nil => rfl
        | cons p ps => simp [List.getLastD]
      have e1 : (e.mark a).total = e.total := rfl
      rw [e1, h.total]
      simp only [padded, this]
      simp only [Log.step, List.map_cons, List.cons_append, List.drop_succ_cons]
  | tick now =>
    have hstep : e.step (.tick now) = e.tick now := rfl
    simp only [hstep, tick, ticksToKeep, Nat.add_one_sub_one, h.last, h.first, Option.bind_eq_bind,
      Option.bind_some]
    by_cases hz : wrap64 l.cur.sum = 0
    · have hc : (bucketOf l.cur).count = 0 := (wrap_zero_iff _).mp hz
      simp only [hc, bne_self_eq_false, Bool.false_eq_true, if_false, Log.step, if_pos hz]
      exact ⟨_, rfl, h⟩
    · have hc : (bucketOf l.cur).count ≠ 0 := fun h => hz ((wrap_zero_iff _).mpr h)
      simp only [bne_iff_ne, ne_eq, hc, not_false_eq_true, if_true, Log.step, if_neg hz]
      rw [List.getElem?_eq_getElem (by omega)]
      simp only [Option.bind_some]
      refine ⟨_, rfl, h.key, ?_, ?_⟩
      · have hp : padded ⟨l.base, ⟨0, now⟩, l.cur :: l.done⟩ = ⟨0, now⟩ :: padded l := by
          simp only [padded, oldest_tick]
          rfl
        rw [hp]
        have hl : (e.slices.drop 1 ++ [bucketOf l.cur]).length = 24 := by simp [h.len]
        have : (e.slices.drop 1 ++ [bucketOf l.cur]).set 23 ⟨0, now⟩ =
            e.slices.drop 1 ++ [⟨0, now⟩] := by
          rw [List.set_append_right _ _ (by simp [h.len])]
          simp [h.len]
        rw [this]
        rw [List.reverse_append, List.reverse_drop, h.slices, h.len, List.take_take]
        simp
      · have hp : padded ⟨l.base, ⟨0, now⟩, l.cur :: l.done⟩ = ⟨0, now⟩ :: padded l := by
          simp only [padded, oldest_tick]
          rfl
        rw [hp, List.drop_succ_cons, List.drop_eq_getElem_cons (by omega : 23 < (padded l).length)]
        simp only [h.total, countSum, List.map_cons, List.foldr_cons]
        rw [Int64.add_comm ((padded l)[23]).count, Int64.add_assoc]
  | setTotal t =>
    refine ⟨_, rfl, h.key, ?_, ?_⟩
    · show e.slices.reverse = _
      rw [h.slices]
      by_cases hl : l.done.length ≤ 23
      · have : l.done.take 23 = l.done := List.take_of_length_le hl
        simp only [Log.step, this]
        rfl
      · simp only [Log.step, padded]
        rw [List.take_append_of_le_length (by simp; omega),
          List.take_append_of_le_length (by simp; omega)]
        simp [← List.map_take, List.take_take]
    · show t = _
      simp only [Log.step, padded, Int64.ofInt_toInt]
      rw [List.drop_append, List.drop_eq_nil_of_le (by simp), List.drop_replicate,
        List.nil_append, countSum_replicate, Int64.add_zero]
  | reset t now =>
    refine ⟨_, rfl, h.key, ?_, ?_⟩
    · have e1 : (e.reset t now).slices = List.replicate 24 ⟨0, now⟩ := by
        simp only [reset, List.map_const', h.len]
      rw [e1]
      simp [Log.step, padded, oldest, bucketOf]
    · simp [Log.step, padded, oldest, bucketOf, reset, countSum]

theorem inv_run {k l e} (h : Inv k l e) (ops : List Op) :
    ∃ e', e.run ops = some e' ∧ Inv k (ops.foldl Log.step l) e' := by
  induction ops generalizing l e with
  | nil => exact ⟨e, rfl, h⟩
  | cons o os ih =>
    obtain ⟨e1, he1, h1⟩ := inv_step h o
    obtain ⟨e2, he2, h2⟩ := ih h1
    exact ⟨e2, by simp [run, he1, he2], h2⟩

theorem window_start (l : Log) : (padded l)[23]?.map (·.start) = some l.windowStart := by
  obtain ⟨base, cur, done⟩ := l
  by_cases hl : done.length ≤ 22
  · have h1 : done.take 23 = done := List.take_of_length_le (by omega)
    rw [padded, List.getElem?_append_right (by simp; omega), List.getElem?_replicate,
      if_pos (by simp; omega)]
    simp only [Option.map_some, Log.windowStart, Log.window, h1, oldest]
    cases done <;> simp [List.getLastD]
  · rw [padded, List.getElem?_append_left (by simp; omega)]
    have h3 : (List.take 23 done).length = 23 := by simp; omega
    have h2 : (cur :: done.take 23).getLastD cur = done[22] := by
      rw [List.getLastD_cons, List.getLastD_eq_getLast?, List.getLast?_eq_getElem?, h3]
      simp only [Nat.add_one_sub_one, List.getElem?_take]
      rw [if_pos (by omega), List.getElem?_eq_getElem (by omega)]
      rfl
    simp only [Log.windowStart, Log.window, h2]
    simp only [List.map_cons, List.getElem?_cons_succ, List.getElem?_map]
    rw [List.getElem?_eq_getElem (by omega)]
    rfl

theorem foldl_count (l : List Bucket) (c : Int64) :
    l.foldl (fun c b => c + b.count) c = c + countSum l := by
  induction l generalizing c with
  | nil => simp [countSum]
  | cons b bs ih =>
    rw [List.foldl_cons, ih]
    simp only [countSum, List.map_cons, List.foldr_cons]
    rw [Int64.add_assoc]

theorem countSum_reverse (l : List Bucket) : countSum l.reverse = countSum l := by
  induction l with
  | nil => rfl
  | cons b bs ih =>
    rw [List.reverse_cons, countSum_append, ih]
    simp only [countSum, List.map_cons, List.foldr_cons, List.map_nil, List.foldr_nil]
    rw [Int64.add_zero, Int64.add_comm]

theorem padded_take_sum (l : Log) : countSum ((padded l).take 24) = Int64.ofInt (sumOf l.window) := by
  rw [padded, List.take_append, countSum_append, List.take_replicate, countSum_replicate,
    Int64.add_zero, ← List.map_take, countSum_map]
  rfl

theorem seconds_pos (d : Int64) : 0 < seconds d ↔ 0 < d.toInt := by
  have hq : (d / 1000000000).toInt = d.toInt.tdiv 1000000000 :=
    Int64.toInt_div_of_ne_right _ _ (by decide)
  have hr : (d % 1000000000).toInt = d.toInt.tmod 1000000000 := Int64.toInt_mod _ _
  have hs := Int.mul_tdiv_add_tmod d.toInt 1000000000
  rw [seconds, hq, hr]
  have e9 : (0 : ℚ) < 1000000000 := by norm_num
  have h53 : 0 < 53 := by decide
  have nonpos : ∀ {x : ℚ}, x ≤ 0 → rn 53 x ≤ 0 := fun h => by
    have := rn_mono h53 h
    rwa [rn_zero] at this
  constructor
  · intro h
    by_contra hd
    have h1 : d.toInt.tdiv 1000000000 ≤ 0 := by
      have : 0 ≤ (-d.toInt).tdiv 1000000000 := Int.tdiv_nonneg (by omega) (by omega)
      rw [Int.neg_tdiv] at this; omega
    have h2 : d.toInt.tmod 1000000000 ≤ 0 := by
      have : 0 ≤ (-d.toInt).tmod 1000000000 := Int.tmod_nonneg _ (by omega)
      rw [Int.neg_tmod] at this; omega
    have a1 : rn 53 ((d.toInt.tdiv 1000000000 : Int) : ℚ) ≤ 0 := nonpos (by exact_mod_cast h1)
    have a2 : rn 53 (rn 53 ((d.toInt.tmod 1000000000 : Int) : ℚ) / 1000000000) ≤ 0 :=
      nonpos (div_nonpos_of_nonpos_of_nonneg (nonpos (by exact_mod_cast h2)) e9.le)
    have := nonpos (add_nonpos a1 a2)
    linarith
  · intro h
    have h1 : 0 ≤ d.toInt.tdiv 1000000000 := Int.tdiv_nonneg (by omega) (by omega)
    have h2 : 0 ≤ d.toInt.tmod 1000000000 := Int.tmod_nonneg _ (by omega)
    have a1 : 0 ≤ rn 53 ((d.toInt.tdiv 1000000000 : Int) : ℚ) :=
      rn_nonneg h53 (by exact_mod_cast h1)
    have a2 : 0 ≤ rn 53 (rn 53 ((d.toInt.tmod 1000000000 : Int) : ℚ) / 1000000000) :=
      rn_nonneg h53 (div_nonneg (rn_nonneg h53 (by exact_mod_cast h2)) e9.le)
    apply rn_pos h53
    rcases Int.lt_or_eq_of_le h1 with h3 | h3
    · have : 0 < rn 53 ((d.toInt.tdiv 1000000000 : Int) : ℚ) := rn_pos h53 (by exact_mod_cast h3)
      linarith
    · have h4 : 0 < d.toInt.tmod 1000000000 := by rw [← h3] at hs; omega
      have : 0 < rn 53 (rn 53 ((d.toInt.tmod 1000000000 : Int) : ℚ) / 1000000000) :=
        rn_pos h53 (div_pos (rn_pos h53 (by exact_mod_cast h4)) e9)
      linarith

theorem ofInt_add_toInt (x y : Int) :
    (Int64.ofInt x + Int64.ofInt y).toInt = wrap64 (x + y) := by
  rw [← Int64.ofInt_add, Int64.toInt_ofInt]; rfl

theorem Inv.stats {k l e} (h : Inv k l e) (now : Int) :
    ∃ t : Int64, e.statsAt now = some (rateOf l.current (timeSub now l.windowStart), t) ∧
      t.toInt = l.total := by
  have h2 := padded_len l
  have hw := window_start l
  rw [List.getElem?_eq_getElem (by omega : 23 < (padded l).length), Option.map_some] at hw
  have hcur : e.slices.foldl (fun c b => c + b.count) 0 = Int64.ofInt (sumOf l.window) := by
    rw [foldl_count, h.slices', countSum_reverse, padded_take_sum, Int64.zero_add]
  refine ⟨e.total + Int64.ofInt (sumOf l.window), ?_, ?_⟩
  · rw [statsAt, h.first, List.getElem?_eq_getElem (by omega)]
    simp only [Option.bind_eq_bind, Option.bind_some, hcur, Option.some.inj hw]
    refine congrArg some (Prod.ext ?_ rfl)
    simp only [rateOf, gt_iff_lt, seconds_pos]
    have : (Int64.ofInt (sumOf l.window)).toInt = l.current := Int64.toInt_ofInt
    rw [this]
  · have hall : countSum ((padded l).drop 24) + countSum ((padded l).take 24) =
        Int64.ofInt (sumOf (l.cur :: l.done)) := by
      rw [Int64.add_comm, ← countSum_append, List.take_append_drop, padded, countSum_append,
        countSum_replicate, Int64.add_zero, countSum_map]
    rw [h.total, ← padded_take_sum, Int64.add_assoc, hall, ofInt_add_toInt]
    rfl

end Monkit.Meter
