import Verif.Proofs.Meter

/-!
# C12, C13, C14: meters
-/

namespace Monkit
open Monkit.Meter Monkit.Spec Go Go.Float

/-- **C12, C13.** Refinement: whatever calls and ticks happened, the meter does not panic and what
it reports is read off the unbounded log: the total is the base plus all periods, the rate is that
of the newest 24 periods over the time since the oldest of these began. -/
theorem C13_meter_report (k : Key) (t0 : Int) (ops : List Op) (now : Int) :
    ∃ e, (Meter.new k t0).run ops = some e ∧
    ∃ t : Int64, t.toInt = (logOf t0 ops).total ∧
      e.Stats now = some [(k, b!"rate", .flt (rateOf (logOf t0 ops).current
          (timeSub now (logOf t0 ops).windowStart))), (k, b!"total", .int t)] := by
  obtain ⟨e, he, hi⟩ := inv_run (inv_init k t0) ops
  obtain ⟨t, hs, ht⟩ := hi.stats now
  exact ⟨e, he, t, ht, by rw [Meter.Stats, hs, Option.map_some, hi.key]; rfl⟩

/-- What `Total()` returns after the calls `ops`. -/
def totalAfter (t0 : Int) (ops : List Op) (now : Int) : Option Int :=
  ((Meter.new ⟨[], []⟩ t0).run ops).bind fun e => (e.statsAt now).map fun x => x.2.toInt

theorem totalAfter_log (t0 : Int) (ops : List Op) (now : Int) :
    totalAfter t0 ops now = some (logOf t0 ops).total := by
  obtain ⟨e, he, hi⟩ := inv_run (inv_init ⟨[], []⟩ t0) ops
  obtain ⟨t, hs, ht⟩ := hi.stats now
  rw [totalAfter, he, Option.bind_some, hs, Option.map_some, ht]
  rfl

/-- Neither `Reset` nor `SetTotal`. -/
def Plain (ops : List Op) : Prop := ∀ o ∈ ops, (∃ a, o = .mark a) ∨ (∃ n, o = .tick n)

theorem log_plain (l : Log) (post : List Op) (hp : Plain post) :
    let l' := post.foldl Log.step l
    l'.base = l.base ∧ sumOf (l'.cur :: l'.done) = sumOf (l.cur :: l.done) + marked post := by
  induction post generalizing l with
  | nil => simp [marked]
  | cons o os ih =>
    have := ih (l.step o) (fun o' h => hp o' (List.mem_cons_of_mem _ h))
    rcases hp o (List.mem_cons_self ..) with ⟨a, rfl⟩ | ⟨n, rfl⟩
    · simp only [List.foldl_cons, marked]
      refine ⟨this.1, this.2.trans ?_⟩
      simp only [Log.step, sumOf, List.map_cons, List.sum_cons]; omega
    · simp only [List.foldl_cons, marked]
      by_cases hz : wrap64 l.cur.sum = 0
      · have e : l.step (.tick n) = l := by simp [Log.step, hz]
        rw [e] at this ⊢; exact this
      · have e : l.step (.tick n) = ⟨l.base, ⟨0, n⟩, l.cur :: l.done⟩ := by simp [Log.step, hz]
        rw [e] at this ⊢
        refine ⟨this.1, this.2.trans ?_⟩
        simp [sumOf]

/-- **C12.** No event is lost: with any marks and ticks after creation, the total is the sum of all
marks (modulo 2^64), however many ticks happened and whenever it is asked for. -/
theorem C12_total_since_new (t0 : Int) (ops : List Op) (hp : Plain ops) (now : Int) :
    totalAfter t0 ops now = some (wrap64 (marked ops)) := by
  rw [totalAfter_log]
  have h := log_plain ⟨0, ⟨0, t0⟩, []⟩ ops hp
  simp only [Log.total, logOf]
  rw [h.1, h.2]
  simp [sumOf]

/-- **C12.** The same after a `Reset`, whatever happened before it. -/
theorem C12_total_since_reset (t0 : Int) (pre post : List Op) (hp : Plain post) (t : Int64)
    (n now : Int) :
    totalAfter t0 (pre ++ .reset t n :: post) now = some (wrap64 (t.toInt + marked post)) := by
  rw [totalAfter_log]
  have h := log_plain ⟨t.toInt, ⟨0, n⟩, []⟩ post hp
  simp only [Log.total, logOf, List.foldl_append, List.foldl_cons, Log.step]
  rw [h.1, h.2]
  simp [sumOf]

/-- **C12.** After `SetTotal t` the total is `t` plus what was in the window at that time plus all
later marks. -/
theorem C12_total_since_setTotal (t0 : Int) (pre post : List Op) (hp : Plain post) (t : Int64)
    (now : Int) :
    totalAfter t0 (pre ++ .setTotal t :: post) now =
      some (wrap64 (t.toInt + sumOf (logOf t0 pre).window + marked post)) := by
  rw [totalAfter_log]
  have h := log_plain ⟨t.toInt, (logOf t0 pre).cur, (logOf t0 pre).done.take 23⟩ post hp
  simp only [Log.total, logOf, List.foldl_append, List.foldl_cons, Log.step]
  simp only [logOf] at h
  rw [h.1, h.2]
  simp only [Log.window]
  rw [Int.add_assoc]

/-- **C12.** A tick never changes the total. -/
theorem C12_tick_keeps_total (t0 : Int) (ops : List Op) (n now : Int) :
    totalAfter t0 (ops ++ [.tick n]) now = totalAfter t0 ops now := by
  rw [totalAfter_log, totalAfter_log]
  have h := log_plain (logOf t0 ops) [.tick n] (by simp [Plain])
  simp only [Log.total, logOf, List.foldl_append]
  simp only [logOf] at h
  rw [h.1, h.2]
  simp [marked]

/-- **C13.** Ticks without marks in between do not advance the window: the second of two
consecutive ticks changes nothing at all. -/
theorem C13_idle_tick (k : Key) (t0 : Int) (ops : List Op) (n1 n2 : Int) :
    (Meter.new k t0).run (ops ++ [.tick n1, .tick n2]) = (Meter.new k t0).run (ops ++ [.tick n1]) := by
  have app : ∀ (e : Meter) (a b : List Op), e.run (a ++ b) = (e.run a).bind fun e' => e'.run b := by
    intro e a b
    induction a generalizing e with
    | nil => rfl
    | cons o os ih =>
      simp only [List.cons_append, Meter.run]
      cases e.step o with
      | none => rfl
      | some e' => exact ih e'
  obtain ⟨e, he, hi⟩ := inv_run (inv_init k t0) (ops ++ [.tick n1])
  have : ops ++ [.tick n1, .tick n2] = (ops ++ [.tick n1]) ++ [.tick n2] := by simp
  rw [this, app, he, Option.bind_some]
  have hz : wrap64 ((ops ++ [Op.tick n1]).foldl Log.step ⟨0, ⟨0, t0⟩, []⟩).cur.sum = 0 := by
    rw [List.foldl_append]
    simp only [List.foldl_cons, List.foldl_nil, Log.step]
    split
    · assumption
    · rfl
  have hc := (wrap_zero_iff _).mp hz
  simp only [Meter.run, Meter.step, Meter.tick, ticksToKeep, Nat.add_one_sub_one, hi.last,
    Option.bind_eq_bind, Option.bind_some, bucketOf, hc, bne_self_eq_false, Bool.false_eq_true,
    if_false]

theorem marked_nonneg (ops : List Op) (h : ∀ a, Op.mark a ∈ ops → 0 ≤ a.toInt) : 0 ≤ marked ops := by
  induction ops with
  | nil => simp [marked]
  | cons o os ih =>
    have := ih (fun a ha => h a (List.mem_cons_of_mem _ ha))
    cases o with
    | mark a => have := h a (List.mem_cons_self ..); simp only [marked]; omega
    | _ => simpa [marked] using this

theorem log_nonneg (ops : List Op) (h : ∀ a, Op.mark a ∈ ops → 0 ≤ a.toInt) (l : Log) (B : Int)
    (h1 : 0 ≤ l.cur.sum) (h2 : ∀ p ∈ l.done, 0 ≤ p.sum) (h3 : sumOf (l.cur :: l.done) ≤ B) :
    let l' := ops.foldl Log.step l
    0 ≤ l'.cur.sum ∧ (∀ p ∈ l'.done, 0 ≤ p.sum) ∧ sumOf (l'.cur :: l'.done) ≤ B + marked ops := by
  induction ops generalizing l B with
  | nil => exact ⟨h1, h2, by simpa [marked] using h3⟩
  | cons o os ih =>
    have h' := fun a ha => h a (List.mem_cons_of_mem _ ha)
    have sum_nonneg : ∀ l : List Period, (∀ p ∈ l, 0 ≤ p.sum) → 0 ≤ sumOf l := by
      intro l hl
      induction l with
      | nil => simp [sumOf]
      | cons p ps ih =>
        have a1 := hl p (List.mem_cons_self ..)
        have a2 := ih (fun q hq => hl q (List.mem_cons_of_mem _ hq))
        simp only [sumOf, List.map_cons, List.sum_cons] at a2 ⊢; omega
    have hB : 0 ≤ B := by
      have := sum_nonneg (l.cur :: l.done) (by
        intro p hp; rcases List.mem_cons.mp hp with rfl | hp; exacts [h1, h2 p hp])
      omega
    cases o with
    | mark a =>
      have ha := h a (List.mem_cons_self ..)
      have := ih h' (l.step (.mark a)) (B + a.toInt)
        (by simp only [Log.step]; omega) h2
        (by simp only [Log.step, sumOf, List.map_cons, List.sum_cons] at h3 ⊢; omega)
      simp only [List.foldl_cons, marked]
      refine ⟨this.1, this.2.1, this.2.2.trans (by omega)⟩
    | tick n =>
      have := ih h' (l.step (.tick n)) B
        (by simp only [Log.step]; split <;> simp [h1])
        (by
          simp only [Log.step]; split
          · exact h2
          · intro p hp; rcases List.mem_cons.mp hp with rfl | hp; exacts [h1, h2 p hp])
        (by
          simp only [Log.step]; split
          · exact h3
          · simpa [sumOf] using h3)
      simpa only [List.foldl_cons, marked] using this
    | setTotal t =>
      have hsub : sumOf (l.done.take 23) ≤ sumOf l.done := by
        have e : sumOf l.done = sumOf (l.done.take 23) + sumOf (l.done.drop 23) := by
          rw [sumOf, sumOf, sumOf, ← List.sum_append, ← List.map_append, List.take_append_drop]
        have := sum_nonneg (l.done.drop 23) (fun p hp => h2 p (List.mem_of_mem_drop hp))
        omega
      have := ih h' (l.step (.setTotal t)) B h1 (fun p hp => h2 p (List.mem_of_mem_take hp))
        (by simp only [Log.step, sumOf, List.map_cons, List.sum_cons] at h3 hsub ⊢; omega)
      simpa only [List.foldl_cons, marked] using this
    | reset t n =>
      have := ih h' (l.step (.reset t n)) B (by simp [Log.step]) (by simp [Log.step])
        (by simpa [Log.step, sumOf] using hB)
      simpa only [List.foldl_cons, marked] using this

/-- **C13.** With non-negative marks whose sum fits in an int64 the rate is never negative,
whatever the clock readings; and it is 0 when no time has passed since the window began. -/
theorem C13_rate_nonneg (k : Key) (t0 : Int) (ops : List Op) (now : Int)
    (h : ∀ a, Op.mark a ∈ ops → 0 ≤ a.toInt) (hb : marked ops < 2 ^ 63) :
    ∃ e r t, (Meter.new k t0).run ops = some e ∧ e.statsAt now = some (r, t) ∧ 0 ≤ r ∧
      (now ≤ (logOf t0 ops).windowStart → r = 0) := by
  obtain ⟨e, he, hi⟩ := inv_run (inv_init k t0) ops
  obtain ⟨t, hs, ht⟩ := hi.stats now
  refine ⟨e, _, t, he, hs, ?_, ?_⟩
  · obtain ⟨h1, h2, h3⟩ := log_nonneg ops h ⟨0, ⟨0, t0⟩, []⟩ 0 (by simp) (by simp) (by simp [sumOf])
    change 0 ≤ (logOf t0 ops).cur.sum at h1
    change ∀ p ∈ (logOf t0 ops).done, 0 ≤ p.sum at h2
    change sumOf ((logOf t0 ops).cur :: (logOf t0 ops).done) ≤ _ at h3
    change 0 ≤ rateOf (logOf t0 ops).current _
    generalize logOf t0 ops = l at h1 h2 h3
    have sum_nonneg : ∀ l : List Period, (∀ p ∈ l, 0 ≤ p.sum) → 0 ≤ sumOf l := by
      intro l hl
      induction l with
      | nil => simp [sumOf]
      | cons p ps ih =>
        have a1 := hl p (List.mem_cons_self ..)
        have a2 := ih (fun q hq => hl q (List.mem_cons_of_mem _ hq))
        simp only [sumOf, List.map_cons, List.sum_cons] at a2 ⊢; omega
    have e : sumOf l.done = sumOf (l.done.take 23) + sumOf (l.done.drop 23) := by
      rw [sumOf, sumOf, sumOf, ← List.sum_append, ← List.map_append, List.take_append_drop]
    have a1 := sum_nonneg (l.done.drop 23) (fun p hp => h2 p (List.mem_of_mem_drop hp))
    have a2 := sum_nonneg (l.done.take 23) (fun p hp => h2 p (List.mem_of_mem_take hp))
    have hcur : 0 ≤ l.current := by
      have hw : sumOf l.window = l.cur.sum + sumOf (l.done.take 23) := by
        simp [sumOf, Log.window]
      have hs : sumOf (l.cur :: l.done) = l.cur.sum + sumOf l.done := by simp [sumOf]
      rw [Log.current, wrap64, hw, Int.bmod_eq_of_le (by omega) (by omega)]
      omega
    unfold rateOf
    split
    · rename_i hd
      exact rn_nonneg (by decide) (div_nonneg (rn_nonneg (by decide) (by exact_mod_cast hcur))
        ((seconds_pos _).mpr hd).le)
    · exact le_refl _
  · intro hle
    unfold rateOf
    rw [if_neg]
    change ¬ 0 < (timeSub now (logOf t0 ops).windowStart).toInt
    unfold timeSub
    split
    · decide
    · split
      · omega
      · rw [Int64.toInt_ofInt]
        show ¬ 0 < Int.bmod _ (2 ^ 64)
        rw [Int.bmod_eq_of_le (by omega) (by omega)]; omega

/-- **C14.** A `DiffMeter` reports, at one clock reading, the float64 difference of what its two
meters' rates are and the (two's-complement) difference of their totals. -/
theorem C14_diff_meter (k k1 k2 : Key) (t1 t2 : Int) (ops1 ops2 : List Op) (now : Int) :
    ∃ e1 e2, (Meter.new k1 t1).run ops1 = some e1 ∧ (Meter.new k2 t2).run ops2 = some e2 ∧
    ∃ d : Int64, d.toInt = wrap64 ((logOf t1 ops1).total - (logOf t2 ops2).total) ∧
      diffMeterStats k e1 e2 now = some
        [(k, b!"rate", .flt (rn 53
            (rateOf (logOf t1 ops1).current (timeSub now (logOf t1 ops1).windowStart) -
             rateOf (logOf t2 ops2).current (timeSub now (logOf t2 ops2).windowStart)))),
         (k, b!"total", .int d)] := by
  obtain ⟨e1, he1, hi1⟩ := inv_run (inv_init k1 t1) ops1
  obtain ⟨e2, he2, hi2⟩ := inv_run (inv_init k2 t2) ops2
  obtain ⟨d1, hs1, hd1⟩ := hi1.stats now
  obtain ⟨d2, hs2, hd2⟩ := hi2.stats now
  refine ⟨e1, e2, he1, he2, d1 - d2, ?_, ?_⟩
  · have : (d1 - d2).toInt = wrap64 (d1.toInt - d2.toInt) := Int64.toInt_sub _ _
    rw [this, hd1, hd2]; rfl
  · simp only [diffMeterStats, hs1, hs2, Option.bind_eq_bind, Option.bind_some]
    rfl

/-! A concrete history: marks, advancing and idle ticks, more than 24 periods, `SetTotal`. -/

def manyPeriods : List Op :=
  (List.range 30).flatMap fun i => [.mark 2, .tick (1000 * (i + 1)), .tick (1000 * (i + 1) + 500)]

example : totalAfter 0 manyPeriods 40000 = some 60 ∧ Plain manyPeriods ∧
    (logOf 0 manyPeriods).current = 46 ∧ (logOf 0 manyPeriods).windowStart = 7000 ∧
    totalAfter 0 (manyPeriods ++ [.setTotal 100, .mark 1]) 40000 = some 147 ∧
    totalAfter 0 (manyPeriods ++ [.reset 5 99, .mark (-7)]) 40000 = some (-2) := by
  refine ⟨by decide +kernel, ?_, by decide +kernel, by decide +kernel, by decide +kernel,
    by decide +kernel⟩
  intro o ho
  simp only [manyPeriods, List.mem_flatMap] at ho
  obtain ⟨i, _, hi⟩ := ho
  simp only [List.mem_cons, List.not_mem_nil, or_false] at hi
  rcases hi with rfl | rfl | rfl
  · exact .inl ⟨_, rfl⟩
  · exact .inr ⟨_, rfl⟩
  · exact .inr ⟨_, rfl⟩

example : (∀ a, Op.mark a ∈ [Op.mark 3, .tick 5, .mark 4] → 0 ≤ a.toInt) ∧
    marked [Op.mark 3, .tick 5, .mark 4] < 2 ^ 63 := by
  constructor
  · intro a ha
    simp at ha
    rcases ha with rfl | rfl <;> decide
  · decide

end Monkit
