import Verif.Proofs.Counter

/-!
# C01, C02: counters
-/

namespace Monkit
open Monkit.Spec Monkit.Counter

/-- **C01.** After any history of calls, `Current` is the value of the history and `High`/`Low` are
the greatest/least value the counter was given since the last `Reset` (0 if none). -/
theorem C01_counter_history (k : Key) (ops : List Op) :
    ((new k).run ops).1.Current.toInt = counterValue ops ∧
    counterHigh ops ((new k).run ops).1.High.toInt ∧
    counterLow ops ((new k).run ops).1.Low.toInt := by
  have h := inv_run k ops
  refine ⟨h.val, ?_, ?_⟩
  · cases hn : ((new k).run ops).1.nonempty
    · obtain ⟨_, _, h3, h4⟩ := h.empty hn
      exact Or.inr ⟨h4, by simp [High, h3]⟩
    · obtain ⟨_, _, h3, h4⟩ := h.full hn
      exact Or.inl ⟨h3, fun v hv => (h4 v hv).2⟩
  · cases hn : ((new k).run ops).1.nonempty
    · obtain ⟨_, h3, _, h4⟩ := h.empty hn
      exact Or.inr ⟨h4, by simp [Low, h3]⟩
    · obtain ⟨_, h3, _, h4⟩ := h.full hn
      exact Or.inl ⟨h3, fun v hv => (h4 v hv).1⟩

/-- The result of the call `o` in the middle of a history is what `step` gives in the state
reached by the calls before it. -/
theorem run_result (c : Counter) (pre : List Op) (o : Op) (post : List Op) :
    (c.run (pre ++ o :: post)).2[pre.length]? = some ((c.run pre).1.step o).2 := by
  induction pre generalizing c with
  | nil => simp [run]
  | cons a as ih => simpa [run] using ih (c.step a).1

/-- **C01.** Every call, wherever it stands in a history, returns what the specification says:
`Set` the former value, `Inc`/`Dec` the new one, `Reset` the former value, low and high. -/
theorem C01_counter_results (k : Key) (pre : List Op) (o : Op) (post : List Op) :
    ∃ r, ((new k).run (pre ++ o :: post)).2[pre.length]? = some r ∧ counterResult pre o r := by
  refine ⟨_, run_result _ _ _ _, ?_⟩
  have h := C01_counter_history k pre
  have hi := inv_step (inv_run k pre) o
  have hv := hi.val
  rw [counterValue_snoc] at hv
  cases o with
  | set v => exact ⟨_, rfl, h.1⟩
  | inc d => exact ⟨_, rfl, hv⟩
  | dec d => exact ⟨_, rfl, hv⟩
  | reset => exact ⟨_, _, _, rfl, h.1, h.2.2, h.2.1⟩
  | high => exact ⟨_, rfl, h.2.1⟩
  | low => exact ⟨_, rfl, h.2.2⟩
  | current => exact ⟨_, rfl, h.1⟩
  | stats => trivial

/-- **C02.** `Stats` reports high, low, value in this order; high and low are NaN exactly when no
value was given since construction or the last `Reset`, and otherwise low ≤ value ≤ high. -/
theorem C02_counter_stats (k : Key) (pre : List Op) (post : List Op) :
    ∃ r, ((new k).run (pre ++ .stats :: post)).2[pre.length]? = some (.report r) ∧
      counterReport k pre r := by
  refine ⟨_, run_result _ _ _ _, ?_⟩
  have h := inv_run k pre
  have hh := C01_counter_history k pre
  cases hn : ((new k).run pre).1.nonempty
  · obtain ⟨_, _, _, h4⟩ := h.empty hn
    refine ⟨.nan, .nan, _, ?_, h.val, Or.inl ⟨h4, rfl, rfl⟩⟩
    simp [Stats, hn, h.key]
  · obtain ⟨h1, h2, h3, h4⟩ := h.full hn
    refine ⟨_, _, _, ?_, h.val, Or.inr ⟨_, _, rfl, rfl, hh.2.1, hh.2.2, (h4 _ h1).1, (h4 _ h1).2,
      _, h1⟩⟩
    simp [Stats, hn, h.key, High, Low]

/-! The theorems have no hypotheses.  A concrete history with a wrap-around, a reset and reports: -/

example : ((new ⟨b!"c", []⟩).run
    [.inc 5, .dec 7, .reset, .set 9223372036854775807, .inc 1, .stats]).2 =
  [.val 5, .val (-2), .triple (-2) (-2) 5, .val 0, .val (-9223372036854775808),
   .report [(⟨b!"c", []⟩, b!"high", .int 9223372036854775807),
            (⟨b!"c", []⟩, b!"low", .int (-9223372036854775808)),
            (⟨b!"c", []⟩, b!"value", .int (-9223372036854775808))]] := by decide

example : tookSinceReset [.inc 5, .reset, .set 3, .dec 10, .high] (-7) :=
  ⟨[.inc 5, .reset, .set 3], .dec 10, [.high], rfl, rfl, by decide, by decide⟩

end Monkit
