import Verif.Model.MeterConc
import Verif.Props.Val
import Verif.Props.Meter

/-!
# C82: meters under concurrent use
-/

namespace Monkit.MeterConc
open Go.Mutex Monkit Monkit.Spec Go.Float

/-- The statements of a call, run alone, are the sequential call. -/
theorem exec_change (e : Meter) (hl : e.slices.length = 24) (o : Meter.Op) : obj.exec (some e) (.change o) = (e.step o, .unit) := by
  obtain ⟨total, slices, key⟩ := e
  simp only at hl
  have h23 : slices[23]? = some slices[23] := List.getElem?_eq_getElem (by omega)
  have h0 : slices[0]? = some slices[0] := List.getElem?_eq_getElem (by omega)
  cases o with
  | mark a =>
    simp only [Obj.exec, obj, body, List.foldl_cons, List.foldl_nil, readSlot, write, ticksToKeep, Nat.add_one_sub_one, h23, Option.map_some, result,
      Meter.step, Meter.mark]
    have : slices.modify 23 (fun b => { b with count := slices[23].count + a }) = slices.modify 23 (fun b => { b with count := b.count + a }) := by
      rw [List.modify_eq_set_getElem?, List.modify_eq_set_getElem?, h23]
      rfl
    rw [this]
  | tick now =>
    have hd : slices.drop 23 = [slices[23]] := by
      rw [List.drop_eq_getElem_cons (by omega), List.drop_of_length_le (by omega)]
    simp only [Obj.exec, obj, body, List.foldl_cons, List.foldl_nil, readSlot, write, ticksToKeep, Nat.add_one_sub_one, h23, h0, Option.map_some, result,
      Meter.step, Meter.tick, Option.bind_eq_bind, Option.bind_some]
    cases hc : slices[23].count != 0 <;> simp [hd]
  | setTotal t => rfl
  | reset t now =>
    simp [Obj.exec, obj, body, write, result, Meter.step, Meter.reset, Function.comp_def]

theorem exec_stats (e : Meter) (hl : e.slices.length = 24) (now : Int) :
    ∃ r t, e.statsAt now = some (r, t) ∧ obj.exec (some e) (.stats now) = (some e, .rate r t) := by
  obtain ⟨total, slices, key⟩ := e
  simp only at hl
  have h0 : slices[0]? = some slices[0] := List.getElem?_eq_getElem (by omega)
  refine ⟨_, _, by simp only [Meter.statsAt, h0, Option.bind_eq_bind, Option.bind_some]; rfl, ?_⟩
  simp only [Obj.exec, obj, body, List.foldl_cons, List.foldl_nil, readSlot, h0, result, Option.map_some, Option.getD_some]

/-- The changes among a list of calls. -/
def changes (ops : List Op) : List Meter.Op := ops.filterMap fun o => match o with | .change o => some o | _ => none

theorem seqRun_meter (k : Key) (t0 : Int) (l : Log) (e : Meter) (hi : Meter.Inv k l e) (ops : List Op) :
    ∃ e', (seqRun obj.exec (some e) ops).1 = some e' ∧ Meter.Inv k ((changes ops).foldl Log.step l) e' := by
  induction ops generalizing l e with
  | nil => exact ⟨e, rfl, hi⟩
  | cons o os ih =>
    cases o with
    | change o =>
      obtain ⟨e1, h1, h2⟩ := Meter.inv_step hi o
      obtain ⟨e2, h3, h4⟩ := ih _ _ h2
      exact ⟨e2, by simp only [seqRun, exec_change e hi.len, h1]; exact h3, h4⟩
    | stats now =>
      obtain ⟨r, t, _, h2⟩ := exec_stats e hi.len now
      obtain ⟨e2, h3, h4⟩ := ih _ _ hi
      exact ⟨e2, by simp only [seqRun, h2]; exact h3, h4⟩

/-- All calls of an execution, by any goroutine. -/
def calls (tr : List (Event Op Res)) : List Op := tr.filterMap fun e => match e with | .call _ o => some o | _ => none

/-- **C82.** Any number of goroutines marking, resetting, ticking and reading one meter, in any schedule of their statements, ending with no call
in progress: nothing panicked, and there is one order `lin` of all calls, agreeing with each goroutine's own order of calls and returns, such that every
rate and total that was returned is that of the log of exactly the calls before it, and the meter is in the state for the log of all calls. -/
theorem C82_meter_concurrent (k : Key) (t0 : Int) (tr : List (Event Op Res)) (c : Config (Option Meter) Locals Op)
    (h : Exec obj (some (Meter.new k t0)) tr c) (quiet : ∀ t, c.thr t = .idle) :
    ∃ lin : List (Nat × Op × Res),
      (∀ t, callsOf t tr = (lin.filter (·.1 = t)).map (·.2.1) ∧ retsOf t tr = (lin.filter (·.1 = t)).map (·.2.2)) ∧
      (∀ pre t now res post, lin = pre ++ (t, .stats now, res) :: post →
        ∃ total : Int64, total.toInt = (logOf t0 (changes (pre.map (·.2.1)))).total ∧
          res = .rate (rateOf (logOf t0 (changes (pre.map (·.2.1)))).current
            (timeSub now (logOf t0 (changes (pre.map (·.2.1)))).windowStart)) total) ∧
      ∃ e, c.sh = some e ∧ ∀ now, ∃ total : Int64, total.toInt = (logOf t0 (changes (lin.map (·.2.1)))).total ∧
        e.Stats now = some [(k, b!"rate", .flt (rateOf (logOf t0 (changes (lin.map (·.2.1)))).current
          (timeSub now (logOf t0 (changes (lin.map (·.2.1)))).windowStart))), (k, b!"total", .int total)] := by
  obtain ⟨lin, h1, h2⟩ := C03_no_lost_update _ _ tr c h quiet
  refine ⟨lin, h2, ?_, ?_⟩
  · intro pre t now res post hl
    have hr := Val.seqRun_split obj.exec pre (t, .stats now, res) post (some (Meter.new k t0)) (by rw [← hl, h1])
    obtain ⟨e, he, hi⟩ := seqRun_meter k t0 _ _ (Meter.inv_init k t0) (pre.map (·.2.1))
    rw [he] at hr
    obtain ⟨total, hs, ht⟩ := hi.stats now
    obtain ⟨r', t', g1, g2⟩ := exec_stats e hi.len now
    rw [hs] at g1; cases g1
    exact ⟨total, ht, by rw [show res = _ from hr, g2]; rfl⟩
  · obtain ⟨e, he, hi⟩ := seqRun_meter k t0 _ _ (Meter.inv_init k t0) (lin.map (·.2.1))
    rw [h1] at he
    refine ⟨e, he, fun now => ?_⟩
    obtain ⟨t, hs, ht⟩ := hi.stats now
    exact ⟨t, ht, by rw [Meter.Stats, hs, Option.map_some, hi.key]; rfl⟩

/-- Two lists of labelled calls that agree for each label are permutations of each other. -/
theorem perm_of_filter {β : Type} (a b : List (Nat × β)) (h : ∀ t, (a.filter (·.1 = t)).map (·.2) = (b.filter (·.1 = t)).map (·.2)) :
    a.Perm b := by
  classical
  rw [List.perm_iff_count]
  intro x
  have key : ∀ l : List (Nat × β), l.count x = ((l.filter (·.1 = x.1)).map (·.2)).count x.2 := by
    intro l
    induction l with
    | nil => rfl
    | cons y ys ih =>
      by_cases hy : y.1 = x.1
      · rw [List.filter_cons_of_pos (by simpa using hy), List.map_cons, List.count_cons, List.count_cons, ih]
        congr 1
        have : (y == x) = (y.2 == x.2) := by
          rw [Bool.eq_iff_iff, beq_iff_eq, beq_iff_eq]
          exact ⟨fun e => by rw [e], fun e => Prod.ext hy e⟩
        rw [this]
      · rw [List.filter_cons_of_neg (by simpa using hy), List.count_cons, ih]
        have : (y == x) = false := by
          rw [Bool.eq_false_iff]
          intro e; rw [beq_iff_eq] at e; exact hy (by rw [e])
        rw [this]; simp
  rw [key a, key b, h]

theorem calls_perm (tr : List (Event Op Res)) (lin : List (Nat × Op × Res))
    (h : ∀ t, callsOf t tr = (lin.filter (·.1 = t)).map (·.2.1)) : (calls tr).Perm (lin.map (·.2.1)) := by
  let a : List (Nat × Op) := tr.filterMap fun e => match e with | .call t o => some (t, o) | _ => none
  have ha : calls tr = a.map (·.2) := by
    simp only [calls, a, List.map_filterMap]
    congr 1
    funext e; cases e <;> rfl
  have hp : a.Perm (lin.map fun x => (x.1, x.2.1)) := by
    refine perm_of_filter _ _ fun t => ?_
    have e1 : (a.filter (·.1 = t)).map (·.2) = callsOf t tr := by
      simp only [a, callsOf, List.filter_filterMap, List.map_filterMap]
      congr 1
      funext e
      cases e with
      | call t' o => by_cases ht : t' = t <;> simp [ht]
      | _ => rfl
    rw [e1, h t, List.filter_map, List.map_map]
    rfl
  rw [ha]
  have := hp.map (·.2)
  simpa [Function.comp_def] using this

theorem marked_perm {a b : List Meter.Op} (h : a.Perm b) : marked a = marked b := by
  have key : ∀ l : List Meter.Op, marked l = (l.map fun o => match o with | .mark x => x.toInt | _ => 0).sum := by
    intro l
    induction l with
    | nil => rfl
    | cons o os ih => cases o <;> simp [marked, ih]
  rw [key, key]
  exact (h.map _).sum_eq

/-- **C82.** No mark is lost: if nobody resets the meter, then once all calls have returned its total is the sum of all amounts that any goroutine
marked (modulo 2^64), whatever ticks and reads ran in between. -/
theorem C82_no_mark_lost (k : Key) (t0 : Int) (tr : List (Event Op Res)) (c : Config (Option Meter) Locals Op)
    (h : Exec obj (some (Meter.new k t0)) tr c) (quiet : ∀ t, c.thr t = .idle) (hp : Plain (changes (calls tr))) (now : Int) :
    ∃ e r t, c.sh = some e ∧ e.statsAt now = some (r, t) ∧ t.toInt = wrap64 (marked (changes (calls tr))) := by
  obtain ⟨lin, h1, h2⟩ := C03_no_lost_update _ _ tr c h quiet
  obtain ⟨e, he, hi⟩ := seqRun_meter k t0 _ _ (Meter.inv_init k t0) (lin.map (·.2.1))
  rw [h1] at he
  obtain ⟨t, hs, ht⟩ := hi.stats now
  have hperm : (changes (calls tr)).Perm (changes (lin.map (·.2.1))) := (calls_perm tr lin fun t => (h2 t).1).filterMap _
  have hp' : Plain (changes (lin.map (·.2.1))) := fun o ho => hp o (hperm.mem_iff.2 ho)
  refine ⟨e, _, t, he, hs, ?_⟩
  have hl := log_plain ⟨0, ⟨0, t0⟩, []⟩ _ hp'
  rw [ht, Log.total, hl.1, hl.2, marked_perm hperm]
  simp [sumOf]

/-- The hypotheses are met: two goroutines mark, and the ticker waits while the first is in the middle of its update. -/
example : ∃ tr c, Exec obj (some (Meter.new ⟨b!"m", []⟩ 0)) tr c ∧ (∀ t, c.thr t = .idle) ∧ Plain (changes (calls tr)) ∧
    marked (changes (calls tr)) = 5 := by
  have e := Exec.start (o := obj) (s₀ := some (Meter.new ⟨b!"m", []⟩ 0))
  have e := Exec.step _ e (.call _ 0 (.change (.mark 2)) rfl)
  have e := Exec.step _ e (.lock _ 0 _ rfl rfl)
  have e := Exec.step _ e (.access _ 0 _ _ _ _ rfl)
  have e := Exec.step _ e (.call _ 1 (.change (.tick 9)) rfl)
  have e := Exec.step _ e (.access _ 0 _ _ _ _ rfl)
  have e := Exec.step _ e (.unlock _ 0 _ _ rfl)
  have e := Exec.step _ e (.lock _ 1 _ rfl rfl)
  have e := Exec.step _ e (.access _ 1 _ _ _ _ rfl)
  have e := Exec.step _ e (.access _ 1 _ _ _ _ rfl)
  have e := Exec.step _ e (.access _ 1 _ _ _ _ rfl)
  have e := Exec.step _ e (.access _ 1 _ _ _ _ rfl)
  have e := Exec.step _ e (.access _ 1 _ _ _ _ rfl)
  have e := Exec.step _ e (.unlock _ 1 _ _ rfl)
  have e := Exec.step _ e (.call _ 2 (.change (.mark 3)) rfl)
  have e := Exec.step _ e (.lock _ 2 _ rfl rfl)
  have e := Exec.step _ e (.access _ 2 _ _ _ _ rfl)
  have e := Exec.step _ e (.access _ 2 _ _ _ _ rfl)
  have e := Exec.step _ e (.unlock _ 2 _ _ rfl)
  refine ⟨_, _, e, ?_, ?_, by decide⟩
  · intro t
    by_cases h0 : t = 0 <;> by_cases h1 : t = 1 <;> by_cases h2 : t = 2 <;> simp [upd, Config.init, *]
  · simp [Plain, calls, changes]

end Monkit.MeterConc
