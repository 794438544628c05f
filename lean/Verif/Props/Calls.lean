import Verif.Proofs.Calls
import Verif.Props.FuncStats

/-!
# C30: panics are recorded and re-raised.  C64: whole programs of monitored calls
-/

namespace Monkit.Calls
open Go Monkit.Spec
variable {E G : Type}

/-- C30, the exit function after a panic, unless it is a panic with a nil value under the meaning that had before Go 1.21:
exactly a panic is recorded, whatever the error, and the panic goes on with the same value. -/
theorem C30_panic_partial (nilErr given : Bool) (named : Option E) (v : Option Nat) (h : nilErr = true ∨ v ≠ none) :
    let e := exit nilErr given named (some (raise nilErr v))
    classify e.1.1 e.1.2 = .panic ∧ e.2 = .panic (raise nilErr v) ∧ (v ≠ none → e.2 = .panic v) := by
  rcases v with _ | v
  · rcases h with h | h
    · subst h; exact ⟨rfl, rfl, fun h => absurd rfl h⟩
    · exact absurd rfl h
  · cases nilErr <;> exact ⟨rfl, rfl, fun _ => rfl⟩

/-- C30, no panic: the exit function returns, the function ends as it would have, a success if there is no error or the exit
function was not told, and the error otherwise. -/
theorem C30_return (nilErr given : Bool) (named : Option E) :
    let e := exit nilErr given named none
    classify e.1.1 e.1.2 = classOf given (.ret named) ∧ e.2 = .ret named := by
  cases given <;> cases named <;> exact ⟨rfl, rfl⟩

/-- **C30 is false of the code** for `panic(nil)` where that panics with nil (go.mod asks for Go 1.19): the panic is recorded as
a success, and swallowed – the caller sees the function return without an error. -/
theorem C30_panic_nil_violated :
    let e := exit (E := Nat) false true none (some (raise false none))
    e.1 = (none, false) ∧ classify e.1.1 e.1.2 = .success ∧ e.2 = .ret none := ⟨rfl, rfl, rfl⟩

/-- C30, an exit function called by a deferred function rather than deferred: the function ends as it would have, a panic goes on with the same value, even nil, and calls that do
not panic are recorded right.  Partial: panics are not, see `C30_nested_violated`. -/
theorem C30_nested_partial (given : Bool) (named : Option E) :
    (∀ p, (exitNested given named (some p)).2 = .panic p) ∧
    (exitNested given named none).2 = .ret named ∧
    classify (exitNested given named none).1.1 (exitNested given named none).1.2 = classOf given (.ret named) := by
  refine ⟨fun _ => rfl, rfl, ?_⟩
  cases given <;> cases named <;> rfl

/-- **C30 is false of the code** for an exit function called by a deferred function: whatever the panic, it is never recorded as one; with no error so far it is recorded as a
success, while the panic goes on. -/
theorem C30_nested_violated (given : Bool) (named : Option E) (p : Option Nat) :
    let e := exitNested given named (some p)
    classify e.1.1 e.1.2 ≠ .panic ∧ (named = none → classify e.1.1 e.1.2 = .success) ∧ e.2 = .panic p := by
  refine ⟨?_, ?_, rfl⟩
  · cases given <;> cases named <;> simp [exitNested, classify]
  · rintro rfl; cases given <;> rfl

/-- A panic with 7, no error so far: recorded as a success; deferred directly, the same is a panic. -/
example : (exitNested (E := Nat) true none (some (some 7))).1 = (none, false) ∧ (exit (E := Nat) false true none (some (some 7))).1 = (none, true) := ⟨rfl, rfl⟩

/-! ## From logs to statistics -/

theorem finishedObs_append (a b : List (FuncStats.Op E)) (h : ∀ x ∈ b, x ≠ .reset) :
    finishedObs (a ++ b) = finishedObs a ++ finishedObs b := by
  have key : ∀ (b : List (FuncStats.Op E)), (∀ x ∈ b, x ≠ .reset) → ∀ acc,
      b.foldl (fun acc o => match o with
        | .start => acc
        | .finish err p d _ => acc ++ [(classify err p, d)]
        | .reset => []) acc = acc ++ finishedObs b := by
    intro b
    induction b with
    | nil => intro _ acc; simp [finishedObs]
    | cons x xs ih =>
      intro h acc
      have hx := fun y hy => h y (List.mem_cons_of_mem _ hy)
      cases x with
      | start =>
        simp only [List.foldl_cons, finishedObs]
        rw [ih hx]; simp only [finishedObs]
      | finish e p d W =>
        simp only [List.foldl_cons, finishedObs]
        rw [ih hx]; erw [ih hx]; simp
      | reset => exact absurd rfl (h _ List.mem_cons_self)
  unfold finishedObs
  rw [List.foldl_append]
  exact key b h _

theorem opsOf_cons (f : Nat) (x : Nat × FuncStats.Op E) (l : List (Nat × FuncStats.Op E)) :
    opsOf f (x :: l) = (if x.1 = f then [x.2] else []) ++ opsOf f l := by
  unfold opsOf
  by_cases h : x.1 = f <;> simp [h]

theorem noReset_opsOf {log : List (Nat × FuncStats.Op E)} (h : NoReset log) (f : Nat) : ∀ x ∈ opsOf f log, x ≠ .reset := by
  intro x hx
  simp only [opsOf, List.mem_map, List.mem_filter] at hx
  obtain ⟨y, ⟨hy, -⟩, rfl⟩ := hx
  exact h y hy

theorem finishedObs_opsOf (f : Nat) (log : List (Nat × FuncStats.Op E)) (h : NoReset log) :
    finishedObs (opsOf f log) = ((fins log).filter (fun x => decide (x.1 = f))).map (·.2) ∧
    ((opsOf f log).length : Int) = bal f log + 2 * (finishedObs (opsOf f log)).length := by
  induction log with
  | nil => exact ⟨rfl, rfl⟩
  | cons x l ih =>
    have hl : NoReset l := fun y hy => h y (List.mem_cons_of_mem _ hy)
    obtain ⟨i1, i2⟩ := ih hl
    obtain ⟨g, o⟩ := x
    have hb := bal_append f [(g, o)] l
    rw [List.singleton_append] at hb
    rw [opsOf_cons, finishedObs_append _ _ (noReset_opsOf hl f), hb, List.length_append, List.length_append]
    cases o with
    | reset => exact absurd rfl (h _ List.mem_cons_self)
    | start =>
      rw [bal_start]
      simp only [fins]
      by_cases hg : g = f
      · simp only [hg, if_true]
        refine ⟨by simpa [finishedObs] using i1, ?_⟩
        simp [finishedObs] at i2 ⊢; omega
      · simp only [hg, if_false]
        refine ⟨by simpa [finishedObs] using i1, ?_⟩
        simp [finishedObs] at i2 ⊢; omega
    | finish e p d W =>
      rw [bal_finish]
      simp only [fins]
      by_cases hg : g = f
      · simp only [hg, if_true, List.filter_cons, decide_true]
        refine ⟨by simp [finishedObs] at i1 ⊢; exact i1, ?_⟩
        simp [finishedObs] at i2 ⊢; omega
      · simp only [hg, if_false, List.filter_cons, decide_false]
        refine ⟨by simpa [finishedObs] using i1, ?_⟩
        simp [finishedObs] at i2 ⊢; omega

theorem finish_counts {K : DistKind Int64 ℚ} {next : G → UInt64 × G} {name : E → Str} {f f' : FuncStats G} {e : Option E}
    {p : Bool} {d W : Int64} (h : f.finish K next name e p d W = some f') :
    f'.current = f.current + (-1) ∧ f'.highwater = f.highwater := by
  cases p <;> cases e <;>
    simp only [FuncStats.finish, Bool.false_eq_true, if_false, if_true, Option.map_eq_some_iff] at h <;>
    (obtain ⟨_, _, rfl⟩ := h; exact ⟨rfl, rfl⟩)

theorem dec_toInt {x : Int64} (h1 : -2 ^ 63 < x.toInt) (h2 : x.toInt < 2 ^ 63) : (x + (-1)).toInt = x.toInt - 1 := by
  have : Int64.toInt (-1) = -1 := rfl
  rw [Int64.toInt_add]
  generalize Int64.toInt (-1) = y at *
  subst this
  apply Int.bmod_eq_of_le <;> omega

/-- `current` and `highwater` follow the log. -/
theorem run_counts {K : DistKind Int64 ℚ} {next : G → UInt64 × G} {name : E → Str} (f : Nat)
    (log : List (Nat × FuncStats.Op E)) (a b : FuncStats G) : NoReset log →
    a.run K next name (opsOf f log) = some b →
    a.current.toInt.natAbs + (opsOf f log).length < 2 ^ 63 → a.current.toInt ≤ a.highwater.toInt →
    b.current.toInt = a.current.toInt + bal f log ∧
      b.highwater.toInt = max a.highwater.toInt (a.current.toInt + peak f log) := by
  induction log generalizing a with
  | nil =>
    intro _ h _ hh
    simp only [opsOf, List.filter_nil, List.map_nil, FuncStats.run, Option.some.injEq] at h
    subst h
    simp only [bal, peak]; omega
  | cons x l ih =>
    obtain ⟨g, o⟩ := x
    intro hn h hl hh
    have hn' : NoReset l := fun y hy => hn y (List.mem_cons_of_mem _ hy)
    have hb := bal_append f [(g, o)] l
    rw [List.singleton_append] at hb
    rw [opsOf_cons] at h hl
    have hp := peak_nonneg f l
    rw [hb]
    simp only [peak]
    cases o with
    | reset => exact absurd rfl (hn _ List.mem_cons_self)
    | start =>
      rw [bal_start]
      by_cases hg : g = f
      · simp only [hg, if_true] at h hl ⊢
        simp only [List.singleton_append, FuncStats.run, FuncStats.step, Option.bind_some] at h
        simp only [List.singleton_append, List.length_cons] at hl
        have e1 : (a.current + 1).toInt = a.current.toInt + 1 := by
          rw [Int64.toInt_add]
          apply Int.bmod_eq_of_le <;> simp only [Int64.toInt_one] <;> omega
        have e2 : a.start.current = a.current + 1 := by unfold FuncStats.start; dsimp only; split <;> rfl
        have e3 : a.start.highwater.toInt = max a.highwater.toInt (a.current.toInt + 1) := by
          unfold FuncStats.start
          dsimp only
          split
          · rename_i hc
            rw [Int64.le_iff_toInt_le, e1] at hc
            show a.highwater.toInt = _
            omega
          · rename_i hc
            rw [Int64.le_iff_toInt_le, e1] at hc
            show (a.current + 1).toInt = _
            omega
        obtain ⟨r1, r2⟩ := ih a.start hn' h (by rw [e2, e1]; omega) (by rw [e2, e1, e3]; omega)
        rw [r1, r2, e2, e1, e3]
        omega
      · simp only [hg, if_false, List.nil_append] at h hl ⊢
        obtain ⟨r1, r2⟩ := ih a hn' h hl hh
        rw [r1, r2]; omega
    | finish e p d W =>
      rw [bal_finish]
      by_cases hg : g = f
      · simp only [hg, if_true] at h hl ⊢
        simp only [List.singleton_append, FuncStats.run, FuncStats.step] at h
        obtain ⟨a', h1, h2⟩ := Option.bind_eq_some_iff.mp h
        obtain ⟨c1, c2⟩ := finish_counts h1
        simp only [List.singleton_append, List.length_cons] at hl
        have e1 := congrArg Int64.toInt c1
        rw [dec_toInt (by omega) (by omega)] at e1
        clear c1
        obtain ⟨r1, r2⟩ := ih a' hn' h2 (by rw [e1]; omega) (by rw [e1, c2]; omega)
        rw [r1, r2, e1, c2]
        omega
      · simp only [hg, if_false, List.nil_append] at h hl ⊢
        obtain ⟨r1, r2⟩ := ih a hn' h hl hh
        rw [r1, r2]; omega

/-- Before anything. -/
def State.init : State E := ⟨.init, [], [], [], fun _ => 0, []⟩

/-- **C64.** A program of monitored calls, of any shape, ends of the goroutine by `runtime.Goexit` included, run from the start on a context without a span (or with none at all),
`panic(nil)` being excluded or having its new meaning:
it ends as it does without monkit, and no span is left running, none was orphaned, every trace's span count is 0;
and for every function `f`, with `rs` the calls of it that the program makes,
its statistics have `Current() = 0`, `Highwater()` the most calls of it under way at once,
`Panics()`, `Errors()`, `Success()` the numbers of calls that ended so, `SuccessTimes` and `FailureTimes` their durations,
and its parents are the functions that called it. -/
theorem C64_accounting_partial {K oob fused} (hK : IsIntKind K oob fused) (next : G → UInt64 × G) (name : E → Str) (key : Key)
    (g1 g2 : G) (nilErr : Bool) (c : Call E) (hn : nilErr = true ∨ NoNil c) (p : Option (Option Ctx))
    (hp : Tasks.current p = none) :
    let recs := (plain nilErr none p.isSome c).1
    let r := run nilErr State.init p c
    r.2 = (plain nilErr none p.isSome c).2 ∧ r.1.running = [] ∧ r.1.orphans = [] ∧ r.1.spanCount = (fun _ => 0) ∧
    ∀ f : Nat, 2 * (recsOf f recs).length < 2 ^ 63 →
      let rs := recsOf f recs
      ∃ s, (FuncStats.new K key g1 g2).run K next name (opsOf f r.1.log) = some s ∧
        s.current = 0 ∧ s.highwater.toInt = depth nilErr f c ∧
        s.panics.toInt = rs.countP (·.cls.isPanic) ∧
        (∀ n, Map.get s.errors n = none ↔ rs.countP (·.cls.named name n) = 0) ∧
        (∀ n k, Map.get s.errors n = some k → k.toInt = rs.countP (·.cls.named name n)) ∧
        s.success.count.toInt = rs.countP (·.cls.isSuccess) ∧
        s.success.sum.toInt = wrapSum ((rs.filter (·.cls.isSuccess)).map (·.dur)) ∧
        s.failure.count.toInt = rs.countP (fun x => !x.cls.isSuccess) ∧
        s.failure.sum.toInt = wrapSum ((rs.filter (fun x => !x.cls.isSuccess)).map (·.dur)) ∧
        ∀ q, (q, f) ∈ r.1.parents ↔ ∃ x ∈ rs, x.caller = q := by
  intro recs r
  have hg : Good (State.init : State E) := ⟨by simp [State.init], rfl, Tasks.C29_reachable .init⟩
  have hf : funcOf (State.init : State E).world p = none := by unfold funcOf; rw [hp]; rfl
  obtain ⟨x, x2, -⟩ := run_ext nilErr c State.init p hg (fun q hq => by rw [hp] at hq; cases hq) hn
  rw [hf] at x x2
  refine ⟨x2, x.running, x.good.noOrphan, x.count, ?_⟩
  intro f hlen rs
  have hnr : NoReset r.1.log := x.noReset (by simp [NoReset, State.init])
  have hfin : fins r.1.log = recs.map (fun r => (r.func, r.cls, r.dur)) := by
    rw [x.fin]; rfl
  obtain ⟨o1, o2⟩ := finishedObs_opsOf f r.1.log hnr
  have hobs : finishedObs (opsOf f r.1.log) = rs.map (fun r => (r.cls, r.dur)) := by
    rw [o1, hfin, List.filter_map, List.map_map]
    rfl
  have hbal : bal f r.1.log = 0 := x.bal f
  have hpeak : peak f r.1.log = depth nilErr f c := by
    rw [x.peak f]
    show max 0 (0 + _) = _
    omega
  have hl : (opsOf f r.1.log).length < 2 ^ 63 := by
    rw [hobs, hbal, List.length_map] at o2
    have : 2 * rs.length < 2 ^ 63 := hlen
    omega
  obtain ⟨s, h1, h2, -, h3, h4, h5, h6, -⟩ := FuncStats.C17_accounting hK next name key g1 g2 (opsOf f r.1.log) hl
  obtain ⟨c1, c2⟩ := run_counts f r.1.log _ s hnr h1
    (by show (0 : Int64).toInt.natAbs + _ < _; simp only [Int64.toInt_zero, Int.natAbs_zero]; omega) (Int.le_refl _)
  rw [hbal] at c1
  rw [hpeak] at c2
  have z : (FuncStats.new K key g1 g2).current.toInt = 0 := rfl
  have z2 : (FuncStats.new K key g1 g2).highwater.toInt = 0 := rfl
  rw [z] at c1 c2
  rw [z2] at c2
  rw [hobs] at h2 h3 h4 h5 h6
  have hc : ∀ q : Class E → Bool, (rs.map (fun r => (r.cls, r.dur))).countP (fun x => q x.1) = rs.countP (fun x => q x.cls) := by
    intro q; rw [List.countP_map]; rfl
  have hm : ∀ q : Class E → Bool, (((rs.map (fun r => (r.cls, r.dur))).filter (fun x => q x.1)).map (·.2)) =
      (rs.filter (fun x => q x.cls)).map (·.dur) := by
    intro q; rw [List.filter_map, List.map_map]; rfl
  have hm1 := hm Class.isSuccess
  have hm2 := hm (fun x => !x.isSuccess)
  refine ⟨s, h1, Int64.toInt_inj.mp (by rw [c1]; rfl), by rw [c2]; omega, ?_, ?_, ?_, ?_, ?_, ?_, ?_, ?_⟩
  · rw [h2]; exact congrArg _ (hc Class.isPanic)
  · intro n; rw [h3 n]; rw [hc (Class.named name n)]
  · intro n k hk; rw [h4 n k hk]; exact congrArg _ (hc (Class.named name n))
  · rw [h5.1, hm1, List.length_map, ← List.countP_eq_length_filter]
  · rw [h5.2.1, hm1]
  · rw [h6.1, hm2, List.length_map, ← List.countP_eq_length_filter]
  · rw [h6.2.1, hm2]
  · intro q
    rw [x.parents.mem_iff]
    show (q, f) ∈ [] ++ recs.map _ ↔ _
    simp only [List.nil_append, List.mem_map, Prod.mk.injEq, rs, recsOf, List.mem_filter, decide_eq_true_eq]
    exact ⟨fun ⟨a, h1, h2, h3⟩ => ⟨a, ⟨h1, h3⟩, h2⟩, fun ⟨a, ⟨h1, h3⟩, h2⟩ => ⟨a, h1, h2, h3⟩⟩

/-- A program: function 0 calls function 1 twice – the first fails with error 7, and calls 0 once more, the second panics and
0 recovers – and then returns nothing. -/
def sample : Call Nat :=
  .mk 0 true 100 10 1024 (.call .own
    (.mk 1 true 101 2 1024 (.call .own (.mk 0 true 103 1 1024 (.ret none)) fun _ => .ret (some 7)))
    fun _ => .call (.withValue 1 2) (.mk 1 true 102 3 1024 (.panic (some 5) (some 9))) fun _ => .ret none)

/-- It meets the hypotheses, and this is what happens in it. -/
example : NoNil sample ∧ Tasks.current (some none) = none ∧
    (plain false none true sample).1.map (fun r => (r.caller, r.func, r.dur)) =
      [(some 1, 0, 1), (some 0, 1, 2), (some 0, 1, 3), (none, 0, 10)] ∧
    depth false 0 sample = 2 ∧ depth false 1 sample = 1 ∧
    (plain false none true sample).1.countP (·.cls.isPanic) = 1 := by
  refine ⟨?_, rfl, rfl, rfl, rfl, rfl⟩
  simp [sample, NoNil, NoNilBody]

/-- **C64 is false of the code** for a function that ends with `panic(nil)` where that panics with nil: run with monkit the
program returns where without it panics, and the call is counted as a success and not as a panic. -/
theorem C64_panic_nil_violated :
    let c : Call Nat := .mk 0 true 100 10 1024 (.panic none none)
    (plain false none true c).2 = .panic none ∧ (run false State.init (some none) c).2 = .ret none ∧
    finishedObs (opsOf 0 (run false State.init (some none) c).1.log) = [(.success, 10)] := by
  refine ⟨?_, ?_, ?_⟩
  · rfl
  · rfl
  · rfl

/-! ## `runtime.Goexit` -/

/-- C107, what holds: a program of monitored calls that ends its goroutine with `runtime.Goexit`, from however deep, ends it with monkit too; every span it started is finished, none
was orphaned, the span counts of all traces are 0 and so is `Current()` of every function.  Missing: how the calls are counted. -/
theorem C107_finished_partial {K oob fused} (hK : IsIntKind K oob fused) (next : G → UInt64 × G) (name : E → Str) (key : Key)
    (g1 g2 : G) (nilErr : Bool) (c : Call E) (hn : nilErr = true ∨ NoNil c) (p : Option (Option Ctx))
    (hp : Tasks.current p = none) (hgo : (plain nilErr none p.isSome c).2.isGone = true) :
    let r := run nilErr State.init p c
    r.2.isGone = true ∧ r.1.running = [] ∧ r.1.orphans = [] ∧ r.1.spanCount = (fun _ => 0) ∧
    ∀ f : Nat, 2 * (recsOf f (plain nilErr none p.isSome c).1).length < 2 ^ 63 →
      ∃ s, (FuncStats.new K key g1 g2).run K next name (opsOf f r.1.log) = some s ∧ s.current = 0 := by
  obtain ⟨h1, h2, h3, h4, h5⟩ := C64_accounting_partial hK next name key g1 g2 nilErr c hn p hp
  refine ⟨by rw [h1]; exact hgo, h2, h3, h4, fun f hf => ?_⟩
  obtain ⟨s, e1, e2, -⟩ := h5 f hf
  exact ⟨s, e1, e2⟩

/-- Function 0 calls function 1, which fails a test; 0 had asked for function 2 to be called whatever happens. -/
def failing : Call Nat :=
  .mk 0 true 100 10 1024 (.call .own (.mk 1 true 101 2 1024 (.goexit none)) fun _ =>
    .call .own (.mk 2 true 102 3 1024 (.ret none)) fun _ => .ret none)

/-- It meets the hypotheses: function 0 is gone too, although what it does after the call is to return; function 2 is called, and returns. -/
example : NoNil failing ∧ Tasks.current (some none) = none ∧ (plain false none true failing).2.isGone = true ∧
    (plain false none true failing).1.map (fun r => (r.caller, r.func, r.dur)) = [(some 0, 1, 2), (some 0, 2, 3), (none, 0, 10)] := by
  refine ⟨?_, rfl, rfl, rfl⟩
  simp [failing, NoNil, NoNilBody]

/-- **C107 is false of the code**: calls that never returned are counted as successes – function 1, which ended the goroutine, and its caller 0. -/
theorem C107_success_violated :
    (run false State.init (some none) failing).2.isGone = true ∧
    finishedObs (opsOf 1 (run false State.init (some none) failing).1.log) = [(.success, 2)] ∧
    finishedObs (opsOf 0 (run false State.init (some none) failing).1.log) = [(.success, 10)] := by
  refine ⟨?_, ?_, ?_⟩ <;> rfl

end Monkit.Calls
