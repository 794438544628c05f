import Verif.Proofs.FuncStats

/-!
# C17: what a Func's statistics count
-/

namespace Monkit.FuncStats
open Go Monkit.Spec

variable {G E : Type}

theorem num_eq (p : Class E → Bool) (ops : List (Op E)) :
    num p ops = (finishedObs ops).countP (fun x => p x.1) := by
  unfold num; rw [List.countP_map]; rfl

theorem num_lt (p : Class E → Bool) (ops : List (Op E)) (h : ops.length < 2 ^ 63) :
    (Int64.ofNat (num p ops)).toInt = num p ops :=
  Int64.toInt_ofNat_of_lt (lt_of_le_of_lt (num_le p ops) h)

/-- **C17 (accounting).** After any sequence of starts, finished observations and `Reset`s (of any
outcomes, durations and error names) nothing has panicked, and with `obs` the observations finished
since the last `Reset`:
`Panics()` is the number of those that panicked;
`Errors()` maps each name to the number of errors with that name, and has no entry for other names;
`SuccessTimes()` holds exactly the durations of the successes (so `Success()` is their number);
`FailureTimes()` holds exactly the durations of the others;
and the three classes together are all of `obs`. -/
theorem C17_accounting {K oob fused} (hK : IsIntKind K oob fused) (next : G → UInt64 × G)
    (name : E → Str) (key : Key) (g1 g2 : G) (ops : List (Op E)) (hlen : ops.length < 2 ^ 63) :
    ∃ f, (new K key g1 g2).run K next name ops = some f ∧
      let obs := finishedObs ops
      let succ := (obs.filter (·.1.isSuccess)).map (·.2)
      let fail := (obs.filter (fun x => !x.1.isSuccess)).map (·.2)
      f.panics.toInt = obs.countP (·.1.isPanic) ∧
      Map.Ok f.errors ∧
      (∀ n, Map.get f.errors n = none ↔ obs.countP (·.1.named name n) = 0) ∧
      (∀ n c, Map.get f.errors n = some c → c.toInt = obs.countP (·.1.named name n)) ∧
      (f.success.count.toInt = succ.length ∧ f.success.sum.toInt = wrapSum succ ∧
        isMinOrZero succ f.success.low ∧ isMaxOrZero succ f.success.high ∧
        f.success.recent = succ.getLast?.getD 0) ∧
      (f.failure.count.toInt = fail.length ∧ f.failure.sum.toInt = wrapSum fail ∧
        isMinOrZero fail f.failure.low ∧ isMaxOrZero fail f.failure.high ∧
        f.failure.recent = fail.getLast?.getD 0) ∧
      obs.countP (·.1.isSuccess) + obs.countP (·.1.isError) + obs.countP (·.1.isPanic) = obs.length := by
  obtain ⟨f, hr, hi⟩ := inv_run hK next name key g1 g2 ops hlen
  obtain ⟨ds, hds, as⟩ := C04_dist_aggregates hK next (new K key g1 g2).success.key g1 _
    (valid_succ ops hlen)
  obtain ⟨df, hdf, af⟩ := C04_dist_aggregates hK next (new K key g1 g2).failure.key g2 _
    (valid_fail ops hlen)
  change (new K key g1 g2).success.run K next _ = _ at hds
  change (new K key g1 g2).failure.run K next _ = _ at hdf
  rw [hi.succ] at hds
  rw [hi.fail] at hdf
  obtain rfl := Option.some.inj hds
  obtain rfl := Option.some.inj hdf
  rw [inserted_succ] at as
  rw [inserted_fail] at af
  refine ⟨f, hr, ?_, hi.ok, ?_, ?_, as, af, ?_⟩
  · rw [hi.panics, num_lt _ _ hlen, num_eq]
  · intro n
    rw [hi.errs, ← num_eq]
    by_cases h : num (Class.named name n) ops = 0 <;> simp [h]
  · intro n c hc
    rw [hi.errs] at hc
    by_cases h : num (Class.named name n) ops = 0
    · simp [h] at hc
    · rw [if_neg h] at hc
      obtain rfl := Option.some.inj hc
      rw [num_lt _ _ hlen, num_eq]
  · generalize finishedObs ops = obs
    induction obs with
    | nil => rfl
    | cons x xs ih =>
      simp only [List.countP_cons, List.length_cons]
      have : x.1.isSuccess.toNat + x.1.isError.toNat + x.1.isPanic.toNat = 1 := by cases x.1 <;> rfl
      cases h1 : x.1.isSuccess <;> cases h2 : x.1.isError <;> cases h3 : x.1.isPanic <;>
        simp only [h1, h2, h3, Bool.toNat_true, Bool.toNat_false, Bool.false_eq_true, if_true,
          if_false] at this ⊢ <;> omega

/-- Sum of the values of a map, as `Stats` adds them up. -/
def total (m : Map Str Int64) : Int64 := m.foldl (fun c x => c + x.2) 0

theorem total_acc (m : Map Str Int64) (a : Int64) :
    m.foldl (fun c x => c + x.2) a = a + total m := by
  unfold total
  induction m generalizing a with
  | nil => simp
  | cons x xs ih =>
    rw [List.foldl_cons, ih, List.foldl_cons, ih (0 + x.2), Int64.zero_add, Int64.add_assoc]

theorem total_cons (x : Str × Int64) (m : Map Str Int64) : total (x :: m) = x.2 + total m := by
  rw [total, List.foldl_cons, total_acc, Int64.zero_add]

theorem total_perm {m m' : Map Str Int64} (p : m.Perm m') : total m = total m' := by
  induction p with
  | nil => rfl
  | cons x _ ih => rw [total_cons, total_cons, ih]
  | swap x y l =>
    rw [total_cons, total_cons, total_cons, total_cons, ← Int64.add_assoc, ← Int64.add_assoc,
      Int64.add_comm x.2]
  | trans _ _ ih1 ih2 => exact ih1.trans ih2

theorem total_bump (m : Map Str Int64) (k : Str) : total (bump m k) = total m + 1 := by
  induction m with
  | nil => simp [bump, Map.set, total]
  | cons x xs ih =>
    obtain ⟨a, b⟩ := x
    unfold bump at ih ⊢
    by_cases h : a = k
    · subst h
      simp only [Map.set, if_true, Map.get_cons, total_cons, Option.getD_some]
      rw [Int64.add_assoc, Int64.add_comm 1, Int64.add_assoc]
    · simp only [Map.set, if_neg h, Map.get_cons, total_cons, ih]
      rw [Int64.add_assoc]

theorem step_errors {K : DistKind Int64 ℚ} {next : G → UInt64 × G} {name : E → Str}
    {f f' : FuncStats G} {o : Op E} (h : f.step K next name o = some f') :
    f'.errors = match o with
      | .finish (some e) false _ _ => bump f.errors (name e)
      | .reset => []
      | _ => f.errors := by
  cases o with
  | start => simp only [step, Option.some.injEq] at h; subst h; unfold start; dsimp only; split <;> rfl
  | reset => simp only [step, Option.some.injEq] at h; subst h; rfl
  | finish err p d W =>
    cases p with
    | true =>
      simp only [step, finish, if_true, Option.map_eq_some_iff] at h
      obtain ⟨_, _, rfl⟩ := h
      cases err <;> rfl
    | false =>
      cases err <;> simp only [step, finish, Bool.false_eq_true, if_false, Option.map_eq_some_iff] at h
      all_goals obtain ⟨_, _, rfl⟩ := h; rfl

/-- The per-name counts add up to the number of errors. -/
theorem total_errors {K : DistKind Int64 ℚ} {next : G → UInt64 × G} {name : E → Str} {key : Key}
    {g1 g2 : G} (ops : List (Op E)) (f : FuncStats G)
    (h : (new K key g1 g2).run K next name ops = some f) :
    total f.errors = Int64.ofNat (num Class.isError ops) := by
  induction ops using List.reverseRecOn generalizing f with
  | nil => simp only [run, Option.some.injEq] at h; subst h; rfl
  | append_singleton ops o ih =>
    rw [run_append] at h
    obtain ⟨f0, h0, h1⟩ := Option.bind_eq_some_iff.mp h
    simp only [run, Option.bind_fun_some] at h1
    rw [step_errors h1, num_snoc]
    have := ih f0 h0
    cases o with
    | start => exact this
    | reset => rfl
    | finish err p d W =>
      cases p <;> cases err <;> simp [classify, Class.isError, this, total_bump, Int64.ofNat_add]

/-- **C17 (report).** What `Stats` on a reachable `FuncStats` emits, whatever the order in which it
ranges over the map of errors: after `current` and `highwater`, the numbers `S` of successes, `E` of
errors, `P` of panics finished since the last `Reset`, with `failures = E + P`,
`total = S + E + P` = the number of finished observations; one `count` per error name, tagged with
the name; then the two distributions. -/
theorem C17_report {K oob fused} (hK : IsIntKind K oob fused) (next : G → UInt64 × G)
    (name : E → Str) (key : Key) (g1 g2 : G) (ops : List (Op E)) (hlen : ops.length < 2 ^ 63)
    (f : FuncStats G) (hrun : (new K key g1 g2).run K next name ops = some f)
    (ord : Map Str Int64) (hord : ord.Perm f.errors) (g1' g2' : G) :
    let obs := finishedObs ops
    ∃ (S E P F T : Int64) (r1 r2 : List (Key × Str × FVal)),
      S.toInt = obs.countP (·.1.isSuccess) ∧ E.toInt = obs.countP (·.1.isError) ∧
      P.toInt = obs.countP (·.1.isPanic) ∧ F.toInt = E.toInt + P.toInt ∧
      T.toInt = S.toInt + F.toInt ∧ T.toInt = obs.length ∧
      (ord.map (·.1)).Nodup ∧
      (∀ n, n ∈ ord.map (·.1) ↔ obs.countP (·.1.named name n) ≠ 0) ∧
      (∀ n c, (n, c) ∈ ord → c.toInt = obs.countP (·.1.named name n)) ∧
      (∃ d1, (f.success.copy g1').stats K = some (d1, r1)) ∧
      (∃ d2, (f.failure.copy g2').stats K = some (d2, r2)) ∧
      f.stats K ord g1' g2' = some (
        [(key, b!"current", .int f.current), (key, b!"highwater", .int f.highwater),
         (key, b!"successes", .int S)] ++
        ord.map (fun x => (key.withTag b!"error_name" x.1, b!"count", .int x.2)) ++
        [(key, b!"errors", .int E), (key, b!"panics", .int P), (key, b!"failures", .int F),
         (key, b!"total", .int T)] ++ r1 ++ r2) := by
  intro obs
  obtain ⟨f', hr, hi⟩ := inv_run hK next name key g1 g2 ops hlen
  rw [hrun] at hr
  obtain rfl := Option.some.inj hr
  obtain ⟨f', hr, a1, a2, a3, a4, a5, -, a7⟩ := C17_accounting hK next name key g1 g2 ops hlen
  rw [hrun] at hr
  obtain rfl := Option.some.inj hr
  obtain ⟨ds, hds, is⟩ := Dist.inv_run hK.numeric.ordered next (new K key g1 g2).success.key g1
    (ops.flatMap succOp) (valid_succ ops hlen).2 (valid_succ ops hlen).1
  obtain ⟨df, hdf, if_⟩ := Dist.inv_run hK.numeric.ordered next (new K key g1 g2).failure.key g2
    (ops.flatMap failOp) (valid_fail ops hlen).2 (valid_fail ops hlen).1
  change (new K key g1 g2).success.run K next _ = _ at hds
  change (new K key g1 g2).failure.run K next _ = _ at hdf
  rw [hi.succ] at hds
  rw [hi.fail] at hdf
  obtain rfl := Option.some.inj hds
  obtain rfl := Option.some.inj hdf
  have is' : Dist.Inv K (inserted (ops.flatMap succOp)) (f.success.copy g1') :=
    by cases is; constructor <;> assumption
  have if' : Dist.Inv K (inserted (ops.flatMap failOp)) (f.failure.copy g2') :=
    by cases if_; constructor <;> assumption
  obtain ⟨d1, r1, e1, -⟩ := Dist.stats_spec hK.numeric.ordered is'
  obtain ⟨d2, r2, e2, -⟩ := Dist.stats_spec hK.numeric.ordered if'
  have hE : total ord = Int64.ofNat (num Class.isError ops) := by
    rw [total_perm hord, total_errors ops f hrun]
  have hS : f.success.count.toInt = (finishedObs ops).countP (·.1.isSuccess) := by
    rw [a5.1, List.length_map, ← List.countP_eq_length_filter]
  have hlt : (finishedObs ops).length < 2 ^ 63 := by
    have := num_le (fun _ => true) ops
    rw [num_eq] at this
    simp at this
    omega
  have hEi : (total ord).toInt = (finishedObs ops).countP (·.1.isError) := by
    rw [hE, num_lt _ _ hlen, num_eq]
  have hadd : ∀ a b : Int64, 0 ≤ a.toInt → 0 ≤ b.toInt → a.toInt + b.toInt < 2 ^ 63 →
      (a + b).toInt = a.toInt + b.toInt := by
    intro a b ha hb hab
    rw [Int64.toInt_add]
    apply Int.bmod_eq_of_le <;> omega
  have hF : (total ord + f.panics).toInt = (total ord).toInt + f.panics.toInt := by
    apply hadd <;> omega
  have hT : (f.success.count + total ord + f.panics).toInt =
      f.success.count.toInt + (total ord + f.panics).toInt := by
    rw [Int64.add_assoc]
    apply hadd <;> omega
  refine ⟨f.success.count, total ord, f.panics, total ord + f.panics,
    f.success.count + total ord + f.panics, r1, r2, hS, hEi, a1, hF, hT, ?_, ?_, ?_, ?_, ⟨d1, e1⟩,
    ⟨d2, e2⟩, ?_⟩
  · rw [hT, hF, hS, hEi, a1]
    show _ = ((finishedObs ops).length : Int)
    omega
  · exact Map.ok_perm hord.symm a2
  · intro n
    rw [Map.mem_keys_iff, ← Map.get_perm hord.symm a2, Ne, ← a3 n]
    cases Map.get f.errors n <;> simp
  · intro n c hmem
    exact a4 n c ((Map.mem_iff_get a2 n c).mp (hord.mem_iff.mp hmem))
  · simp only [stats, e1, e2, Option.bind_eq_bind, Option.bind_some, hi.hkey]
    rfl

/-- A history meeting the hypotheses: two errors of different names, a success, a panic (which also
carried an error), and a `Reset` before them. -/
example : ∃ f, (new (durKind (fun _ => 0) false) ⟨b!"function", []⟩ () ()).run
      (durKind (fun _ => 0) false) (fun g : Unit => (0, g)) (fun e : Str => e)
      [.start, .finish none false 99 1024, .reset, .start, .start, .finish (some b!"EOF") false 5 1024,
       .finish none false 7 1024, .finish (some b!"EOF") true 1 1024, .finish (some b!"x") false 2 1024,
       .finish (some b!"EOF") false 3 1024] = some f ∧
    f.panics = 1 ∧ f.errors = [(b!"EOF", 2), (b!"x", 1)] ∧ f.success.count = 1 ∧ f.success.sum = 7 ∧
    f.failure.count = 4 ∧ f.failure.sum = 11 := by
  refine ⟨_, rfl, ?_⟩
  decide +kernel

end Monkit.FuncStats
