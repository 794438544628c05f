import Verif.Props.FuncStats
import Verif.Props.Dist5

/-!
# C17: the durations that a Func's statistics report
-/

namespace Monkit.Dist
variable {V R G : Type}

theorem insert_key {K : DistKind V R} {next : G → UInt64 × G} {W : Int64} {d d' : Dist V R G} {v : V}
    (h : d.insert K next W v = some d') : d'.key = d.key := by
  unfold insert at h
  simp only at h
  repeat' split at h
  all_goals first
    | (cases h; done)
    | (simp only [Option.some.injEq] at h; subst h; rfl)

theorem stats_key {K : DistKind V R} {d d' : Dist V R G} {r} (h : d.stats K = some (d', r)) : d'.key = d.key := by
  unfold stats at h
  split at h
  · simp only [Option.bind_eq_bind, Option.bind_eq_some_iff, Prod.exists, Option.some.injEq, Prod.mk.injEq] at h
    obtain ⟨d1, _, e1, d2, _, e2, d3, _, e3, d4, _, e4, d5, _, e5, d6, _, e6, rfl, _⟩ := h
    rw [(query_key e6).1, (query_key e5).1, (query_key e4).1, (query_key e3).1, (query_key e2).1, (query_key e1).1]
  · simp only [Option.some.injEq, Prod.mk.injEq] at h
    rw [h.1]

theorem step_key {K : DistKind V R} {next : G → UInt64 × G} {d d' : Dist V R G} {o : Op V}
    (h : d.step K next o = some d') : d'.key = d.key := by
  cases o with
  | insert v W => exact insert_key h
  | query q =>
    simp only [step, Option.map_eq_some_iff] at h
    obtain ⟨x, e, rfl⟩ := h
    exact (query_key e).1
  | stats =>
    simp only [step, Option.map_eq_some_iff] at h
    obtain ⟨x, e, rfl⟩ := h
    exact stats_key e
  | reset => simp only [step, Option.some.injEq] at h; subst h; rfl

theorem run_key {K : DistKind V R} {next : G → UInt64 × G} (ops : List (Op V)) {d d' : Dist V R G}
    (h : d.run K next ops = some d') : d'.key = d.key := by
  induction ops generalizing d with
  | nil => simp only [run, Option.some.injEq] at h; rw [h]
  | cons o os ih =>
    simp only [run, Option.bind_eq_some_iff] at h
    obtain ⟨d1, e, h⟩ := h
    rw [ih h, step_key e]

end Monkit.Dist

namespace Monkit.FuncStats
open Go Monkit.Spec

variable {G E : Type}

/-- `k` is the series of the durations of kind `kind` of the function with series `key`: measurement with `_times` appended, one more tag. -/
def TimesKey (key : Key) (kind : Str) (k : Key) : Prop :=
  k.measurement = key.measurement ++ b!"_times" ∧
  ∀ t, Map.get k.tags t = if t = b!"kind" then some kind else Map.get key.tags t

/-- `r` reports the durations `vs` (nanoseconds) in seconds under the series `k`: with none only the count, else also their sum, least,
greatest and last, and quantiles that do not decrease. -/
def TimesReport (k : Key) (vs : List Int64) (r : List (Key × Str × FVal)) : Prop :=
  (vs = [] → r = [(k, b!"count", .int 0)]) ∧
  (vs ≠ [] → ∃ sum low high recent rmin ravg r10 r50 r90 r99 rmax cnt : Int64,
    cnt.toInt = vs.length ∧ sum.toInt = wrapSum vs ∧ isMinOrZero vs low ∧ isMaxOrZero vs high ∧ vs.getLast? = some recent ∧
    rmin.toInt ≤ r10.toInt ∧ r10.toInt ≤ r50.toInt ∧ r50.toInt ≤ r90.toInt ∧ r90.toInt ≤ r99.toInt ∧ r99.toInt ≤ rmax.toInt ∧
    r = [(k, b!"count", .int cnt), (k, b!"sum", .secs sum), (k, b!"min", .secs low), (k, b!"max", .secs high),
      (k, b!"rmin", .secs rmin), (k, b!"ravg", .secs ravg), (k, b!"r10", .secs r10), (k, b!"r50", .secs r50),
      (k, b!"r90", .secs r90), (k, b!"r99", .secs r99), (k, b!"rmax", .secs rmax), (k, b!"recent", .secs recent)])

theorem timesReport {oob fused} (next : G → UInt64 × G) (k : Key) (g g' : G) (dops : List (Dist.Op Int64)) (hv : Valid dops)
    (hc : Convertible dops) (d : Dist Int64 ℚ G) (e : (Dist.new (durKind oob fused) k g).run (durKind oob fused) next dops = some d) :
    ∃ d' r, (d.copy g').stats (durKind oob fused) = some (d', r) ∧ TimesReport k (inserted dops) r := by
  obtain ⟨d', r, h1, h2, h3⟩ := C06_stats_report_partial (.inr rfl) next k g dops hv hc d e
  have hk : d.key = k := Dist.run_key _ e
  rw [hk] at h2 h3
  refine ⟨d'.copy g', r, by rw [stats_copy, h1]; rfl, h2, h3⟩

theorem times_split {oob fused} (next : G → UInt64 × G)
    (name : E → Str) (key : Key) (g1 g2 : G) (ops : List (Op E)) (hlen : ops.length < 2 ^ 63)
    (hd : ∀ err p d W, Op.finish err p d W ∈ ops → d.toInt ≤ 2 ^ 63 - 2 ^ 38 - 1)
    (f : FuncStats G) (hrun : (new (durKind oob fused) key g1 g2).run (durKind oob fused) next name ops = some f)
    (ord : Map Str Int64) (hord : ord.Perm f.errors) (g1' g2' : G) :
    let obs := finishedObs ops
    ∃ counts ks r1 kf r2, f.stats (durKind oob fused) ord g1' g2' = some (counts ++ r1 ++ r2) ∧
      (∃ v1 v2 v3 v4 v5 v6 v7, counts = [(key, b!"current", v1), (key, b!"highwater", v2), (key, b!"successes", v3)] ++
        ord.map (fun x => (key.withTag b!"error_name" x.1, b!"count", FVal.int x.2)) ++
        [(key, b!"errors", v4), (key, b!"panics", v5), (key, b!"failures", v6), (key, b!"total", v7)]) ∧
      TimesKey key b!"success" ks ∧ TimesReport ks ((obs.filter (·.1.isSuccess)).map (·.2)) r1 ∧
      TimesKey key b!"failure" kf ∧ TimesReport kf ((obs.filter (fun x => !x.1.isSuccess)).map (·.2)) r2 := by
  intro obs
  have hK : IsIntKind (durKind oob fused) oob fused := .inr rfl
  obtain ⟨f', hr, hi⟩ := inv_run hK next name key g1 g2 ops hlen
  rw [hrun] at hr
  obtain rfl := Option.some.inj hr
  have mem_obs : ∀ ops : List (Op E), ∀ x ∈ finishedObs ops, ∃ err p W, Op.finish err p x.2 W ∈ ops := by
    intro ops
    induction ops using List.reverseRecOn with
    | nil => simp [finishedObs]
    | append_singleton os o ih =>
      intro x hx
      rw [finishedObs_snoc] at hx
      cases o with
      | start => obtain ⟨a, b, c, h⟩ := ih x hx; exact ⟨a, b, c, by simp [h]⟩
      | reset => simp at hx
      | finish err p d W =>
        rcases List.mem_append.mp hx with hx | hx
        · obtain ⟨a, b, c, h⟩ := ih x hx; exact ⟨a, b, c, by simp [h]⟩
        · simp only [List.mem_singleton] at hx; subst hx; exact ⟨err, p, W, by simp⟩
  have hcs : Convertible (ops.flatMap succOp) := by
    intro v hv
    rw [inserted_succ] at hv
    simp only [List.mem_map, List.mem_filter] at hv
    obtain ⟨x, ⟨hx, _⟩, rfl⟩ := hv
    obtain ⟨err, p, W, h⟩ := mem_obs ops x hx
    have := hd err p x.2 W h
    omega
  have hcf : Convertible (ops.flatMap failOp) := by
    intro v hv
    rw [inserted_fail] at hv
    simp only [List.mem_map, List.mem_filter] at hv
    obtain ⟨x, ⟨hx, _⟩, rfl⟩ := hv
    obtain ⟨err, p, W, h⟩ := mem_obs ops x hx
    have := hd err p x.2 W h
    omega
  obtain ⟨d1, r1, e1, t1⟩ := timesReport next (new (durKind oob fused) key g1 g2).success.key g1 g1' _ (valid_succ ops hlen) hcs f.success hi.succ
  obtain ⟨d2, r2, e2, t2⟩ := timesReport next (new (durKind oob fused) key g1 g2).failure.key g2 g2' _ (valid_fail ops hlen) hcf f.failure hi.fail
  rw [inserted_succ] at t1
  rw [inserted_fail] at t2
  refine ⟨_, _, r1, _, r2, by simp only [stats, e1, e2, Option.bind_eq_bind, Option.bind_some]; rfl, ?_, ⟨rfl, ?_⟩, t1, ⟨rfl, ?_⟩, t2⟩
  · rw [hi.hkey]; exact ⟨_, _, _, _, _, _, _, rfl⟩
  · intro t
    show Map.get (Map.set key.tags _ _) t = _
    rw [Map.get_set]; simp only [eq_comm]
  · intro t
    show Map.get (Map.set key.tags _ _) t = _
    rw [Map.get_set]; simp only [eq_comm]

/-- **C17 (durations).**  What `Stats` emits on a reachable `FuncStats`, after the counts, is the report of the durations of the successes since the
last `Reset` under the series `…_times` with the tag `kind=success`, and then that of the durations of the errors and panics with
`kind=failure`; both in seconds.  (Durations are below 2^63 − 2^38 ns, 292 years.) -/
theorem C17_times_report {oob fused} (next : G → UInt64 × G)
    (name : E → Str) (key : Key) (g1 g2 : G) (ops : List (Op E)) (hlen : ops.length < 2 ^ 63)
    (hd : ∀ err p d W, Op.finish err p d W ∈ ops → d.toInt ≤ 2 ^ 63 - 2 ^ 38 - 1)
    (f : FuncStats G) (hrun : (new (durKind oob fused) key g1 g2).run (durKind oob fused) next name ops = some f)
    (ord : Map Str Int64) (hord : ord.Perm f.errors) (g1' g2' : G) :
    let obs := finishedObs ops
    ∃ counts ks r1 kf r2, f.stats (durKind oob fused) ord g1' g2' = some (counts ++ r1 ++ r2) ∧
      (∀ x ∈ counts, x.1.measurement = key.measurement) ∧
      TimesKey key b!"success" ks ∧ TimesReport ks ((obs.filter (·.1.isSuccess)).map (·.2)) r1 ∧
      TimesKey key b!"failure" kf ∧ TimesReport kf ((obs.filter (fun x => !x.1.isSuccess)).map (·.2)) r2 := by
  intro obs
  obtain ⟨counts, ks, r1, kf, r2, e, ⟨v1, v2, v3, v4, v5, v6, v7, rfl⟩, h⟩ :=
    times_split next name key g1 g2 ops hlen hd f hrun ord hord g1' g2'
  refine ⟨_, ks, r1, kf, r2, e, ?_, h⟩
  intro x hx
  simp only [List.mem_append, List.mem_cons, List.not_mem_nil, or_false, List.mem_map] at hx
  rcases hx with ((rfl | rfl | rfl) | ⟨y, _, rfl⟩) | (rfl | rfl | rfl | rfl) <;> rfl

/-- The hypotheses are met by the history of the example after `C17_report`. -/
example : let ops : List (Op Str) := [.start, .finish none false 99 1024, .reset, .start, .start, .finish (some b!"EOF") false 5 1024,
       .finish none false 7 1024, .finish (some b!"EOF") true 1 1024, .finish (some b!"x") false 2 1024,
       .finish (some b!"EOF") false 3 1024]
    ops.length < 2 ^ 63 ∧ (∀ err p d W, Op.finish err p d W ∈ ops → d.toInt ≤ 2 ^ 63 - 2 ^ 38 - 1) := by
  refine ⟨by decide, ?_⟩
  intro err p d W h
  simp only [List.mem_cons, Op.finish.injEq, reduceCtorEq, false_or, List.not_mem_nil, or_false] at h
  rcases h with ⟨_, _, rfl, _⟩ | ⟨_, _, rfl, _⟩ | ⟨_, _, rfl, _⟩ | ⟨_, _, rfl, _⟩ | ⟨_, _, rfl, _⟩ | ⟨_, _, rfl, _⟩ <;> decide

end Monkit.FuncStats
