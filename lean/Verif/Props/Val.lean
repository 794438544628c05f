import Verif.Model.Val
import Verif.Props.CounterConc
import Verif.Props.Dist5

/-!
# C15: timers, C68: value distributions under concurrency
-/

namespace Monkit.Val
open Go.Mutex Monkit Monkit.Spec

variable {G : Type}

/-- The result of each call of a sequential run is what the call returns in the state after the calls before it. -/
theorem seqRun_split {S Op Ret : Type} (exec : S → Op → S × Ret) (pre : List (Nat × Op × Ret)) (x : Nat × Op × Ret)
    (post : List (Nat × Op × Ret)) (s : S)
    (h : (seqRun exec s ((pre ++ x :: post).map (·.2.1))).2 = (pre ++ x :: post).map (·.2.2)) :
    x.2.2 = (exec (seqRun exec s (pre.map (·.2.1))).1 x.2.1).2 := by
  induction pre generalizing s with
  | nil =>
    simp only [List.nil_append, List.map_cons, seqRun, List.cons.injEq] at h
    simp only [List.map_nil, seqRun]
    exact h.1.symm
  | cons y ys ih =>
    simp only [List.cons_append, List.map_cons, seqRun, List.cons.injEq] at h
    simp only [List.map_cons, seqRun]
    exact ih _ h.2

/-- The distribution `d` holds exactly the values `vs`: their number, two's-complement sum, minimum, maximum and last, and a reservoir of
`min n 64` of them, all of them if there are at most 64, each as a float32. -/
def Holds (vs : List Int64) (d : Dist Int64 ℚ G) : Prop :=
  d.count.toInt = vs.length ∧ d.sum.toInt = wrapSum vs ∧
  isMinOrZero vs d.low ∧ isMaxOrZero vs d.high ∧ d.recent = vs.getLast?.getD 0 ∧
  (sample d).length = min vs.length 64 ∧ (∀ x ∈ sample d, ∃ v ∈ vs, x = Go.Float.rn 24 v.toInt) ∧
  (vs.length ≤ 64 → (sample d).Perm (vs.map fun v => Go.Float.rn 24 v.toInt))

theorem holds_run {K oob fused} (hK : IsIntKind K oob fused) (next : G → UInt64 × G) (key : Key) (g : G)
    (ops : List (Dist.Op Int64)) (hv : Valid ops) :
    ∃ d, (Dist.new K key g).run K next ops = some d ∧ Holds (inserted ops) d := by
  obtain ⟨d, e, a1, a2, a3, a4, a5⟩ := C04_dist_aggregates hK next key g ops hv
  exact ⟨d, e, a1, a2, a3, a4, a5, C05_reservoir_real hK next key g ops hv d e⟩

/-- The history of distribution calls that a list of `IntVal` calls amounts to. -/
def distOps : List (Op Int64 G) → List (Dist.Op Int64)
  | [] => []
  | .observe v W :: os => .insert v W :: distOps os
  | .quantile q :: os => .query q :: distOps os
  | .stats _ :: os => distOps os

theorem seqRun_dist (K : DistKind Int64 ℚ) (next : G → UInt64 × G) (ops : List (Op Int64 G))
    (d : Dist Int64 ℚ G) :
    (seqRun (obj K next).exec (some d) ops).1 = d.run K next (distOps ops) := by
  have dead : ∀ ops : List (Op Int64 G), (seqRun (obj K next).exec none ops).1 = none := by
    intro ops
    induction ops with
    | nil => rfl
    | cons o os ih => cases o <;> exact ih
  induction ops generalizing d with
  | nil => rfl
  | cons o os ih =>
    cases o with
    | observe v W =>
      show (seqRun (obj K next).exec (d.insert K next W v) os).1 =
        (d.insert K next W v).bind fun d' => d'.run K next (distOps os)
      cases h : d.insert K next W v with
      | none => exact dead os
      | some d' => exact ih d'
    | quantile q =>
      show (seqRun (obj K next).exec ((d.query K q).map (·.1)) os).1 =
        ((d.query K q).map (·.1)).bind fun d' => d'.run K next (distOps os)
      cases h : d.query K q with
      | none => exact dead os
      | some d' => exact ih d'.1
    | stats g => exact ih d

/-- The values observed by a list of calls. -/
def observed (ops : List (Op Int64 G)) : List Int64 :=
  ops.filterMap fun o => match o with | .observe v _ => some v | _ => none

theorem inserted_distOps (ops : List (Op Int64 G)) : inserted (distOps ops) = observed ops := by
  have key : ∀ (ops : List (Op Int64 G)) (acc : List Int64),
      (distOps ops).foldl (fun acc o => match o with
        | .insert v _ => acc ++ [v]
        | .reset => []
        | _ => acc) acc = acc ++ observed ops := by
    intro ops
    induction ops with
    | nil => intro acc; simp [distOps, observed]
    | cons o os ih =>
      intro acc
      cases o <;> simp only [distOps, List.foldl_cons, ih] <;> simp [observed]
  have := key ops []
  rw [List.nil_append] at this
  rw [← this]; unfold inserted; congr 1; funext acc o; cases o <;> rfl

theorem distOps_valid (l : List (Op Int64 G)) (hl : l.length < 2 ^ 63)
    (hq : ∀ q, Op.quantile q ∈ l → Go.Float.Rep 53 q) : Valid (distOps l) := by
  constructor
  · have a1 : ∀ l : List (Op Int64 G), (distOps l).length ≤ l.length := by
      intro l
      induction l with
      | nil => simp [distOps]
      | cons o os ih => cases o <;> simp [distOps] <;> omega
    have := a1 l
    omega
  · intro q hmem
    have a1 : ∀ l : List (Op Int64 G), Dist.Op.query q ∈ distOps l → Op.quantile q ∈ l := by
      intro l
      induction l with
      | nil => simp [distOps]
      | cons o os ih => cases o <;> simp [distOps] <;> grind
    exact hq q (a1 _ hmem)

/-- **C68.** Any number of goroutines observing values and asking for quantiles and statistics of
one `IntVal` or `DurationVal`, in any schedule, ending with no call in progress: nothing panicked, and there
is one order `lin` of all calls, agreeing with each goroutine's own order, such that the
distribution holds exactly the observed values (every observation once); each quantile was answered, and each
report made, from a distribution holding exactly the values observed before it in the order. -/
theorem C68_val_concurrent {K oob fused} (hK : IsIntKind K oob fused) (next : G → UInt64 × G)
    (key : Key) (g : G) (tr : List (Event (Op Int64 G) (Res Int64 ℚ G)))
    (c : Config (Option (Dist Int64 ℚ G)) (Res Int64 ℚ G) (Op Int64 G))
    (h : Exec (obj K next) (some (Dist.new K key g)) tr c) (quiet : ∀ t, c.thr t = .idle)
    (hlen : tr.length < 2 ^ 63) (hq : ∀ t q, Op.quantile q ∈ callsOf t tr → Go.Float.Rep 53 q) :
    ∃ lin : List (Nat × Op Int64 G × Res Int64 ℚ G),
      (∀ t, callsOf t tr = (lin.filter (·.1 = t)).map (·.2.1) ∧
            retsOf t tr = (lin.filter (·.1 = t)).map (·.2.2)) ∧
      (∃ d, c.sh = some d ∧ Holds (observed (lin.map (·.2.1))) d) ∧
      (∀ pre t v W r post, lin = pre ++ (t, .observe v W, r) :: post → r = .unit) ∧
      (∀ pre t q r post, lin = pre ++ (t, .quantile q, r) :: post →
        ∃ (d : Dist Int64 ℚ G) (v : Int64), Holds (observed (pre.map (·.2.1))) d ∧ (d.query K q).map (·.2) = some v ∧
          r = .val (some v)) ∧
      (∀ pre t g' r post, lin = pre ++ (t, .stats g', r) :: post →
        ∃ d : Dist Int64 ℚ G, Holds (observed (pre.map (·.2.1))) d ∧ d.rng = g' ∧ r = .copy (some d)) := by
  obtain ⟨lin, h1, h2⟩ := C03_no_lost_update _ _ tr c h quiet
  have a2 : lin.length ≤ tr.length := lin_length_le lin tr (fun t => by rw [(h2 t).1, List.length_map])
  have hin : ∀ x ∈ lin, ∀ q, x.2.1 = Op.quantile q → Go.Float.Rep 53 q := by
    intro x hx q he
    refine hq x.1 q ?_
    rw [(h2 x.1).1, ← he]
    exact List.mem_map.mpr ⟨x, by simp [hx], rfl⟩
  have hvalid : ∀ pre : List (Nat × Op Int64 G × Res Int64 ℚ G), (∀ x ∈ pre, x ∈ lin) → pre.length ≤ lin.length →
      Valid (distOps (pre.map (·.2.1))) := by
    intro pre hp hl
    refine distOps_valid _ (by rw [List.length_map]; omega) ?_
    intro q hm
    rw [List.mem_map] at hm
    obtain ⟨x, hx, he⟩ := hm
    exact hin x (hp x hx) q he
  have hstate : ∀ pre : List (Nat × Op Int64 G × Res Int64 ℚ G), (∀ x ∈ pre, x ∈ lin) → pre.length ≤ lin.length →
      ∃ d, (seqRun (obj K next).exec (some (Dist.new K key g)) (pre.map (·.2.1))).1 = some d ∧
        Holds (observed (pre.map (·.2.1))) d ∧ Dist.Inv K (inserted (distOps (pre.map (·.2.1)))) d := by
    intro pre hp hl
    have hv := hvalid pre hp hl
    obtain ⟨d, e, hh⟩ := holds_run hK next key g _ hv
    obtain ⟨d', e', i⟩ := Dist.inv_run hK.numeric.ordered next key g _ hv.2 hv.1
    rw [e] at e'; cases e'
    rw [inserted_distOps] at hh
    exact ⟨d, by rw [seqRun_dist, e], hh, i⟩
  have hres : ∀ pre x post, lin = pre ++ x :: post → x.2.2 =
      ((obj K next).exec (seqRun (obj K next).exec (some (Dist.new K key g)) (pre.map (·.2.1))).1 x.2.1).2 := by
    intro pre x post hl
    refine seqRun_split _ pre x post _ ?_
    rw [← hl, h1]
  have hpre : ∀ pre x post, lin = pre ++ x :: post → (∀ y ∈ pre, y ∈ lin) ∧ pre.length ≤ lin.length := by
    intro pre x post hl
    subst hl
    exact ⟨fun y hy => List.mem_append_left _ hy, by rw [List.length_append]; omega⟩
  refine ⟨lin, h2, ?_, ?_, ?_, ?_⟩
  · obtain ⟨d, e, hh, -⟩ := hstate lin (fun _ h => h) (le_refl _)
    rw [h1] at e
    exact ⟨d, e, hh⟩
  · intro pre t v W r post hl
    exact hres _ _ _ hl
  · intro pre t q r post hl
    obtain ⟨p1, p2⟩ := hpre _ _ _ hl
    obtain ⟨d, e, hh, i⟩ := hstate pre p1 p2
    obtain ⟨d', v, e', -⟩ := Dist.query_spec hK.numeric.ordered i q (hin (t, .quantile q, r) (by rw [hl]; simp) q rfl)
    have hr := hres _ _ _ hl
    rw [e] at hr
    refine ⟨d, v, hh, by rw [e']; rfl, ?_⟩
    change r = .val ((d.query K q).map (·.2)) at hr
    rw [hr, e']; rfl
  · intro pre t g' r post hl
    obtain ⟨p1, p2⟩ := hpre _ _ _ hl
    obtain ⟨d, e, hh, i⟩ := hstate pre p1 p2
    have hr := hres _ _ _ hl
    rw [e] at hr
    change r = .copy (some (d.copy g')) at hr
    exact ⟨d.copy g', hh, rfl, hr⟩

/-- The hypotheses are met: two goroutines enter `Observe` before either takes the lock. -/
example : ∃ tr c, Exec (obj (intKind (fun _ => 0) false) (fun g : Unit => (0, g)))
      (some (Dist.new (intKind (fun _ => 0) false) ⟨[], []⟩ ())) tr c ∧ (∀ t, c.thr t = .idle) ∧
    observed (callsOf 0 tr) = [10] ∧ observed (callsOf 1 tr) = [-20] ∧
    c.sh.map (fun d => (d.count, d.sum, d.recent)) = some (2, -10, 10) := by
  have e1 := Exec.step _ (Exec.start (o := obj (intKind (fun _ => 0) false) (fun g : Unit => (0, g)))
    (s₀ := some (Dist.new (intKind (fun _ => 0) false) ⟨[], []⟩ ()))) (.call _ 0 (.observe 10 1024) rfl)
  have e2 := Exec.step _ e1 (.call _ 1 (.observe (-20) 1024) rfl)
  have e3 := Exec.step _ e2 (.lock _ 1 (.observe (-20) 1024) rfl rfl)
  have e4 := Exec.step _ e3 (.access _ 1 (.observe (-20) 1024) _ _ _ rfl)
  have e5 := Exec.step _ e4 (.unlock _ 1 (.observe (-20) 1024) _ rfl)
  have e6 := Exec.step _ e5 (.lock _ 0 (.observe 10 1024) rfl rfl)
  have e7 := Exec.step _ e6 (.access _ 0 (.observe 10 1024) _ _ _ rfl)
  have e8 := Exec.step _ e7 (.unlock _ 0 (.observe 10 1024) _ rfl)
  refine ⟨_, _, e8, ?_, rfl, rfl, ?_⟩
  · intro t
    by_cases h0 : t = 0 <;> by_cases h1 : t = 1 <;> simp [upd, Config.init, h0, h1]
  · decide +kernel

end Monkit.Val

namespace Monkit.Timer
open Go.Mutex Monkit Monkit.Spec

variable {G : Type}

/-- The `Stop` calls, in order: which running timer and the elapsed time it had read. -/
def stops : List (Op G) → List (Nat × Int64)
  | [] => []
  | .stop r e _ :: os => (r, e) :: stops os
  | .values _ :: os => stops os

/-- The first `Stop` of each running timer, in order, given the timers already stopped. -/
def firsts (seen : Nat → Bool) : List (Nat × Int64) → List (Nat × Int64)
  | [] => []
  | (r, e) :: xs => if seen r then firsts seen xs else (r, e) :: firsts (upd seen r true) xs

/-- The distribution calls that a list of timer calls amounts to. -/
def distOps (seen : Nat → Bool) : List (Op G) → List (Dist.Op Int64)
  | [] => []
  | .stop r e W :: os => if seen r then distOps seen os
      else .insert e W :: distOps (upd seen r true) os
  | .values _ :: os => distOps seen os

theorem seqRun_dist (K : DistKind Int64 ℚ) (next : G → UInt64 × G) (ops : List (Op G))
    (d : Dist Int64 ℚ G) (seen : Nat → Bool) :
    (seqRun (obj K next).exec ⟨some d, seen⟩ ops).1.times = d.run K next (distOps seen ops) := by
  have dead : ∀ (ops : List (Op G)) seen,
      (seqRun (obj K next).exec ⟨none, seen⟩ ops).1.times = none := by
    intro ops
    induction ops with
    | nil => intro _; rfl
    | cons o os ih =>
      intro seen
      cases o with
      | stop r e W =>
        by_cases hs : seen r = true
        · have : ((obj K next).exec ⟨none, seen⟩ (.stop r e W)).1 = ⟨none, seen⟩ := by
            simp [Obj.exec, obj, hs]
          simp only [seqRun, this]; exact ih _
        · have : ((obj K next).exec ⟨none, seen⟩ (.stop r e W)).1 = ⟨none, upd seen r true⟩ := by
            simp [Obj.exec, obj, hs]
          simp only [seqRun, this]; exact ih _
      | values g => exact ih _
  induction ops generalizing d seen with
  | nil => rfl
  | cons o os ih =>
    cases o with
    | stop r e W =>
      by_cases hs : seen r = true
      · have : ((obj K next).exec ⟨some d, seen⟩ (.stop r e W)).1 = ⟨some d, seen⟩ := by
          simp [Obj.exec, obj, hs]
        simp only [seqRun, this, distOps, hs, if_true]; exact ih _ _
      · have : ((obj K next).exec ⟨some d, seen⟩ (.stop r e W)).1 =
            ⟨d.insert K next W e, upd seen r true⟩ := by
          simp [Obj.exec, obj, hs]
        simp only [seqRun, this, distOps, hs]
        show _ = (d.insert K next W e).bind fun d' => d'.run K next (distOps (upd seen r true) os)
        cases d.insert K next W e with
        | none => exact dead _ _
        | some d' => exact ih _ _
    | values g => exact ih _ _

theorem inserted_distOps (ops : List (Op G)) :
    inserted (distOps (fun _ => false) ops) = (firsts (fun _ => false) (stops ops)).map (·.2) := by
  have key : ∀ (ops : List (Op G)) (seen : Nat → Bool) (acc : List Int64),
      (distOps seen ops).foldl (fun acc o => match o with
        | .insert v _ => acc ++ [v]
        | .reset => []
        | _ => acc) acc = acc ++ (firsts seen (stops ops)).map (·.2) := by
    intro ops
    induction ops with
    | nil => intro seen acc; simp [distOps, stops, firsts]
    | cons o os ih =>
      intro seen acc
      cases o with
      | stop r e W =>
        by_cases hs : seen r = true
        · simp only [distOps, stops, firsts, hs, if_true]; exact ih _ _
        · simp only [distOps, stops, firsts, hs, Bool.false_eq_true, if_false, List.foldl_cons, ih]; simp
      | values g => simp only [distOps, stops]; exact ih _ _
  have := key ops (fun _ => false) []
  rw [List.nil_append] at this
  rw [← this]; unfold inserted; congr 1; funext acc o; cases o <;> rfl

/-- `firsts` lists every stopped timer exactly once. -/
theorem firsts_nodup (l : List (Nat × Int64)) (seen : Nat → Bool) :
    ((firsts seen l).map (·.1)).Nodup ∧
    ∀ r, r ∈ (firsts seen l).map (·.1) ↔ (seen r = false ∧ r ∈ l.map (·.1)) := by
  induction l generalizing seen with
  | nil => simp [firsts]
  | cons x xs ih =>
    obtain ⟨r, e⟩ := x
    by_cases hs : seen r = true
    · simp only [firsts, hs, if_true]
      refine ⟨(ih seen).1, fun r' => ?_⟩
      rw [(ih seen).2]
      simp only [List.map_cons, List.mem_cons]
      constructor
      · rintro ⟨a, b⟩; exact ⟨a, .inr b⟩
      · rintro ⟨a, rfl | b⟩
        · rw [hs] at a; cases a
        · exact ⟨a, b⟩
    · have hs' : seen r = false := by simpa using hs
      simp only [firsts, hs', Bool.false_eq_true, if_false]
      refine ⟨?_, fun r' => ?_⟩
      · rw [List.map_cons, List.nodup_cons]
        refine ⟨?_, (ih _).1⟩
        rw [(ih _).2]; simp
      · rw [List.map_cons, List.mem_cons, (ih _).2, List.map_cons, List.mem_cons]
        by_cases hr : r' = r
        · subst hr; simp [hs']
        · simp [upd, hr]

/-- Each entry of `firsts` is the first `Stop` of its timer. -/
theorem firsts_first (l : List (Nat × Int64)) (r : Nat) (e : Int64)
    (h : (r, e) ∈ firsts (fun _ => false) l) :
    ∃ pre post, l = pre ++ (r, e) :: post ∧ r ∉ pre.map (·.1) := by
  have key : ∀ (l : List (Nat × Int64)) (seen : Nat → Bool), (r, e) ∈ firsts seen l →
      seen r = false ∧ ∃ pre post, l = pre ++ (r, e) :: post ∧ r ∉ pre.map (·.1) := by
    intro l
    induction l with
    | nil => simp [firsts]
    | cons x xs ih =>
      obtain ⟨r', e'⟩ := x
      intro seen h
      by_cases hs : seen r' = true
      · simp only [firsts, hs, if_true] at h
        obtain ⟨h0, pre, post, h1, h2⟩ := ih seen h
        refine ⟨h0, (r', e') :: pre, post, by simp [h1], ?_⟩
        simp only [List.map_cons, List.mem_cons, not_or]
        refine ⟨?_, h2⟩
        rintro rfl; rw [hs] at h0; cases h0
      · have hs' : seen r' = false := by simpa using hs
        simp only [firsts, hs', Bool.false_eq_true, if_false, List.mem_cons] at h
        rcases h with h | h
        · cases h
          exact ⟨hs', [], xs, rfl, by simp⟩
        · obtain ⟨h0, pre, post, h1, h2⟩ := ih _ h
          have hne : r ≠ r' := by
            rintro rfl; simp at h0
          refine ⟨by simpa [upd, hne] using h0, (r', e') :: pre, post, by simp [h1], ?_⟩
          simp only [List.map_cons, List.mem_cons, not_or]
          exact ⟨hne, h2⟩
  exact (key l _ h).2

theorem distOps_valid (l : List (Op G)) (hl : l.length < 2 ^ 63) : Valid (distOps (fun _ => false) l) := by
  have a1 : ∀ (l : List (Op G)) seen, (distOps seen l).length ≤ l.length := by
    intro l
    induction l with
    | nil => simp [distOps]
    | cons o os ih =>
      intro seen
      cases o with
      | stop r e W =>
        have b1 := ih seen
        have b2 := ih (upd seen r true)
        simp only [distOps]
        split <;> simp only [List.length_cons] <;> omega
      | values g => have := ih seen; simp only [distOps, List.length_cons]; omega
  constructor
  · have := a1 l (fun _ => false)
    omega
  · have a3 : ∀ (l : List (Op G)) seen q, Dist.Op.query q ∉ distOps seen l := by
      intro l
      induction l with
      | nil => simp [distOps]
      | cons o os ih =>
        intro seen q
        cases o with
        | stop r e W =>
          simp only [distOps]
          split
          · exact ih seen q
          · simp [ih]
        | values g => exact ih seen q
    intro q hq
    exact absurd hq (a3 _ _ q)

/-- `fs` lists, for each running timer that `xs` stops, the elapsed time of its first `Stop`. -/
def FirstStops (xs fs : List (Nat × Int64)) : Prop :=
  (fs.map (·.1)).Nodup ∧ (∀ r, r ∈ fs.map (·.1) ↔ r ∈ xs.map (·.1)) ∧
  ∀ r e, (r, e) ∈ fs → ∃ pre post, xs = pre ++ (r, e) :: post ∧ r ∉ pre.map (·.1)

theorem firstStops (xs : List (Nat × Int64)) : FirstStops xs (firsts (fun _ => false) xs) :=
  ⟨(firsts_nodup _ _).1, fun r => by rw [(firsts_nodup _ _).2]; simp, fun r e => firsts_first _ r e⟩

/-- **C15.** Any number of goroutines stopping any running timers of one `Timer`, any number of
times, and reading its values, in any schedule, ending with no call in progress.  Nothing panicked, and there is one order `lin` of all calls,
agreeing with each goroutine's own order, such that: the timer's distribution holds exactly one duration for every running timer that was stopped,
the elapsed time of its first `Stop` in the order (so `Count` is the number of
distinct stopped timers); each `Stop` returned the elapsed time it had read, whether it was the first or not; and each `Values` and
`Stats` got a distribution holding exactly the first stops before it in the order. -/
theorem C15_timer_once {K oob fused} (hK : IsIntKind K oob fused) (next : G → UInt64 × G)
    (key : Key) (g : G) (tr : List (Event (Op G) (Res G))) (c : Config (State G) (Locals G) (Op G))
    (h : Exec (obj K next) (init K key g) tr c) (quiet : ∀ t, c.thr t = .idle)
    (hlen : tr.length < 2 ^ 63) :
    ∃ lin : List (Nat × Op G × Res G),
      (∀ t, callsOf t tr = (lin.filter (·.1 = t)).map (·.2.1) ∧
            retsOf t tr = (lin.filter (·.1 = t)).map (·.2.2)) ∧
      (∃ fs d, FirstStops (stops (lin.map (·.2.1))) fs ∧ c.sh.times = some d ∧ Val.Holds (fs.map (·.2)) d) ∧
      (∀ pre t n e W r post, lin = pre ++ (t, .stop n e W, r) :: post → r = .elapsed e) ∧
      (∀ pre t g' r post, lin = pre ++ (t, .values g', r) :: post →
        ∃ fs d, FirstStops (stops (pre.map (·.2.1))) fs ∧ r = .copy (some d) ∧ Val.Holds (fs.map (·.2)) d) := by
  obtain ⟨lin, h1, h2⟩ := C03_no_lost_update _ _ tr c h quiet
  have a2 : lin.length ≤ tr.length := lin_length_le lin tr (fun t => by rw [(h2 t).1, List.length_map])
  have hstate : ∀ pre : List (Nat × Op G × Res G), pre.length ≤ lin.length →
      ∃ d, (seqRun (obj K next).exec (init K key g) (pre.map (·.2.1))).1.times = some d ∧
        Val.Holds ((firsts (fun _ => false) (stops (pre.map (·.2.1)))).map (·.2)) d := by
    intro pre hl
    obtain ⟨d, e, hh⟩ := Val.holds_run hK next key g _ (distOps_valid (pre.map (·.2.1)) (by rw [List.length_map]; omega))
    rw [inserted_distOps] at hh
    have hrun := seqRun_dist K next (pre.map (·.2.1)) (Dist.new K key g) (fun _ => false)
    rw [e] at hrun
    exact ⟨d, hrun, hh⟩
  have hres : ∀ pre x post, lin = pre ++ x :: post → x.2.2 =
      ((obj K next).exec (seqRun (obj K next).exec (init K key g) (pre.map (·.2.1))).1 x.2.1).2 := by
    intro pre x post hl
    refine Val.seqRun_split _ pre x post _ ?_
    rw [← hl, h1]
  refine ⟨lin, h2, ?_, ?_, ?_⟩
  · obtain ⟨d, e, hh⟩ := hstate lin (le_refl _)
    rw [h1] at e
    exact ⟨_, d, firstStops _, e, hh⟩
  · intro pre t n e W r post hl
    exact hres _ _ _ hl
  · intro pre t g' r post hl
    obtain ⟨d, e, hh⟩ := hstate pre (by rw [hl, List.length_append]; omega)
    have hr := hres _ _ _ hl
    change r = .copy ((seqRun (obj K next).exec (init K key g) (pre.map (·.2.1))).1.times.map fun d => d.copy g') at hr
    rw [e] at hr
    exact ⟨_, d.copy g', firstStops _, hr, hh⟩

/-- The hypotheses are met: two goroutines stop the same running timer, both having entered `Stop`
before either took the lock; one duration is recorded. -/
example : ∃ tr c, Exec (obj (durKind (fun _ => 0) false) (fun g : Unit => (0, g)))
      (init (durKind (fun _ => 0) false) ⟨[], []⟩ ()) tr c ∧ (∀ t, c.thr t = .idle) ∧
    stops (callsOf 0 tr) = [(7, 10)] ∧ stops (callsOf 1 tr) = [(7, 20)] ∧
    c.sh.times.map (fun d => (d.count, d.sum)) = some (1, 20) := by
  have e1 := Exec.step _ (Exec.start (o := obj (durKind (fun _ => 0) false) (fun g : Unit => (0, g)))
    (s₀ := init (durKind (fun _ => 0) false) ⟨[], []⟩ ())) (.call _ 0 (.stop 7 10 1024) rfl)
  have e2 := Exec.step _ e1 (.call _ 1 (.stop 7 20 1024) rfl)
  have e3 := Exec.step _ e2 (.lock _ 1 (.stop 7 20 1024) rfl rfl)
  have e4 := Exec.step _ e3 (.access _ 1 (.stop 7 20 1024) _ _ _ rfl)
  have e5 := Exec.step _ e4 (.access _ 1 (.stop 7 20 1024) _ _ _ rfl)
  have e6 := Exec.step _ e5 (.access _ 1 (.stop 7 20 1024) _ _ _ rfl)
  have e7 := Exec.step _ e6 (.unlock _ 1 (.stop 7 20 1024) _ rfl)
  have e8 := Exec.step _ e7 (.lock _ 0 (.stop 7 10 1024) rfl rfl)
  have e9 := Exec.step _ e8 (.access _ 0 (.stop 7 10 1024) _ _ _ rfl)
  have f1 := Exec.step _ e9 (.access _ 0 (.stop 7 10 1024) _ _ _ rfl)
  have f2 := Exec.step _ f1 (.access _ 0 (.stop 7 10 1024) _ _ _ rfl)
  have f3 := Exec.step _ f2 (.unlock _ 0 (.stop 7 10 1024) _ rfl)
  refine ⟨_, _, f3, ?_, rfl, rfl, ?_⟩
  · intro t
    by_cases h0 : t = 0 <;> by_cases h1 : t = 1 <;> simp [upd, Config.init, h0, h1]
  · decide +kernel

end Monkit.Timer
