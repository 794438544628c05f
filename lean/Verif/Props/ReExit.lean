import Verif.Proofs.ReExit
import Verif.Proofs.SpansRun
import Verif.Props.Spans
import Verif.Props.FuncStats2

/-!
# C125: exit functions that are called again
-/

namespace Monkit.ReExit
open Go Spans

variable {W : World} {of : Nat → Nat} {s : State}

/-- No start and no call of an exit function is half way through. -/
def AllQuiet (s : State) : Prop := Quiet s.sp ∧ ∀ k, s.rp k = .new ∨ s.rp k = .over

/-- **C125**, the lists: at every instant the roots, the orphans and the children of every span are what they are at some instant of an execution in which no exit
function is called again, and in which the same spans have finished and the same spans run. -/
theorem C125_as_once_partial (h : Reach W of s) : ∃ s₀, Spans.Reach W Spans.init s₀ ∧ s₀.roots = s.sp.roots ∧ s₀.orphans = s.sp.orphans ∧ s₀.bag = s.sp.bag ∧
    (∀ n, s₀.pc n = .over ↔ s.sp.pc n = .over) ∧ (∀ n, s.sp.pc n = .running → s₀.pc n = .running) ∧ ∀ n, s₀.pc n = .running → s.sp.pc n = .running ∨ Joining s.sp n := by
  obtain ⟨q, cnt, r, hr, _⟩ := reach_sim h
  refine ⟨_, hr, rfl, rfl, rfl, fun n => ?_, fun n hn => ?_, fun n hn => ?_⟩
  · change q n = .over ↔ _
    rcases r.pc n with e | ⟨e, _, ⟨e', _⟩ | e'⟩
    · rw [e]
    · simp [e, e']
    · simp [e, e']
  · change q n = .running
    rw [(r.same (by simp [hn])).1, hn]
  · change q n = .running at hn
    rcases r.pc n with e | ⟨e, _⟩
    · exact Or.inl (e ▸ hn)
    · exact Or.inr (Or.inl e)

theorem quiet_sim (h : Reach W of s) (hq : AllQuiet s) : ∃ cnt, Spans.Reach W Spans.init { s.sp with count := cnt } ∧
    ∀ t, ∃ k, Census (fun i => (W.trace (of i), s.rp i)) (returned t) k ∧ cnt t - s.sp.count t = Int64.ofNat k := by
  obtain ⟨q, cnt, r, hr, hc⟩ := reach_sim h
  have : q = s.sp.pc := by
    funext n
    refine (r.same ?_).1
    rcases hq.1 n with e | e | e <;> simp [e]
  subst this
  exact ⟨cnt, hr, hc⟩

/-- **C125**, `RootSpans`: with nothing half way through it lists the running spans without a running local parent. -/
theorem C125_root_spans_partial (h : Reach W of s) (hq : AllQuiet s) (w : SpanSort) (r : Nat) (o1 o2 : List Nat) (h1 : o1.Perm (s.sp.roots r)) (h2 : o2.Perm (s.sp.orphans r)) :
    (rootSpans w o1 o2).Nodup ∧ ∀ n, n ∈ rootSpans w o1 o2 ↔ s.sp.pc n = .running ∧ Top W s.sp n ∧ W.reg n = r := by
  obtain ⟨cnt, hr, _⟩ := quiet_sim h hq
  obtain ⟨g1, g2, _⟩ := C22_root_spans hr hq.1 w r o1 o2 h1 h2
  exact ⟨g1, g2⟩

theorem walk_count (w : SpanSort) (s : Spans.State) (cnt : Nat → Int64) (ords : Nat → Map Nat Int32) (fuel : Nat) :
    walk w { s with count := cnt } ords fuel = walk w s ords fuel := by
  induction fuel with
  | zero => rfl
  | succ fuel ih =>
    funext n
    simp only [walk, ih]

/-- **C125**, `AllSpans`, if there is only one registry: it lists the running spans. -/
theorem C125_all_spans_partial (h : Reach W of s) (hq : AllQuiet s) (w : SpanSort) (r : Nat) (hreg : ∀ n, W.reg n = r) (o1 o2 : List Nat) (h1 : o1.Perm (s.sp.roots r))
    (h2 : o2.Perm (s.sp.orphans r)) (ords : Nat → Map Nat Int32) (hords : ∀ n, (ords n).Perm (s.sp.bag n).rest) :
    ∃ depth l, (∀ fuel, depth ≤ fuel → allSpans w s.sp ords o1 o2 fuel = some l) ∧ l.Nodup ∧ ∀ n, n ∈ l ↔ s.sp.pc n = .running := by
  obtain ⟨cnt, hr, _⟩ := quiet_sim h hq
  obtain ⟨d, l, g1, g2, g3⟩ := C23_all_spans_single hr hq.1 w r hreg o1 o2 h1 h2 ords hords
  refine ⟨d, l, fun fuel hf => ?_, g2, g3⟩
  have := g1 fuel hf
  unfold allSpans at this ⊢
  rwa [show walk w { s.sp with count := cnt } ords fuel = _ from walk_count w s.sp cnt ords fuel] at this

/-- **C125**, finished spans: at every instant, a span whose exit function has returned is in none of the lists. -/
theorem C125_finished_partial (h : Reach W of s) (n : Nat) (ho : s.sp.pc n = .over) :
    (∀ r, n ∉ s.sp.roots r) ∧ (∀ r, n ∉ s.sp.orphans r) ∧
    ∀ (w : SpanSort) p (ord : Map Nat Int32), ord.Perm (s.sp.bag p).rest → n ∉ children w (s.sp.bag p) ord := by
  obtain ⟨s₀, hr, e1, e2, e3, e4, _⟩ := C125_as_once_partial h
  rw [← e1, ← e2, ← e3]
  exact C24_finished_never_listed hr n ((e4 n).2 ho) .start

/-- **C125**, the count of a trace: it is too low by one for every further call. -/
theorem C125_span_count_partial (h : Reach W of s) (hq : AllQuiet s) (t : Nat) :
    ∃ A B : List Nat, A.Nodup ∧ B.Nodup ∧ (∀ n, n ∈ A ↔ W.trace n = t ∧ s.sp.pc n = .running) ∧ (∀ k, k ∈ B ↔ W.trace (of k) = t ∧ s.rp k = .over) ∧
      (A.length < 2 ^ 63 → B.length < 2 ^ 63 → (s.sp.count t).toInt = (A.length : Int) - B.length) := by
  obtain ⟨cnt, hr, hc⟩ := quiet_sim h hq
  obtain ⟨A, a1, a2, a3⟩ := C27_span_count_quiet hr hq.1 t
  obtain ⟨k, ⟨B, b1, b2, b3⟩, hk⟩ := hc t
  refine ⟨A, B, a1, b1, a2, fun k => ?_, fun l1 l2 => ?_⟩
  · rw [b2]; simp [returned]
  · have e : s.sp.count t = cnt t - Int64.ofNat B.length := by
      rw [b3, ← hk]; grind
    have ha := a3 l1
    change (cnt t).toInt = _ at ha
    rw [e, Int64.toInt_sub, ha, Int64.toInt_ofNat_of_lt l2]
    apply Int.bmod_eq_of_le <;> omega

/-! ## Counted twice -/

/-- Two calls without parents in one trace. -/
def two : World := ⟨fun _ => none, fun _ => 0, fun _ => 0, by simp⟩

theorem lift {s s' : Spans.State} (hs : Reach two of ⟨s, fun _ => .new⟩) {l : List Nat} (h : runs two s l = some s') : Reach two of ⟨s', fun _ => .new⟩ := by
  have hr := runs_reach h
  clear h
  induction hr with
  | start => exact hs
  | step _ st ih => exact .step ih (.span _ _ st)

/-- Both calls start, call 0 finishes. -/
theorem before : ∃ s, Reach two (fun _ => 0) ⟨s, fun _ => .new⟩ ∧ s.pc 0 = .over ∧ s.pc 1 = .running ∧ (∀ n, 2 ≤ n → s.pc n = .new) ∧ s.locked 0 = false ∧
    (s.bag 0).rest = [] ∧ (s.bag 0).first = none ∧ s.count 0 = 1 := by
  have h : (runs two Spans.init [0, 0, 0, 1, 1, 1, 0, 0, 0, 0, 0]).map (fun s => (s.pc 0, s.pc 1, s.locked 0, (s.bag 0).rest, (s.bag 0).first, s.count 0)) =
      some (.over, .running, false, [], none, 1) := by rfl
  rw [Option.map_eq_some_iff] at h
  obtain ⟨s, h1, h2⟩ := h
  simp only [Prod.mk.injEq] at h2
  obtain ⟨p0, p1, l, b1, b2, c⟩ := h2
  refine ⟨s, lift .start h1, p0, p1, fun n hn => ?_, l, b1, b2, c⟩
  exact runs_none h1 (by simp; omega)

/-- **C125** is false of the code, the count of the trace: a call whose exit function has been called twice has finished, another call of the trace is still running, and `Trace.Spans` is zero. -/
theorem C125_span_count_violated : ∃ (W : World) (of : Nat → Nat) (s : State), Reach W of s ∧ AllQuiet s ∧ W.trace 0 = W.trace 1 ∧ s.sp.pc 0 = .over ∧ s.sp.pc 1 = .running ∧
    (∀ k, s.rp k = .over ↔ k = 0) ∧ s.sp.count (W.trace 1) = 0 := by
  obtain ⟨s, h0, p0, p1, p2, l, b1, b2, c⟩ := before
  have h := h0.step (.exit _ 0 rfl p0)
  have h := h.step (.mark _ 0 [] rfl l (by rw [b1]))
  have h := h.step (.orphanDone _ 0 (s.orphaned 0) (by simp [SpanBag.iterate, b2]))
  have h := h.step (.leaveRoots _ 0 (s.orphaned 0) (by simp) rfl)
  have h := h.step (.dec _ 0 (by simp))
  refine ⟨two, fun _ => 0, _, h, ⟨fun n => ?_, fun k => ?_⟩, rfl, p0, p1, fun k => ?_, ?_⟩
  · match n with
    | 0 => exact Or.inr (Or.inr p0)
    | 1 => exact Or.inr (Or.inl p1)
    | n + 2 => exact Or.inl (p2 (n + 2) (by omega))
  · by_cases hk : k = 0
    · subst hk; simp
    · simp [upd, hk]
  · by_cases hk : k = 0
    · subst hk; simp
    · simp [upd, hk]
  · simp [two, c]

/-- The hypotheses of the theorems above are met by that state. -/
example : ∃ (s : State), Reach two (fun _ => 0) s ∧ s.sp.pc 0 = .over ∧ ∃ k, s.rp k = .mark := by
  obtain ⟨s, h0, p0, _⟩ := before
  exact ⟨_, h0.step (.exit _ 0 rfl p0), p0, 0, by simp⟩

/-! ## The statistics -/

section
variable {G E : Type}

theorem finish_current {K : DistKind Int64 ℚ} {next : G → UInt64 × G} {name : E → Str} {f f' : FuncStats G} {err : Option E} {p : Bool} {d w : Int64}
    (h : f.finish K next name err p d w = some f') : f'.current = f.current + (-1) ∧ f'.highwater = f.highwater := by
  unfold FuncStats.finish at h
  cases p <;> cases err <;> simp at h <;> obtain ⟨x, _, rfl⟩ := h <;> exact ⟨rfl, rfl⟩

theorem start_low {f : FuncStats G} (h : f.current + 1 ≤ f.highwater) : f.start.current = f.current + 1 ∧ f.start.highwater = f.highwater := by
  unfold FuncStats.start
  simp [h]

theorem start_high {f : FuncStats G} (h : ¬ f.current + 1 ≤ f.highwater) : f.start.current = f.current + 1 ∧ f.start.highwater = f.current + 1 := by
  unfold FuncStats.start
  simp [h]

/-- **C125** is false of the code, `Current`: one call, ended twice, leaves it at −1 and is counted as two successes. -/
theorem C125_current_violated {K oob fused} (hK : IsIntKind K oob fused) (next : G → UInt64 × G) (name : E → Str) (key : Key) (g1 g2 : G) (d d' w : Int64) :
    ∃ f, (FuncStats.new K key g1 g2).run K next name [.start, .finish none false d w, .finish none false d' w] = some f ∧ f.current = -1 ∧ f.success.count.toInt = 2 := by
  obtain ⟨f, h, hh⟩ := FuncStats.C17_accounting hK next name key g1 g2 [.start, .finish none false d w, .finish none false d' w] (by simp)
  refine ⟨f, h, ?_, hh.2.2.2.2.1.1⟩
  simp only [FuncStats.run, FuncStats.step, Option.bind_some, Option.bind_eq_some_iff] at h
  obtain ⟨f1, h1, f2, h2, h3⟩ := h
  cases h3
  rw [(finish_current h2).1, (finish_current h1).1, (start_high (f := FuncStats.new K key g1 g2) (by change ¬ (0 : Int64) + 1 ≤ 0; decide)).1]
  change (0 : Int64) + 1 + -1 + -1 = -1
  decide

/-- **C125** is false of the code, `Highwater`: after that two calls run at the same time and the highest number of simultaneous calls is still reported as one. -/
theorem C125_highwater_violated {K oob fused} (hK : IsIntKind K oob fused) (next : G → UInt64 × G) (name : E → Str) (key : Key) (g1 g2 : G) (d d' w : Int64) :
    ∃ f, (FuncStats.new K key g1 g2).run K next name [.start, .finish none false d w, .finish none false d' w, .start, .start] = some f ∧
      f.current = 1 ∧ f.highwater = 1 := by
  obtain ⟨f, h, -⟩ := FuncStats.C17_accounting hK next name key g1 g2 [.start, .finish none false d w, .finish none false d' w, .start, .start] (by simp)
  refine ⟨f, h, ?_⟩
  simp only [FuncStats.run, FuncStats.step, Option.bind_some, Option.bind_eq_some_iff] at h
  obtain ⟨f1, h1, f2, h2, h3⟩ := h
  cases h3
  have n := start_high (f := FuncStats.new K key g1 g2) (by change ¬ (0 : Int64) + 1 ≤ 0; decide)
  have c : f2.current = -1 := by
    rw [(finish_current h2).1, (finish_current h1).1, n.1]
    change (0 : Int64) + 1 + -1 + -1 = -1
    decide
  have w : f2.highwater = 1 := by
    rw [(finish_current h2).2, (finish_current h1).2, n.2]
    change (0 : Int64) + 1 = 1
    decide
  have a := start_low (f := f2) (by rw [c, w]; decide)
  rw [c, w] at a
  have b := start_low (f := f2.start) (by rw [a.1, a.2]; decide)
  rw [a.1, a.2] at b
  rw [b.1, b.2]
  decide

end
end Monkit.ReExit
