import Verif.Proofs.ObsPanic2
import Verif.Props.Calls

/-!
# C119: observers that panic
-/

namespace Monkit.ObsPanic
open Go Monkit.Spec
open Monkit.Calls (opsOf finishedObs_opsOf run_counts)
variable {E G : Type}

theorem good_init : Good (State.init : State E) := ⟨by simp [State.init], fun s q h => by simp [State.init, parentOf] at h⟩

/-- C119, everything: for every program of monitored calls, whoever panics in it.  It ends as the functions and the observers have it.
The spans listed in the end are those whose start an observer's panic cut short, one for each such call; the ones with a parent have become orphans.
`Trace.Spans()` is the number of spans listed of that trace plus one for each call of a Task without Func under a span of it.
And for every function `f`: `Current()` is the number of its calls so cut short, and the calls that ran are counted as they ended, whatever the observers did at their ends. -/
theorem C119_calls {K oob fused} (hK : IsIntKind K oob fused) (next : G → UInt64 × G) (name : E → Str) (key : Key) (g1 g2 : G)
    (obs : Nat → List Nat) (c : Call E) :
    let p := plain obs none 0 c
    let r := run obs State.init none c
    r.2 = p.2.2 ∧ r.1.running.Nodup ∧ (∀ s ∈ r.1.running, s < r.1.spans.length) ∧
    (∀ f, r.1.running.countP (fun s => decide ((r.1.spans[s]?).map (·.func) = some f)) = cuts f p.1) ∧
    (∀ s, s ∈ r.1.orphans ↔ s ∈ r.1.running ∧ (r.1.spans[s]?).bind (·.parent) ≠ none) ∧
    (∀ t, r.1.spanCount t = Int64.ofNat (r.1.running.countP (fun s => decide ((r.1.spans[s]?).map (·.trace) = some t)) + brokens t p.1)) ∧
    ∀ f, cuts f p.1 + 2 * (endedOf f p.1).length < 2 ^ 63 →
      let rs := endedOf f p.1
      ∃ s, (FuncStats.new K key g1 g2).run K next name (opsOf f r.1.log) = some s ∧
        s.current.toInt = cuts f p.1 ∧
        s.panics.toInt = rs.countP (·.1.isPanic) ∧
        (∀ n, Map.get s.errors n = none ↔ rs.countP (·.1.named name n) = 0) ∧
        (∀ n k, Map.get s.errors n = some k → k.toInt = rs.countP (·.1.named name n)) ∧
        s.success.count.toInt = ((rs.filter (·.1.isSuccess)).map (·.2)).length ∧
        s.success.sum.toInt = wrapSum ((rs.filter (·.1.isSuccess)).map (·.2)) ∧
        s.failure.count.toInt = ((rs.filter (fun x => !x.1.isSuccess)).map (·.2)).length ∧
        s.failure.sum.toInt = wrapSum ((rs.filter (fun x => !x.1.isSuccess)).map (·.2)) := by
  intro p r
  obtain ⟨⟨left, x⟩, -, -, x2⟩ := run_ext obs c State.init none good_init (by simp)
  have hrun : r.1.running = left := by
    have := x.running
    rw [show (State.init : State E).running = [] from rfl, List.append_nil] at this
    exact this
  obtain ⟨os, ho, ho'⟩ := x.orphans
  refine ⟨x2, by rw [hrun]; exact x.nodup, by rw [hrun]; exact fun s hs => (x.range s hs).2, fun f => by rw [hrun]; exact x.func f, fun s => ?_, fun t => ?_, ?_⟩
  · have e : r.1.orphans = os := by
      rw [show r.1.orphans = [] ++ os from ho, List.nil_append]
    rw [e, ho', hrun]
    show _ ∧ (∃ q, parentOf r.1.spans s = some q ∧ 0 ≤ q) ↔ _ ∧ parentOf r.1.spans s ≠ none
    cases parentOf r.1.spans s <;> simp
  · rw [hrun]
    have := x.count t
    rw [show (State.init : State E).spanCount t = 0 from rfl, Int64.zero_add] at this
    exact this
  · intro f hlen rs
    have hnr : Calls.NoReset r.1.log := x.noReset (by simp [Calls.NoReset, State.init])
    have hfin : Calls.fins r.1.log = endeds p.1 := by
      have := x.fin
      rw [show (State.init : State E).log = [] from rfl] at this
      simp only [Calls.fins, List.nil_append] at this
      exact this
    obtain ⟨o1, o2⟩ := finishedObs_opsOf f r.1.log hnr
    have hobs : Spec.finishedObs (opsOf f r.1.log) = rs := by
      rw [o1, hfin]; exact (endedOf_eq f p.1).symm
    have hbal : Calls.bal f r.1.log = cuts f p.1 := by
      have := x.bal f
      rw [show (State.init : State E).log = [] from rfl] at this
      simp only [Calls.bal, Int.zero_add] at this
      exact this
    have hl : (opsOf f r.1.log).length < 2 ^ 63 := by
      rw [hobs, hbal] at o2
      have : cuts f p.1 + 2 * rs.length < 2 ^ 63 := hlen
      omega
    obtain ⟨s, h1, h2, -, h3, h4, h5, h6, -⟩ := FuncStats.C17_accounting hK next name key g1 g2 (opsOf f r.1.log) hl
    obtain ⟨c1, -⟩ := run_counts f r.1.log _ s hnr h1
      (by show (0 : Int64).toInt.natAbs + _ < _; simp only [Int64.toInt_zero, Int.natAbs_zero]; omega) (Int.le_refl _)
    rw [hbal] at c1
    have z : (FuncStats.new K key g1 g2).current.toInt = 0 := rfl
    rw [z, Int.zero_add] at c1
    rw [hobs] at h2 h3 h4 h5 h6
    exact ⟨s, h1, c1, h2, h3, h4, h5.1, h5.2.1, h6.1, h6.2.1⟩

mutual
theorem cuts_zero (obs : Nat → List Nat) : ∀ (c : Call E) (t : Option Nat) (n : Nat), StartsReturn c →
    (∀ f, cuts f (plain obs t n c).1 = 0) ∧ ∀ u, brokens u (plain obs t n c).1 = 0
  | .mk f given dur W watch on onF body, t, n, h => by
    have h' : (∀ o, on o = none) ∧ StartsReturnBody body := by simpa [StartsReturn] using h
    have e : ∀ l, firstPanic on l = none := by
      intro l; rw [← tell_snd, tell_all h'.1]
    rw [plain.eq_def]
    dsimp only
    split
    · exact ⟨fun _ => rfl, fun _ => rfl⟩
    · rw [e]
      obtain ⟨i1, i2⟩ := cutsBody_zero obs body (t.getD n) (if t = none then n + 1 else n) h'.2
      exact ⟨fun g => by rw [cuts_append, i1]; rfl, fun g => by rw [brokens_append, i2]; rfl⟩
  | .broken v, t, n, h => absurd h (by simp [StartsReturn])
theorem cutsBody_zero (obs : Nat → List Nat) : ∀ (b : Body E) (t n : Nat), StartsReturnBody b →
    (∀ f, cuts f (plainBody obs t n b).1 = 0) ∧ ∀ u, brokens u (plainBody obs t n b).1 = 0
  | .ret err, t, n, h => by rw [plainBody]; exact ⟨fun _ => rfl, fun _ => rfl⟩
  | .panic v named, t, n, h => by rw [plainBody]; exact ⟨fun _ => rfl, fun _ => rfl⟩
  | .call inherit c k, t, n, h => by
    have h' : StartsReturn c ∧ ∀ o, StartsReturnBody (k o) := by simpa [StartsReturnBody] using h
    rw [plainBody]
    obtain ⟨i1, i2⟩ := cuts_zero obs c (if inherit then some t else none) n h'.1
    obtain ⟨j1, j2⟩ := cutsBody_zero obs (k (plain obs (if inherit then some t else none) n c).2.2) t (plain obs (if inherit then some t else none) n c).2.1 (h'.2 _)
    exact ⟨fun f => by dsimp only; rw [cuts_append, i1, j1], fun f => by dsimp only; rw [brokens_append, i2, j2]⟩
end

/-- C119, as long as no `Start` of an observer panics and no Task lacks its Func; watchers of traces and `Finish` of observers may panic as they like: in the end no span is listed, none became an
orphan, `Trace.Spans()` of every trace and `Current()` of every function is 0.  (How the calls are counted: `C119_calls`.) -/
theorem C119_finish_partial {K oob fused} (hK : IsIntKind K oob fused) (next : G → UInt64 × G) (name : E → Str) (key : Key) (g1 g2 : G)
    (obs : Nat → List Nat) (c : Call E) (h : StartsReturn c) :
    let r := run obs State.init none c
    r.1.running = [] ∧ r.1.orphans = [] ∧ r.1.spanCount = (fun _ => 0) ∧
    ∀ f, 2 * (endedOf f (plain obs none 0 c).1).length < 2 ^ 63 →
      ∃ s, (FuncStats.new K key g1 g2).run K next name (opsOf f r.1.log) = some s ∧ s.current = 0 := by
  intro r
  obtain ⟨-, -, h2, h3, h4, h5, h6⟩ := C119_calls hK next name key g1 g2 obs c
  obtain ⟨z1, z2⟩ := cuts_zero obs c none 0 h
  have hrun : r.1.running = [] := by
    rw [List.eq_nil_iff_forall_not_mem]
    intro s hs
    have hlt := h2 s hs
    have := h3 (r.1.spans[s].func)
    rw [z1, List.countP_eq_zero] at this
    have h7 := this s hs
    apply h7
    have : r.1.spans[s]? = some r.1.spans[s] := List.getElem?_eq_getElem hlt
    show decide ((r.1.spans[s]?).map (·.func) = _) = true
    rw [this]; simp
  refine ⟨hrun, ?_, ?_, ?_⟩
  · rw [List.eq_nil_iff_forall_not_mem]
    intro s hs
    have := ((h4 s).mp hs).1
    rw [show (run obs State.init none c).1.running = [] from hrun] at this
    cases this
  · funext t
    have := h5 t
    rw [show (run obs State.init none c).1.running = [] from hrun, z2] at this
    exact this
  · intro f hf
    obtain ⟨s, e1, e2, -⟩ := h6 f (by rw [z1]; omega)
    rw [z1] at e2
    exact ⟨s, e1, Int64.toInt_inj.mp (by rw [e2]; rfl)⟩

/-- C119, the other observers: an observer `o` of trace `t` is told of the start and of the end of every span of it exactly once, if no `Start` panics, no Task lacks its Func, and no observer other than `o` has a
`Finish` that panics; nobody is told of anything else. -/
theorem C119_told_partial (obs : Nat → List Nat) (hnd : ∀ t, (obs t).Nodup) (o : Nat) (c : Call E) (h : StartsReturn c) (ho : OthersReturn o c) :
    let r := run obs State.init none c
    ∀ s, (∀ x, r.1.spans[s]? = some x → o ∈ obs x.trace → r.1.told.count (.start o s) = 1 ∧ r.1.told.count (.finish o s) = 1) ∧
      ((∀ x, r.1.spans[s]? = some x → o ∉ obs x.trace) → r.1.told.count (.start o s) = 0 ∧ r.1.told.count (.finish o s) = 0) := by
  intro r s
  obtain ⟨ts, h1, h2⟩ := (run_told obs o hnd c State.init none good_init (by simp) h ho).told
  have e : r.1.told = ts := by rw [show r.1.told = [] ++ ts from h1, List.nil_append]
  obtain ⟨a, b⟩ := h2 s
  rw [e, a, b]
  constructor
  · intro x hx hm
    have hlt : s < r.1.spans.length := (List.getElem?_eq_some_iff.mp hx).1
    have ht : traceOf r.1.spans s = x.trace := by unfold traceOf; rw [hx]; rfl
    have h3 : (State.init : State E).spans.length ≤ s ∧ s < r.1.spans.length := ⟨Nat.zero_le _, hlt⟩
    rw [if_pos h3, ht, (hnd _).count, if_pos hm]
    exact ⟨rfl, rfl⟩
  · intro hno
    by_cases hlt : s < r.1.spans.length
    · have hx : r.1.spans[s]? = some r.1.spans[s] := List.getElem?_eq_getElem hlt
      have ht : traceOf r.1.spans s = r.1.spans[s].trace := by unfold traceOf; rw [hx]; rfl
      rw [if_pos ⟨Nat.zero_le _, hlt⟩, ht, List.count_eq_zero.mpr (hno _ hx)]
      exact ⟨rfl, rfl⟩
    · rw [if_neg (fun h => hlt h.2)]
      exact ⟨rfl, rfl⟩

/-- Function 0 calls function 1, which panics with 5, and recovers; then it calls function 2, which fails with error 7, and returns. -/
def sample (onStart onFinish : Nat → Nat → Option Nat) : Call Nat :=
  .mk 0 true 10 1024 none (onStart 0) (onFinish 0) (.call true (.mk 1 true 2 1024 none (onStart 1) (onFinish 1) (.panic 5 none)) fun _ =>
    .call true (.mk 2 true 3 1024 none (onStart 2) (onFinish 2) (.ret (some 7))) fun _ => .ret none)

/-- Observer 0 is told before observer 1. -/
def two : Nat → List Nat := fun _ => [0, 1]

/-- The hypotheses can be met: observer 1 panics at every end, and is told of everything; the calls are counted as they ended, although function 0 ended its caller with a panic. -/
example : StartsReturn (sample (fun _ _ => none) fun _ o => if o = 1 then some 9 else none) ∧
    OthersReturn 1 (sample (fun _ _ => none) fun _ o => if o = 1 then some 9 else none) ∧ (∀ t, (two t).Nodup) ∧
    (plain two none 0 (sample (fun _ _ => none) fun _ o => if o = 1 then some 9 else none)).2.2 = .panic 9 ∧
    (run two State.init none (sample (fun _ _ => none) fun _ o => if o = 1 then some 9 else none)).1.told =
      [.start 0 0, .start 1 0, .start 0 1, .start 1 1, .finish 0 1, .finish 1 1, .start 0 2, .start 1 2, .finish 0 2, .finish 1 2, .finish 0 0, .finish 1 0] := by
  refine ⟨?_, ?_, fun _ => by simp [two], rfl, rfl⟩
  · simp [sample, StartsReturn, StartsReturnBody]
  · simp [sample, OthersReturn, OthersReturnBody]

/-- **C119 is false of the code** for an observer whose `Start` panics: function 1 never ran and nothing is running any more, and yet its span is listed for ever, as an orphan,
`Current()` of the function is 1 and `Trace.Spans()` is 1, and observer 0, which was told of the start, is never told of an end. -/
theorem C119_start_violated :
    let c := sample (fun f o => if f = 1 ∧ o = 1 then some 9 else none) fun _ _ => none
    let r := run two State.init none c
    r.2 = .ret none ∧ endedOf 1 (plain two none 0 c).1 = [] ∧ r.1.running = [1] ∧ r.1.orphans = [1] ∧ r.1.spanCount 0 = 1 ∧
      opsOf 1 r.1.log = [.start] ∧ Told.start 0 1 ∈ r.1.told ∧ Told.finish 0 1 ∉ r.1.told := by
  refine ⟨?_, ?_, ?_, ?_, ?_, ?_, ?_, ?_⟩
  · rfl
  · rfl
  · rfl
  · rfl
  · rfl
  · rfl
  · decide +kernel
  · decide +kernel

/-- **C119 is false of the code** for an observer whose `Finish` panics: the others that are told after it are not told, and the panic of the function is lost to its callers, who see that of the observer. -/
theorem C119_finish_violated :
    let c := sample (fun _ _ => none) fun f o => if f = 1 ∧ o = 0 then some 9 else none
    let r := run two State.init none c
    Told.finish 1 1 ∉ r.1.told ∧ Told.finish 1 2 ∈ r.1.told ∧
    (let d : Call Nat := .mk 1 true 2 1024 none (fun _ => none) (fun o => if o = 0 then some 9 else none) (.panic 5 none)
     (run two State.init none d).2 = .panic 9 ∧ (run (fun _ => []) State.init none d).2 = .panic 5) := by
  refine ⟨?_, ?_, ?_, ?_⟩
  · decide +kernel
  · decide +kernel
  · rfl
  · rfl

/-- **C119 is false of the code** for a Task whose name clashed when it was first called: each later call of it that gets a span in its context adds one to `Trace.Spans()` of the trace for ever. -/
theorem C119_broken_violated :
    let c : Call Nat := .mk 0 true 10 1024 none (fun _ => none) (fun _ => none)
      (.call true (.broken 3) fun _ => .call true (.broken 3) fun _ => .ret none)
    let r := run two State.init none c
    r.2 = .ret none ∧ r.1.running = [] ∧ r.1.spanCount 0 = 2 := by
  refine ⟨?_, ?_, ?_⟩ <;> rfl

end Monkit.ObsPanic
