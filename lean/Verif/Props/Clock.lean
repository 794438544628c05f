import Verif.Model.Clock
import Verif.Spec.Clock
import Verif.Spec.Spans
import Verif.Props.Monotime
import Verif.Proofs.Whole
import Verif.Proofs.WholeRun
import Mathlib.Algebra.Order.Group.Unbundled.Int
import Mathlib.Algebra.BigOperators.Group.List.Basic
import Mathlib.Tactic.IntervalCases
import Mathlib.Tactic.ByContra

/-!
# C116: durations
-/

namespace Monkit.Clock
open Calls

/-! ## Arithmetic -/

theorem toInt_le (a : Int64) : a.toInt ≤ 2 ^ 63 - 1 := by have := Int64.toInt_lt a; omega

/-- Differences of numbers that are not negative do not overflow. -/
theorem sub_exact {t u : Int64} (ht : 0 ≤ t.toInt) (hu : 0 ≤ u.toInt) : (sub t u).toInt = t.toInt - u.toInt := by
  have h1 := toInt_le t
  have h2 := toInt_le u
  have hd : (t - u).toInt = t.toInt - u.toInt := by
    rw [Int64.toInt_sub]; exact Int.bmod_eq_of_le (by norm_num; omega) (by norm_num; omega)
  unfold sub
  simp only [Int64.lt_iff_toInt_lt, hd]
  have z : (0 : Int64).toInt = 0 := rfl
  rw [z, if_neg (by omega), if_neg (by omega), hd]

theorem add_exact {t d : Int64} (ht : 0 ≤ t.toInt) (hd : 0 ≤ d.toInt) (h : t.toInt + d.toInt < 2 ^ 63) : ∃ e, add t d = some e ∧ e.toInt = t.toInt + d.toInt := by
  have he : (t + d).toInt = t.toInt + d.toInt := by
    rw [Int64.toInt_add]; exact Int.bmod_eq_of_le (by norm_num; omega) (by norm_num; omega)
  refine ⟨t + d, ?_, he⟩
  unfold add
  simp only [Int64.lt_iff_toInt_lt, he]
  have z : (0 : Int64).toInt = 0 := rfl
  rw [z, if_neg (by omega)]

/-- Off Windows `Now` is Go's clock. -/
theorem now_go {C : Clocks} (h : Good C) (hw : C.windows = false) (m : Nat) : now C m = some (C.go m) := by
  have h1 := h.init
  have h2 := h.go m
  have e : (since C C.initTime m).toInt = (C.go m).toInt - C.initTime.toInt := sub_exact (by omega) h1
  have := toInt_le (C.go m)
  obtain ⟨x, hx, ex⟩ := add_exact (t := C.initTime) (d := since C C.initTime m) h1 (by omega) (by omega)
  unfold now elapsed
  rw [hw, if_neg (by simp), Option.bind_some, hx]
  congr 1
  apply Int64.toInt_inj.1
  omega

theorem now_windows {C : Clocks} (h : Good C) (hw : C.windows = true) (hf : 0 < C.freq.toInt) (m : Nat)
    (ho : ((C.counter m).toInt - C.base.toInt) * 1000000000 < 2 ^ 63) (ho' : C.initTime.toInt + counted C m < 2 ^ 63) :
    0 ≤ counted C m ∧ ∃ x, now C m = some x ∧ x.toInt = C.initTime.toInt + counted C m := by
  have h1 := h.init
  have h2 := h.base m
  have nn : 0 ≤ counted C m := Int.ediv_nonneg (by omega) (by omega)
  obtain ⟨e, he, e'⟩ := Monotime.C61_exact_partial (C.counter m) C.base C.freq (Int64.lt_iff_toInt_lt.2 hf) (Int64.le_iff_toInt_le.2 h2) ho
  have e'' : e.toInt = counted C m := e'
  obtain ⟨x, hx, ex⟩ := add_exact (t := C.initTime) (d := e) h1 (by omega) (by omega)
  refine ⟨nn, x, ?_, by omega⟩
  unfold now elapsed
  rw [hw, if_pos rfl, he, Option.bind_some, hx]

/-! ## What is measured -/

/-- **C116**, everywhere but on Windows: the duration recorded for a call, what a timer and a span say, all are the time between the two moments by Go's monotonic clock, to the
nanosecond, and never negative. -/
theorem C116_exact_partial {C : Clocks} (h : Good C) (hw : C.windows = false) (s t : Nat) (hst : s ≤ t) :
    ∃ d, recorded C s t = some d ∧ measured C s t = some d ∧ d.toInt = (C.go t).toInt - (C.go s).toInt ∧ 0 ≤ d.toInt := by
  have h1 := h.init
  have h2 := h.go s
  have h3 := h.mono s t hst
  have e : (sub (C.go t) (C.go s)).toInt = (C.go t).toInt - (C.go s).toInt := sub_exact (by omega) (by omega)
  refine ⟨sub (C.go t) (C.go s), ?_, ?_, e, by omega⟩
  · simp [recorded, now_go h hw]
  · simp [measured, now_go h hw, since]

/-- **C116**, on Windows, durations recorded for calls: they are the time between the two moments by the performance counter, rounded by less than two nanoseconds, and never
negative. Partial: until the counter times 10^9 overflows (see C61). -/
theorem C116_windows_recorded_partial {C : Clocks} (h : Good C) (hw : C.windows = true) (hf : 0 < C.freq.toInt) (s t : Nat) (hst : s ≤ t)
    (ho : ((C.counter t).toInt - C.base.toInt) * 1000000000 < 2 ^ 63) (ho' : C.initTime.toInt + counted C t < 2 ^ 63) :
    ∃ d, recorded C s t = some d ∧ d.toInt = counted C t - counted C s ∧ 0 ≤ d.toInt := by
  have hc := h.cmono s t hst
  have hm : counted C s ≤ counted C t := Int.ediv_le_ediv hf (by omega)
  have h1 := h.init
  obtain ⟨n1, x, hx, ex⟩ := now_windows h hw hf t ho ho'
  obtain ⟨n2, y, hy, ey⟩ := now_windows h hw hf s (by omega) (by omega)
  have e : (sub x y).toInt = x.toInt - y.toInt := sub_exact (by omega) (by omega)
  exact ⟨sub x y, by simp [recorded, hx, hy], by omega, by omega⟩

/-- **C116**, on Windows, timers and spans: they mix two clocks. What they say is off by at most twice what the clocks are off.  Partial: it may be negative, see
`C116_windows_violated`. -/
theorem C116_windows_measured_partial {C : Clocks} (h : Good C) (hw : C.windows = true) (hf : 0 < C.freq.toInt) (τ : Nat → Int) (e : Int) (ha : Accurate C τ e) (s t : Nat)
    (ho : ((C.counter s).toInt - C.base.toInt) * 1000000000 < 2 ^ 63) (ho' : C.initTime.toInt + counted C s < 2 ^ 63) :
    ∃ d, measured C s t = some d ∧ |d.toInt - (τ t - τ s)| ≤ 2 * e := by
  have h1 := h.init
  have h2 := h.go t
  obtain ⟨n2, y, hy, ey⟩ := now_windows h hw hf s ho ho'
  have e1 : (sub (C.go t) y).toInt = (C.go t).toInt - y.toInt := sub_exact (by omega) (by omega)
  refine ⟨sub (C.go t) y, by simp [measured, hy, since], ?_⟩
  have a := ha.go t
  have b : |counted C s - τ s| ≤ e := ha.counter s
  rw [abs_le] at a b ⊢
  omega

/-- A machine with Windows: Go's clock makes a step each millisecond, the counter ten thousand. -/
def windows : Clocks where
  windows := true
  initTime := 0
  base := 0
  freq := 10000000
  go := fun m => if m < 2 then 0 else 1000000
  counter := fun m => if m = 0 then 0 else if m = 1 then 5000 else 10000

theorem windows_good : Good windows := by
  constructor
  · decide
  · intro m; simp only [windows]; split <;> decide
  · intro m m' hm; simp only [windows]; split <;> split <;> first | decide | omega
  · intro m; simp only [windows]; repeat' split
    all_goals decide
  · intro m m' hm; simp only [windows]; repeat' split
    all_goals first | decide | omega

theorem windows_accurate : Accurate windows (fun m => if m = 0 then 0 else if m = 1 then 500000 else 1000000) 1000000 := by
  constructor
  · intro m; simp only [windows]; repeat' split
    all_goals first | decide | omega
  · intro m; simp only [windows]; repeat' split
    all_goals decide

/-- C116 is false on Windows: both clocks are right to a millisecond and never go backwards, and a timer that was just started says that half a millisecond less than nothing has passed
(timer.go:65, span.go:65 use Go's clock for the end and the performance counter for the start). -/
theorem C116_windows_violated : ∃ (C : Clocks) (τ : Nat → Int) (s t : Nat) (d : Int64), C.windows = true ∧ Good C ∧ Accurate C τ 1000000 ∧ s ≤ t ∧ τ s ≤ τ t ∧
    measured C s t = some d ∧ d.toInt = -500000 :=
  ⟨windows, _, 1, 1, -500000, rfl, windows_good, windows_accurate, le_refl _, le_refl _, by decide, by decide⟩

/-- A machine without Windows meets the hypotheses of `C116_exact_partial`; the one above those of the other two. -/
example : Good { windows with windows := false } ∧ recorded { windows with windows := false } 0 2 = some 1000000 ∧
    0 < windows.freq.toInt ∧ ((windows.counter 1).toInt - windows.base.toInt) * 1000000000 < 2 ^ 63 ∧ windows.initTime.toInt + counted windows 1 < 2 ^ 63 ∧
    recorded windows 0 1 = some 500000 ∧ measured windows 0 2 = some 1000000 := by
  have h := windows_good
  exact ⟨⟨h.init, h.go, h.mono, h.base, h.cmono⟩, by decide, by decide, by decide, by decide, by decide, by decide⟩

/-! ## Trees of calls -/

variable {E : Type} {delay : Nat → Nat} {dur : Nat → Nat → Int64} {nilErr : Bool}

mutual
/-- A call returns after it was made. -/
theorem time_le (m : Nat) : (c : TCall E) → m ≤ (time delay dur nilErr m c).2.2.2.start ∧
    (time delay dur nilErr m c).2.2.2.start ≤ (time delay dur nilErr m c).2.2.2.finish ∧
    (time delay dur nilErr m c).2.2.2.finish ≤ (time delay dur nilErr m c).2.2.1
  | .mk f given id W body => by
    have := timeBody_le (m + delay m + delay (m + delay m)) body
    simp only [time, Rec.start, Rec.finish]
    omega
theorem timeBody_le (m : Nat) : (b : TBody E) → m ≤ (timeBody delay dur nilErr m b).2.at_
  | .ret _ => by simp [timeBody]
  | .panic _ _ => by simp [timeBody]
  | .goexit _ => by simp [timeBody]
  | .work d k => by
    have := timeBody_le (m + d) k
    simp only [timeBody]
    omega
  | .call how c k => by
    have h1 := time_le m c
    have h2 := timeBody_le (time delay dur nilErr m c).2.2.1 (k (time delay dur nilErr m c).2.1)
    simp only [timeBody]
    omega
end

/-- Times between moments add up. -/
def Additive (D : Nat → Nat → Int) : Prop := ∀ a b c, a ≤ b → b ≤ c → D a b + D b c = D a c ∧ 0 ≤ D a b

mutual
theorem time_nested {D : Nat → Nat → Int} (hD : Additive D) (m : Nat) : (c : TCall E) → Nested D (time delay dur nilErr m c).2.2.2
  | .mk f given id W body => by
    obtain ⟨h1, h2, h3⟩ := timeBody_nested hD (m + delay m + delay (m + delay m)) body
    have le := timeBody_le (delay := delay) (dur := dur) (nilErr := nilErr) (m + delay m + delay (m + delay m)) body
    simp only [time]
    refine .node h1 (fun c hc => ?_) ?_
    · have := h2 c hc
      omega
    · refine h3.trans ?_
      generalize (timeBody delay dur nilErr (m + delay m + delay (m + delay m)) body).2.at_ = e at *
      have a := hD (m + delay m) (m + delay m + delay (m + delay m)) e (by omega) le
      have b := hD (m + delay m) e (e + delay e) (by omega) (by omega)
      have c := hD e (e + delay e) (e + delay e) (by omega) (by omega)
      omega
theorem timeBody_nested {D : Nat → Nat → Int} (hD : Additive D) (m : Nat) : (b : TBody E) →
    (∀ c ∈ (timeBody delay dur nilErr m b).2.calls, Nested D c) ∧
    (∀ c ∈ (timeBody delay dur nilErr m b).2.calls, m ≤ c.start ∧ c.start ≤ c.finish ∧ c.finish ≤ (timeBody delay dur nilErr m b).2.at_) ∧
    ((timeBody delay dur nilErr m b).2.calls.map fun c => D c.start c.finish).sum ≤ D m (timeBody delay dur nilErr m b).2.at_
  | .ret _ => by simp only [timeBody]; exact ⟨by simp, by simp, by have := hD m m m; simp; omega⟩
  | .panic _ _ => by simp only [timeBody]; exact ⟨by simp, by simp, by have := hD m m m; simp; omega⟩
  | .goexit _ => by simp only [timeBody]; exact ⟨by simp, by simp, by have := hD m m m; simp; omega⟩
  | .work d k => by
    obtain ⟨h1, h2, h3⟩ := timeBody_nested hD (m + d) k
    have le := timeBody_le (delay := delay) (dur := dur) (nilErr := nilErr) (m + d) k
    simp only [timeBody]
    refine ⟨h1, fun c hc => ?_, ?_⟩
    · have := h2 c hc
      omega
    · have := hD m (m + d) _ (by omega) le
      omega
  | .call how c k => by
    have g1 := time_nested hD m c
    obtain ⟨g2, g3, g4⟩ := time_le (delay := delay) (dur := dur) (nilErr := nilErr) m c
    obtain ⟨h1, h2, h3⟩ := timeBody_nested hD (time delay dur nilErr m c).2.2.1 (k (time delay dur nilErr m c).2.1)
    have le := timeBody_le (delay := delay) (dur := dur) (nilErr := nilErr) (time delay dur nilErr m c).2.2.1 (k (time delay dur nilErr m c).2.1)
    simp only [timeBody]
    generalize time delay dur nilErr m c = r at *
    generalize timeBody delay dur nilErr r.2.2.1 (k r.2.1) = b at *
    refine ⟨?_, ?_, ?_⟩
    · intro x hx
      rcases List.mem_cons.1 hx with rfl | hx
      · exact g1
      · exact h1 x hx
    · intro x hx
      rcases List.mem_cons.1 hx with rfl | hx
      · omega
      · have := h2 x hx
        omega
    · rw [List.map_cons, List.sum_cons]
      have a := hD m r.2.2.2.start r.2.2.2.finish g2 g3
      have b' := hD m r.2.2.2.finish r.2.2.1 (by omega) g4
      have c' := hD m r.2.2.1 b.2.at_ (by omega) le
      have d' := hD r.2.2.2.finish r.2.2.1 b.2.at_ g4 le
      omega
end

/-- Recorded durations are differences of one clock that does not go backwards. -/
theorem recorded_clock {C : Clocks} (h : Good C) (hw : NoOverflow C) : ∃ g : Nat → Int, (∀ a b, a ≤ b → g a ≤ g b) ∧
    ∀ s t, s ≤ t → ∃ d, recorded C s t = some d ∧ d.toInt = g t - g s := by
  cases e : C.windows with
  | false =>
    refine ⟨fun m => (C.go m).toInt, h.mono, fun s t hst => ?_⟩
    obtain ⟨d, h1, _, h2, _⟩ := C116_exact_partial h e s t hst
    exact ⟨d, h1, h2⟩
  | true =>
    obtain ⟨hf, ho⟩ := hw e
    refine ⟨counted C, fun a b hab => Int.ediv_le_ediv hf (by have := h.cmono a b hab; omega), fun s t hst => ?_⟩
    obtain ⟨d, h1, h2, _⟩ := C116_windows_recorded_partial h e hf s t hst (ho t).1 (ho t).2
    exact ⟨d, h1, h2⟩

/-- **C116**, nested calls: in every tree of calls on a goroutine, whatever the functions do and however long everything takes, the durations recorded for the calls that a call makes add up
to at most the duration recorded for it. -/
theorem C116_nested {C : Clocks} (h : Good C) (hw : NoOverflow C) (hdur : ∀ s t, s ≤ t → recorded C s t = some (dur s t)) (m : Nat) (c : TCall E) :
    Nested (fun s t => (dur s t).toInt) (time delay dur nilErr m c).2.2.2 := by
  obtain ⟨g, g1, g2⟩ := recorded_clock h hw
  have add : Additive fun s t => g t - g s := by
    intro a b c hab hbc
    have := g1 a b hab
    constructor <;> dsimp only <;> omega
  have key := time_nested (delay := delay) (dur := dur) (nilErr := nilErr) add m c
  have e : ∀ s t, s ≤ t → (dur s t).toInt = g t - g s := fun s t hst => by
    obtain ⟨d, h1, h2⟩ := g2 s t hst
    rw [hdur s t hst] at h1
    cases h1
    exact h2
  have le := (time_le (delay := delay) (dur := dur) (nilErr := nilErr) m c).2.1
  generalize (time delay dur nilErr m c).2.2.2 = r at *
  revert le
  induction key with
  | node hc hs sum ih =>
    intro le
    simp only [Rec.start, Rec.finish] at le
    refine .node (fun c hc' => ih c hc' (hs c hc').2.1) hs ?_
    rw [e _ _ le]
    refine le_of_eq_of_le (congrArg List.sum (List.map_congr_left fun c hc' => ?_)) sum
    exact e _ _ (hs c hc').2.1

mutual
theorem time_log (m : Nat) (st : State E) (p : Option (Option Ctx)) : (c : TCall E) →
    (run nilErr st p (time delay dur nilErr m c).1).2 = (time delay dur nilErr m c).2.1 ∧
    (run nilErr st p (time delay dur nilErr m c).1).1.log = st.log ++ (time delay dur nilErr m c).2.2.2.ops dur
  | .mk f given id W body => by
    simp only [time, run]
    generalize hq : ({ st with world := _, log := _, parents := _, running := _, spanCount := _ } : State E) = st1
    obtain ⟨h1, h2⟩ := timeBody_log (m + delay m + delay (m + delay m)) st1
      (Tasks.task st.world (fun _ => []) p f id).2.1 body
    generalize timeBody delay dur nilErr (m + delay m + delay (m + delay m)) body = b at *
    have hl : st1.log = st.log ++ [(f, .start)] := by rw [← hq]
    rw [hl] at h2
    rw [h1, h2]
    refine ⟨rfl, ?_⟩
    simp [Rec.ops]
theorem timeBody_log (m : Nat) (st : State E) (p : Option (Option Ctx)) : (b : TBody E) →
    (runBody nilErr st p (timeBody delay dur nilErr m b).1).2 = ((timeBody delay dur nilErr m b).2.named, (timeBody delay dur nilErr m b).2.pn, (timeBody delay dur nilErr m b).2.gone) ∧
    (runBody nilErr st p (timeBody delay dur nilErr m b).1).1.log = st.log ++ opsList dur (timeBody delay dur nilErr m b).2.calls
  | .ret _ => by simp [timeBody, runBody, opsList]
  | .panic _ _ => by simp [timeBody, runBody, opsList]
  | .goexit _ => by simp [timeBody, runBody, opsList]
  | .work d k => by simp only [timeBody]; exact timeBody_log (m + d) st p k
  | .call how c k => by
    obtain ⟨g1, g2⟩ := time_log m st (pass p how) c
    obtain ⟨h1, h2⟩ := timeBody_log (time delay dur nilErr m c).2.2.1
      (run nilErr st (pass p how) (time delay dur nilErr m c).1).1 p (k (time delay dur nilErr m c).2.1)
    simp only [timeBody, runBody, g1, h1, h2, g2, opsList]
    simp
end

/-- **C116**, what is recorded: running the program with these durations is a run of the model of C64, it ends as the timed program does, and the statistics are told of exactly the calls
that took place, with the outcomes and durations of the timed program. -/
theorem C116_log (m : Nat) (st : State E) (p : Option (Option Ctx)) (c : TCall E) :
    (run nilErr st p (time delay dur nilErr m c).1).2 = (time delay dur nilErr m c).2.1 ∧
    (run nilErr st p (time delay dur nilErr m c).1).1.log = st.log ++ (time delay dur nilErr m c).2.2.2.ops dur := time_log m st p c

/-- A call of function 0 that calls function 1, works, and calls function 2, which panics; it recovers and returns an error. -/
def tree : TCall Nat :=
  .mk 0 true 7 1024 (.work 2 (.call .own (.mk 1 true 8 1024 (.work 5 (.ret none))) fun _ =>
    .work 1 (.call .own (.mk 2 false 9 1024 (.panic (some 3) none)) fun _ => .ret (some 4))))

/-- Go's clock makes a step of 10 ns each moment until it stops. -/
def clock : Clocks := { windows := false, initTime := 5, base := 0, freq := 0, go := fun m => 5 + 10 * Int64.ofNat (min m 100), counter := fun _ => 0 }

theorem clock_go (m : Nat) : (clock.go m).toInt = 5 + 10 * (min m 100 : Nat) := by
  have : min m 100 ≤ 100 := by omega
  simp only [clock]
  generalize min m 100 = k at *
  interval_cases k <;> decide

theorem clock_good : Good clock := by
  constructor
  · decide
  · intro m; rw [clock_go]; have : clock.initTime.toInt = 5 := by decide
    omega
  · intro m m' hm; rw [clock_go, clock_go]; omega
  · intro m; simp only [clock]; decide
  · intro m m' _; simp only [clock]; decide

/-- The hypotheses of `C116_nested` can be met: a tree of three calls that take 180, 70 and 20 nanoseconds. -/
example : ∃ dur : Nat → Nat → Int64, Good clock ∧ NoOverflow clock ∧ (∀ s t, s ≤ t → recorded clock s t = some (dur s t)) ∧
    (time (fun _ => 1) dur false 0 tree).2.2.2.ops dur =
      [(0, .start), (1, .start), (1, .finish none false 70 1024), (2, .start), (2, .finish none true 20 1024), (0, .finish (some 4) false 180 1024)] := by
  refine ⟨fun s t => sub (clock.go t) (clock.go s), clock_good, (fun h => (Bool.false_ne_true h).elim : NoOverflow clock), fun s t hst => ?_, by rfl⟩
  simp [recorded, now_go clock_good rfl]

/-! ## Spans of any number of goroutines -/

open Whole (sphase sphase_step sphase_zero)
open Go

variable {W : Spans.World}

theorem exitCalled_iff {s : Spans.State} {n : Nat} : ExitCalled s n ↔ 4 ≤ sphase (s.pc n) := by
  unfold ExitCalled Spans.Exiting
  cases s.pc n <;> simp [sphase]

theorem sphase_new : sphase .new = 0 := rfl
theorem sphase_running : sphase .running = 3 := rfl

structure TInv (W : Spans.World) (x : Timed) : Prop where
  start : ∀ n, x.start n ≤ x.m
  finish : ∀ n, x.finish n ≤ x.m
  le : ∀ n, 4 ≤ sphase (x.s.pc n) → x.start n ≤ x.finish n
  parent : ∀ n p, W.parent n = some p → x.s.pc n ≠ .new → 3 ≤ sphase (x.s.pc p) ∧ x.start p ≤ x.start n

theorem create_parent {s s' : Spans.State} (st : Spans.Step W s s') {n p : Nat} (hp : W.parent n = some p) (h : s.pc n = .new) (h' : s'.pc n ≠ .new) : 3 ≤ sphase (s.pc p) := by
  cases st with
  | create k hk hq =>
    have : n = k := by
      by_contra e
      exact h' (by dsimp only; rw [upd_other _ _ e]; exact h)
    subst this
    have := hq p hp
    revert this
    cases s.pc p <;> simp [sphase]
  | _ =>
    exfalso
    apply h'
    simp only [Spans.upd_apply]
    grind

theorem phase4 {s s' : Spans.State} (st : Spans.Step W s s') {n : Nat} (h : sphase (s.pc n) < 4) (h' : 4 ≤ sphase (s'.pc n)) : s.pc n = .running ∧ s'.pc n = .mark := by
  cases st <;> simp only [Spans.upd_apply] at h' ⊢ <;> grind [sphase]

theorem leave_running {s s' : Spans.State} (st : Spans.Step W s s') {n : Nat} (h : s.pc n = .running) (h' : s'.pc n ≠ .running) : s'.pc n = .mark := by
  cases st <;> simp only [Spans.upd_apply] at h' ⊢ <;> grind

theorem tinv_reach {x : Timed} (h : TReach W tinit x) : TInv W x := by
  induction h with
  | start => constructor <;> simp [tinit, Spans.init, sphase]
  | @step x0 x1 _ st ih =>
    cases st with
    | tick d =>
      exact ⟨fun n => by have := ih.start n; dsimp only; omega, fun n => by have := ih.finish n; dsimp only; omega, ih.le, ih.parent⟩
    | create n s' st h h' =>
      refine ⟨fun k => ?_, ih.finish, fun k hk => ?_, fun k p hp hk => ?_⟩ <;> dsimp only at *
      · by_cases e : k = n
        · subst e; simp
        · rw [upd_other _ _ e]; exact ih.start k
      · have hs := sphase_step st k
        by_cases e : k = n
        · subst e; rw [h, sphase_new] at hs; omega
        · rw [upd_other _ _ e]
          by_cases c : 4 ≤ sphase (x0.s.pc k)
          · exact ih.le k c
          · obtain ⟨a, b⟩ := phase4 st (by omega) hk
            exfalso
            obtain ⟨q, v, hq, _⟩ := Spans.step_pc st
            have h1 : n = q := by by_contra e'; exact h' (by rw [hq, upd_other _ _ e']; exact h)
            have h2 : k = q := by by_contra e'; rw [hq, upd_other _ _ e', a] at b; cases b
            exact e (h2.trans h1.symm)
      · by_cases e : k = n
        · subst e
          have h3 := create_parent st hp h h'
          have hs := sphase_step st p
          have ne : p ≠ k := by rintro rfl; rw [h] at h3; simp [sphase] at h3
          rw [upd_same, upd_other _ _ ne]
          exact ⟨by omega, ih.start p⟩
        · rw [upd_other _ _ e]
          have hk0 : x0.s.pc k ≠ .new := fun c => by
            obtain ⟨q, v, hq, _⟩ := Spans.step_pc st
            have h1 : n = q := by by_contra e'; exact h' (by rw [hq, upd_other _ _ e']; exact h)
            have h2 : k = q := by by_contra e'; rw [hq, upd_other _ _ e'] at hk; exact hk c
            exact e (h2.trans h1.symm)
          obtain ⟨a, b⟩ := ih.parent k p hp hk0
          have hs := sphase_step st p
          have ne : p ≠ n := by rintro rfl; rw [h] at a; simp [sphase] at a
          rw [upd_other _ _ ne]
          exact ⟨by omega, b⟩
    | exit n s' st h h' =>
      have hm := leave_running st h h'
      have only : ∀ k, k ≠ n → s'.pc k = x0.s.pc k := fun k e => by
        obtain ⟨q, v, hq, _⟩ := Spans.step_pc st
        have h1 : n = q := by by_contra e'; exact h' (by rw [hq, upd_other _ _ e']; exact h)
        rw [hq, upd_other _ _ (h1 ▸ e)]
      refine ⟨ih.start, fun k => ?_, fun k hk => ?_, fun k p hp hk => ?_⟩ <;> dsimp only at *
      · by_cases e : k = n
        · subst e; simp
        · rw [upd_other _ _ e]; exact ih.finish k
      · by_cases e : k = n
        · subst e; rw [upd_same]; exact ih.start k
        · rw [upd_other _ _ e]; exact ih.le k (by rw [← only k e]; exact hk)
      · have hk0 : x0.s.pc k ≠ .new := by
          by_cases e : k = n
          · subst e; rw [h]; simp
          · rw [only k e] at hk; exact hk
        obtain ⟨a, b⟩ := ih.parent k p hp hk0
        have hs := sphase_step st p
        exact ⟨by omega, b⟩
    | other s' st h =>
      refine ⟨ih.start, ih.finish, fun k hk => ?_, fun k p hp hk => ?_⟩ <;> dsimp only at *
      · by_cases c : 4 ≤ sphase (x0.s.pc k)
        · exact ih.le k c
        · obtain ⟨a, b⟩ := phase4 st (by omega) hk
          rw [(h k).2 a] at b; cases b
      · obtain ⟨a, b⟩ := ih.parent k p hp fun c => hk ((h k).1 c)
        have hs := sphase_step st p
        exact ⟨by omega, b⟩

theorem TReach.trans {x y z : Timed} (h : TReach W x y) (h' : TReach W y z) : TReach W x z := by
  induction h' with
  | start => exact h
  | step _ st ih => exact .step ih st

/-- Readings are taken once, and later ones at later moments. -/
theorem readings {x y : Timed} (h : TReach W x y) : x.m ≤ y.m ∧ (∀ n, sphase (x.s.pc n) ≤ sphase (y.s.pc n)) ∧
    (∀ n, x.s.pc n ≠ .new → y.start n = x.start n) ∧
    (∀ n, 4 ≤ sphase (x.s.pc n) → y.finish n = x.finish n) ∧
    ∀ n, sphase (x.s.pc n) < 4 → 4 ≤ sphase (y.s.pc n) → x.m ≤ y.finish n := by
  induction h with
  | start => exact ⟨le_refl _, fun _ => le_refl _, fun _ _ => rfl, fun _ _ => rfl, fun _ a b => by omega⟩
  | @step y z hy st ih =>
    obtain ⟨i1, i2, i3, i4, i5⟩ := ih
    have nn : ∀ n, x.s.pc n ≠ .new → y.s.pc n ≠ .new := fun n a b => by
      have := i2 n
      rw [b] at this
      exact a (sphase_zero.1 (by rw [sphase_new] at this; omega))
    cases st with
    | tick d => exact ⟨by dsimp only; omega, i2, i3, i4, i5⟩
    | create n s' st h h' =>
      refine ⟨i1, fun k => ?_, fun k hk => ?_, i4, fun k hk hk' => ?_⟩ <;> dsimp only at *
      · have := sphase_step st k; have := i2 k; omega
      · have ne : k ≠ n := by rintro rfl; exact nn k hk h
        rw [upd_other _ _ ne]; exact i3 k hk
      · by_cases c : 4 ≤ sphase (y.s.pc k)
        · exact i5 k hk c
        · obtain ⟨a, b⟩ := phase4 st (by omega) hk'
          exfalso
          obtain ⟨q, v, hq, _⟩ := Spans.step_pc st
          have h1 : n = q := by by_contra e'; exact h' (by rw [hq, upd_other _ _ e']; exact h)
          have h2 : k = q := by by_contra e'; rw [hq, upd_other _ _ e', a] at b; cases b
          rw [h2.trans h1.symm, h] at a
          cases a
    | exit n s' st h h' =>
      have only : ∀ k, k ≠ n → s'.pc k = y.s.pc k := fun k e => by
        obtain ⟨q, v, hq, _⟩ := Spans.step_pc st
        have h1 : n = q := by by_contra e'; exact h' (by rw [hq, upd_other _ _ e']; exact h)
        rw [hq, upd_other _ _ (h1 ▸ e)]
      refine ⟨i1, fun k => ?_, i3, fun k hk => ?_, fun k hk hk' => ?_⟩ <;> dsimp only at *
      · have := sphase_step st k; have := i2 k; omega
      · have ne : k ≠ n := by
          rintro rfl
          have := i2 k
          rw [h, sphase_running] at this
          omega
        rw [upd_other _ _ ne]; exact i4 k hk
      · by_cases e : k = n
        · subst e; rw [upd_same]; exact i1
        · rw [upd_other _ _ e]; rw [only k e] at hk'; exact i5 k hk hk'
    | other s' st h =>
      refine ⟨i1, fun k => ?_, i3, i4, fun k hk hk' => ?_⟩ <;> dsimp only at *
      · have := sphase_step st k; have := i2 k; omega
      · by_cases c : 4 ≤ sphase (y.s.pc k)
        · exact i5 k hk c
        · obtain ⟨a, b⟩ := phase4 st (by omega) hk'
          rw [(h k).2 a] at b; cases b

/-- **C116**, spans of any number of goroutines: a span whose exit was called before that of its parent is recorded with a duration that is not negative and at most that recorded for
its parent. -/
theorem C116_concurrent {C : Clocks} (h : Good C) (hw : NoOverflow C) {x y : Timed} (hx : TReach W tinit x) (hy : TReach W x y) (n p : Nat) (hp : W.parent n = some p)
    (hn : ExitCalled x.s n) (hpx : ¬ExitCalled x.s p) (hpy : ExitCalled y.s p) :
    ∃ d e, recorded C (y.start n) (y.finish n) = some d ∧ recorded C (y.start p) (y.finish p) = some e ∧ 0 ≤ d.toInt ∧ d.toInt ≤ e.toInt := by
  rw [exitCalled_iff] at hn hpx hpy
  have ix := tinv_reach hx
  have iy := tinv_reach (hx.trans hy)
  obtain ⟨_, r2, r3, r4, r5⟩ := readings hy
  have hnew : y.s.pc n ≠ .new := fun c => by have := r2 n; rw [c, sphase_new] at this; omega
  obtain ⟨_, a⟩ := iy.parent n p hp hnew
  have b := iy.le n (by have := r2 n; omega)
  have c := r5 p (by omega) hpy
  have d : y.finish n ≤ x.m := by rw [r4 n hn]; exact ix.finish n
  obtain ⟨g, g1, g2⟩ := recorded_clock h hw
  obtain ⟨d1, e1, e1'⟩ := g2 _ _ b
  obtain ⟨d2, e2, e2'⟩ := g2 _ _ (iy.le p hpy)
  have q1 := g1 _ _ a
  have q2 := g1 _ _ b
  have q3 := g1 _ _ (d.trans c)
  exact ⟨d1, d2, e1, e2, by omega, by omega⟩

/-- The next step of span `n`, after a while; only to find runs. -/
def tnext (W : Spans.World) (x : Timed) (n : Nat) : Option Timed :=
  (Spans.next W x.s n).map fun s' =>
    if x.s.pc n = .new then { x with s := s', m := x.m + 1, start := upd x.start n (x.m + 1) }
    else if x.s.pc n = .running then { x with s := s', m := x.m + 1, finish := upd x.finish n (x.m + 1) }
    else { x with s := s', m := x.m + 1 }

theorem tnext_reach {x y : Timed} {n : Nat} (h : tnext W x n = some y) : TReach W x y := by
  unfold tnext at h
  rw [Option.map_eq_some_iff] at h
  obtain ⟨s', hs, rfl⟩ := h
  have st := Spans.next_step hs
  have mv := Whole.next_moves hs
  have tick : TReach W x { x with m := x.m + 1 } := .step .start (.tick x 1)
  split
  · next e => exact .step tick (.create { x with m := x.m + 1 } n s' st e (fun c => mv.1 (c.trans e.symm)))
  · split
    · next e => exact .step tick (.exit { x with m := x.m + 1 } n s' st e (fun c => mv.1 (c.trans e.symm)))
    · next e1 e2 =>
      refine .step tick (.other { x with m := x.m + 1 } s' st fun k => ?_)
      by_cases e : k = n
      · subst e; exact ⟨fun c => absurd c e1, fun c => absurd c e2⟩
      · rw [mv.2 k e]; exact ⟨id, id⟩

def truns (W : Spans.World) : Timed → List Nat → Option Timed
  | x, [] => some x
  | x, n :: l => (tnext W x n).bind fun y => truns W y l

theorem truns_reach {l : List Nat} : ∀ {x y : Timed}, truns W x l = some y → TReach W x y := by
  induction l with
  | nil => intro x y h; cases h; exact .start
  | cons n l ih =>
    intro x y h
    simp only [truns, Option.bind_eq_some_iff] at h
    obtain ⟨z, hz, h⟩ := h
    exact (tnext_reach hz).trans (ih h)

/-- Span 1 is a child of span 0. -/
def two : Spans.World := { parent := fun n => if n = 1 then some 0 else none, reg := fun _ => 0, trace := fun _ => 7, older := fun _ _ h => by split at h <;> grind }

/-- The hypotheses of `C116_concurrent` can be met: the parent is made at moment 1 and exits at moment 8, the child at 4 and 7. -/
example : ∃ x y : Timed, TReach two tinit x ∧ TReach two x y ∧ two.parent 1 = some 0 ∧ ExitCalled x.s 1 ∧ ¬ExitCalled x.s 0 ∧ ExitCalled y.s 0 ∧
    y.start 0 = 1 ∧ y.finish 0 = 8 ∧ y.start 1 = 4 ∧ y.finish 1 = 7 ∧ recorded clock 1 8 = some 70 ∧ recorded clock 4 7 = some 30 := by
  have h : (truns two tinit [0, 0, 0, 1, 1, 1, 1]).bind (fun x => (truns two x [0]).map fun y =>
      (x.s.pc 1, x.s.pc 0, y.s.pc 0, y.start 0, y.finish 0, y.start 1, y.finish 1)) = some (.mark, .running, .mark, 1, 8, 4, 7) := by rfl
  rw [Option.bind_eq_some_iff] at h
  obtain ⟨x, hx, h⟩ := h
  rw [Option.map_eq_some_iff] at h
  obtain ⟨y, hy, h⟩ := h
  simp only [Prod.mk.injEq] at h
  obtain ⟨a, b, c, d, e, f, g⟩ := h
  exact ⟨x, y, truns_reach hx, truns_reach hy, rfl, .inl a, by rw [exitCalled_iff, b, sphase_running]; omega, .inl c, d, e, f, g, by decide, by decide⟩

end Monkit.Clock
