import Verif.Spec.KeepAlive

/-!
# C58: keepAlive
-/

namespace Monkit.KeepAlive
open Go Spec

theorem upd_apply {α : Type} (f : Nat → α) (t : Nat) (v : α) (t' : Nat) : upd f t v t' = if t' = t then v else f t' := rfl

theorem failedWith_iff {o e} : FailedWith o e ↔ catchPanics o = some e := by
  constructor
  · intro h; cases h <;> rfl
  · intro h
    cases o <;> simp only [catchPanics, Option.some.injEq, reduceCtorEq] at h
    · subst h; exact .err _
    · subst h; exact .panicErr _
    · subst h; exact .panicVal _

/-- The error of the first failed ping. -/
def firstErr (tr : List Event) : Option Err := tr.findSome? fun e => match e with | .pong o => catchPanics o | _ => none

theorem firstErr_append (a b : List Event) : firstErr (a ++ b) = (firstErr a).or (firstErr b) := by
  simp [firstErr, List.findSome?_append]

theorem firstErr_none {tr} : firstErr tr = none ↔ NoError tr := by
  unfold firstErr NoError
  rw [List.findSome?_eq_none_iff]
  constructor
  · intro h o e ho hf
    have := h _ ho
    simp only at this
    rw [failedWith_iff.1 hf] at this; cases this
  · intro h x hx
    cases x with
    | pong o =>
      simp only
      cases hc : catchPanics o with
      | none => rfl
      | some e => exact absurd (failedWith_iff.2 hc) (h o e hx)
    | _ => rfl

theorem firstErr_some {tr e} : firstErr tr = some e ↔ FirstError tr e := by
  unfold FirstError
  constructor
  · intro h
    obtain ⟨t1, x, t2, h1, h2, h3⟩ := List.findSome?_eq_some_iff.1 h
    cases x with
    | pong o =>
      refine ⟨t1, o, t2, h1, failedWith_iff.2 h2, ?_⟩
      have : firstErr t1 = none := List.findSome?_eq_none_iff.2 h3
      intro o' e' ho
      exact firstErr_none.1 this o' e' ho
    | _ => cases h2
  · rintro ⟨t1, o, t2, h1, h2, h3⟩
    rw [h1, firstErr_append, firstErr_none.2 h3]
    simp [firstErr, failedWith_iff.1 h2]

/-- The goroutine of keepAlive holds the lock. -/
def holds : Loop → Bool
  | .check | .quit | .call | .inPing | .failed _ | .unlockErr | .unlock => true
  | _ => false

def holdsS : Stop → Bool
  | .set | .read | .ret _ => true
  | _ => false

structure Inv (tr : List Event) (s : State) : Prop where
  err : (∃ e, s.loop = .failed e ∧ s.pingErr = none ∧ firstErr tr = some e) ∨ ((∀ e, s.loop ≠ .failed e) ∧ s.pingErr = firstErr tr)
  muLoop : s.mu = some .loop ↔ holds s.loop = true
  muStop : ∀ i, s.mu = some (.stop i) ↔ holdsS (s.thr i) = true
  after : s.pingErr ≠ none → s.loop = .unlockErr ∨ s.loop = .cancel ∨ s.loop = .finished
  unlockErr : s.loop = .unlockErr ∨ s.loop = .cancel → s.pingErr ≠ none ∧ s.cancelled = false
  cancelled : s.cancelled = true → s.pingErr ≠ none
  finished : s.loop = .finished → s.pingErr ≠ none → s.cancelled = true
  stop : s.stopped = true → s.loop ≠ .call ∧ s.loop ≠ .inPing ∧ (∀ e, s.loop ≠ .failed e) ∧ s.loop ≠ .unlockErr ∧ s.loop ≠ .unlock
  reading : ∀ i, s.thr i = .read → s.stopped = true
  returning : ∀ i r, s.thr i = .ret r → s.stopped = true ∧ r = s.pingErr
  returned : ∀ i r, Event.stopRet i r ∈ tr → s.stopped = true
  once : ∀ i, s.once = .running i ↔ s.thr i = .closing
  closed : s.closed = true ↔ s.once = .complete
  panicked : s.panicked = false
  balance : begun tr = ended tr + (if s.loop = .inPing then 1 else 0)

theorem inv_init : Inv [] init := by
  constructor <;> simp [init, firstErr, holds, holdsS, begun, ended]

theorem begun_snoc (tr e) : begun (tr ++ [e]) = begun tr + (if e = .ping then 1 else 0) := by
  simp [begun, List.countP_append, List.countP_cons]

theorem ended_snoc (tr e) : ended (tr ++ [e]) = ended tr + (match e with | .pong _ => 1 | _ => 0) := by
  cases e <;> simp [ended, List.countP_append]

theorem firstErr_snoc (tr e) : firstErr (tr ++ [e]) = (firstErr tr).or (match e with | .pong o => catchPanics o | _ => none) := by
  rw [firstErr_append]; cases e <;> simp [firstErr]

set_option maxHeartbeats 2000000 in
theorem inv_step (tr s e s') (h : Inv tr s) (st : Step s e s') : Inv (tr ++ e.toList) s' := by
  obtain ⟨h1, h2, h3, h4, h5, h6, h7, h8, h9, h10, h11, h12, h13, h14, h15⟩ := h
  cases st
  all_goals
    constructor
  all_goals
    simp only [upd_apply, Option.toList_some, Option.toList_none, List.append_nil, begun_snoc, ended_snoc, firstErr_snoc, List.mem_append, List.mem_singleton]
  all_goals
    grind [holds, holdsS, Option.or]

variable {tr : List Event} {s : State}

theorem inv_exec (h : Exec Step init tr s) : Inv tr s := Exec.induct Inv inv_init inv_step h

/-- Once stopped, no ping begins or ends. -/
theorem stopped_stays {s0 tr s} (h : Exec Step s0 tr s) {tr0} (hi : Inv tr0 s0) (hs : s0.stopped = true) :
    s.stopped = true ∧ Inv (tr0 ++ tr) s ∧ ∀ e ∈ tr, e ≠ .ping ∧ ∀ o, e ≠ .pong o := by
  induction h with
  | start => exact ⟨hs, by simpa using hi, by simp⟩
  | @step tr s s' e h st ih =>
    obtain ⟨i1, i2, i3⟩ := ih
    refine ⟨?_, by rw [← List.append_assoc]; exact inv_step _ _ _ _ i2 st, ?_⟩
    · cases st <;> first | exact i1 | rfl
    · intro x hx
      rcases List.mem_append.1 hx with hx | hx
      · exact i3 x hx
      · have := i2.stop i1
        cases st <;> simp at hx <;> subst hx <;> simp_all

/-- **C58**.  After stop has returned no ping is made, and none is in progress. -/
theorem C58_no_ping_after_stop (h : Exec Step init tr s) {t1 t2 i r} (ht : tr = t1 ++ .stopRet i r :: t2) :
    (∀ e ∈ t2, e ≠ .ping ∧ ∀ o, e ≠ .pong o) ∧ begun t1 = ended t1 := by
  obtain ⟨s1, s2, g1, g2, g3⟩ := h.split t1 (.stopRet i r) t2 ht
  have i1 := inv_exec g1
  have i2 := inv_step _ _ _ _ i1 g2
  have hs : s2.stopped = true := i2.returned i r (by simp)
  refine ⟨(stopped_stays g3 i2 hs).2.2, ?_⟩
  cases g2 with
  | stopRet =>
    rename_i hr
    have h1 := (i1.returning i r hr).1
    have h2 := i1.stop h1
    rw [i1.balance, if_neg h2.2.1]; rfl

/-- **C58**.  Stop returns the error of the first ping that failed before, or none if none did. -/
theorem C58_stop_result (h : Exec Step init tr s) {t1 t2 i r} (ht : tr = t1 ++ .stopRet i r :: t2) :
    (∀ e, r = some e ↔ FirstError t1 e) ∧ (r = none ↔ NoError t1) := by
  obtain ⟨s1, s2, g1, g2, g3⟩ := h.split t1 (.stopRet i r) t2 ht
  clear g3
  have i1 := inv_exec g1
  cases g2 with
  | stopRet =>
    rename_i hr
    obtain ⟨h1, h2⟩ := i1.returning i r hr
    have h3 := i1.stop h1
    have : r = firstErr t1 := by
      rcases i1.err with ⟨e, g, _⟩ | ⟨_, g⟩
      · exact absurd g (h3.2.2.1 e)
      · rw [h2, g]
    rw [this]
    exact ⟨fun e => firstErr_some, firstErr_none⟩

theorem failed_stays {s0 tr s} (h : Exec Step s0 tr s) {tr0} (hi : Inv tr0 s0) {e} (he : firstErr tr0 = some e) :
    Inv (tr0 ++ tr) s ∧ firstErr (tr0 ++ tr) = some e ∧ ∀ x ∈ tr, x ≠ .ping ∧ ∀ o, x ≠ .pong o := by
  induction h with
  | start => exact ⟨by simpa using hi, by simpa using he, by simp⟩
  | @step tr s s' e' h st ih =>
    obtain ⟨i1, i2, i3⟩ := ih
    refine ⟨by rw [← List.append_assoc]; exact inv_step _ _ _ _ i1 st, ?_, ?_⟩
    · rw [← List.append_assoc, firstErr_append, i2]; rfl
    · intro x hx
      rcases List.mem_append.1 hx with hx | hx
      · exact i3 x hx
      · have h1 := i1.err
        have h2 := i1.after
        rw [i2] at h1
        cases st <;> simp at hx <;> subst hx <;> simp_all

/-- **C58**.  After a ping has failed no further ping is made, every stop that returns gives that error, and once keepAlive's goroutine has ended
the derived context is cancelled. -/
theorem C58_after_failure (h : Exec Step init tr s) {t1 t2 o e} (ht : tr = t1 ++ .pong o :: t2) (ho : FailedWith o e) :
    (∀ x ∈ t2, x ≠ .ping ∧ ∀ o, x ≠ .pong o) ∧ NoError t1 ∧ (∀ i r, Event.stopRet i r ∈ t2 → r = some e) ∧
    (s.loop = .finished → s.cancelled = true) := by
  have hno : NoError t1 := by
    rw [← firstErr_none]
    cases hf : firstErr t1 with
    | none => rfl
    | some e' =>
      exfalso
      obtain ⟨s1, s2, g1, g2, g3⟩ := h.split t1 (.pong o) t2 ht
      have := (failed_stays (tr := [.pong o]) (by simpa using Exec.step _ .start g2) (inv_exec g1) hf).2.2 (.pong o) (by simp)
      exact this.2 o rfl
  have hfe : firstErr (t1 ++ [.pong o]) = some e := by
    rw [firstErr_snoc, firstErr_none.2 hno]; exact failedWith_iff.1 ho
  obtain ⟨s1, s2, g1, g2, g3⟩ := h.split t1 (.pong o) t2 ht
  have i2 := inv_step _ _ _ _ (inv_exec g1) g2
  obtain ⟨j1, j2, j3⟩ := failed_stays g3 i2 hfe
  refine ⟨j3, hno, ?_, ?_⟩
  · intro i r hr
    obtain ⟨a, b, rfl⟩ := List.append_of_mem hr
    have := (C58_stop_result h (t1 := t1 ++ .pong o :: a) (t2 := b) (i := i) (r := r) (by rw [ht]; simp)).1 e
    refine this.2 ⟨t1, o, a, rfl, ho, hno⟩
  · intro hf
    refine j1.finished hf ?_
    rcases j1.err with ⟨e', g, _⟩ | ⟨_, g⟩
    · rw [hf] at g; cases g
    · rw [g]; simp at j2; simp [j2]

/-- **C58**.  After a ping has failed nothing can keep keepAlive's goroutine from cancelling the derived context and ending: its own next steps lead there. -/
theorem C58_cancels (h : Exec Step init tr s) {t1 t2 o e} (ht : tr = t1 ++ .pong o :: t2) (ho : FailedWith o e) :
    ∃ t s', Exec Step s t s' ∧ s'.loop = .finished ∧ s'.cancelled = true ∧ s'.thr = s.thr := by
  have hno := (C58_after_failure h ht ho).2.1
  have hfe : firstErr tr = some e := by rw [ht]; exact firstErr_some.2 ⟨t1, o, t2, rfl, ho, hno⟩
  have i := inv_exec h
  have fromCancel : ∀ s : State, s.loop = .cancel → ∃ t s', Exec Step s t s' ∧ s'.loop = .finished ∧ s'.cancelled = true ∧ s'.thr = s.thr :=
    fun s hs => ⟨_, _, Exec.step _ .start (.cancel s hs), rfl, rfl, rfl⟩
  have fromUnlock : ∀ s : State, s.loop = .unlockErr → ∃ t s', Exec Step s t s' ∧ s'.loop = .finished ∧ s'.cancelled = true ∧ s'.thr = s.thr := by
    intro s hs
    obtain ⟨t, s', g1, g2, g3, g4⟩ := fromCancel { s with mu := none, loop := .cancel } rfl
    exact ⟨_, s', (Exec.step _ .start (.unlockErr s hs)).append g1, g2, g3, g4⟩
  rcases i.err with ⟨e', g1, g2, g3⟩ | ⟨g1, g2⟩
  · obtain ⟨t, s', k1, k2, k3, k4⟩ := fromUnlock { s with pingErr := some e', loop := .unlockErr } rfl
    exact ⟨_, s', (Exec.step _ .start (.setErr s e' g1)).append k1, k2, k3, k4⟩
  · have hp : s.pingErr ≠ none := by rw [g2, hfe]; simp
    rcases i.after hp with h | h | h
    · exact fromUnlock s h
    · exact fromCancel s h
    · exact ⟨[], s, .start, h, i.finished h hp, rfl⟩

/-- **C58**.  The derived context is cancelled by keepAlive only if a ping has failed; in particular stop leaves it alone. -/
theorem C58_cancelled_only_if_failed (h : Exec Step init tr s) (hc : s.cancelled = true) : ∃ e, FirstError tr e := by
  have i := inv_exec h
  have hp := i.cancelled hc
  rcases i.err with ⟨e, _, g, _⟩ | ⟨_, g⟩
  · exact absurd g hp
  · cases hf : firstErr tr with
    | none => rw [hf] at g; exact absurd g hp
    | some e => exact ⟨e, firstErr_some.1 hf⟩

/-- **C58**.  Stop never panics, however often and by however many goroutines it is called. -/
theorem C58_no_panic (h : Exec Step init tr s) : s.panicked = false := (inv_exec h).panicked

/-- **C58**.  A call of stop that has not returned can go on, or someone else can without help from outside, unless a ping is in progress. -/
theorem C58_progress (h : Exec Step init tr s) {i} (hi : s.thr i ≠ .idle) (hp : s.loop ≠ .inPing) :
    ∃ e s', Step s e s' ∧ (∀ j, e ≠ some (.stopCall j)) ∧ e ≠ some .parentDone ∧ (∀ o, e ≠ some (.pong o)) := by
  have inv := inv_exec h
  have holder : ∀ x, s.mu = some x → ∃ e s', Step s e s' ∧ (∀ j, e ≠ some (.stopCall j)) ∧ e ≠ some .parentDone ∧ (∀ o, e ≠ some (.pong o)) := by
    intro x hx
    cases x with
    | loop =>
      have hl := inv.muLoop.1 hx
      cases hq : s.loop with
      | check =>
        by_cases hc : s.stopped = true ∨ s.pingErr ≠ none
        · exact ⟨_, _, .checkStop s hq hc, by simp, by simp, by simp⟩
        · refine ⟨_, _, .checkGo s hq (by cases hst : s.stopped <;> simp_all) (by cases hpe : s.pingErr <;> simp_all), by simp, by simp, by simp⟩
      | quit => exact ⟨_, _, .quit s hq, by simp, by simp, by simp⟩
      | call => exact ⟨_, _, .ping s hq, by simp, by simp, by simp⟩
      | inPing => exact absurd hq hp
      | failed e => exact ⟨_, _, .setErr s e hq, by simp, by simp, by simp⟩
      | unlockErr => exact ⟨_, _, .unlockErr s hq, by simp, by simp, by simp⟩
      | unlock => exact ⟨_, _, .unlock s hq, by simp, by simp, by simp⟩
      | _ => simp [hq, holds] at hl
    | stop j =>
      have hl := (inv.muStop j).1 hx
      cases hq : s.thr j with
      | set => exact ⟨_, _, .stopSet s j hq, by simp, by simp, by simp⟩
      | read => exact ⟨_, _, .stopRead s j hq, by simp, by simp, by simp⟩
      | ret r => exact ⟨_, _, .stopRet s j r hq, by simp, by simp, by simp⟩
      | _ => simp [hq, holdsS] at hl
  have closer : ∀ j, s.thr j = .closing → ∃ e s', Step s e s' ∧ (∀ j, e ≠ some (.stopCall j)) ∧ e ≠ some .parentDone ∧ (∀ o, e ≠ some (.pong o)) := by
    intro j hj
    cases hc : s.closed with
    | false => exact ⟨_, _, .close s j hj hc, by simp, by simp, by simp⟩
    | true => exact ⟨_, _, .closeAgain s j hj hc, by simp, by simp, by simp⟩
  cases hq : s.thr i with
  | idle => exact absurd hq hi
  | once =>
    cases ho : s.once with
    | fresh => exact ⟨_, _, .onceFirst s i hq ho, by simp, by simp, by simp⟩
    | running j => exact closer j ((inv.once j).1 ho)
    | complete => exact ⟨_, _, .onceDone s i hq ho, by simp, by simp, by simp⟩
  | closing => exact closer i hq
  | lock =>
    cases hm : s.mu with
    | none => exact ⟨_, _, .stopLock s i hq hm, by simp, by simp, by simp⟩
    | some x => exact holder x hm
  | set => exact ⟨_, _, .stopSet s i hq, by simp, by simp, by simp⟩
  | read => exact ⟨_, _, .stopRead s i hq, by simp, by simp, by simp⟩
  | ret r => exact ⟨_, _, .stopRet s i r hq, by simp, by simp, by simp⟩

/-! ## Example: a ping succeeds, the next one panics, then stop is called twice -/

theorem example_run : ∃ s, Exec Step init
    [.ping, .pong .ok, .ping, .stopCall 0, .pong (.panicErr 4), .cancel, .stopRet 0 (some 4), .stopCall 1, .stopRet 1 (some 4)] s := by
  have h0 : Exec Step init [] init := .start
  have h := Exec.step _ h0 (.selectTick _ rfl)
  have h := Exec.step _ h (.lock _ rfl rfl)
  have h := Exec.step _ h (.checkGo _ rfl rfl rfl)
  have h := Exec.step _ h (.ping _ rfl)
  have h := Exec.step _ h (.pongOk _ .ok rfl rfl)
  have h := Exec.step _ h (.unlock _ rfl)
  have h := Exec.step _ h (.selectTick _ rfl)
  have h := Exec.step _ h (.lock _ rfl rfl)
  have h := Exec.step _ h (.checkGo _ rfl rfl rfl)
  have h := Exec.step _ h (.ping _ rfl)
  have h := Exec.step _ h (.stopCall _ 0 rfl)
  have h := Exec.step _ h (.onceFirst _ 0 rfl rfl)
  have h := Exec.step _ h (.close _ 0 rfl rfl)
  have h := Exec.step _ h (.pongErr _ (.panicErr 4) 4 rfl rfl)
  have h := Exec.step _ h (.setErr _ 4 rfl)
  have h := Exec.step _ h (.unlockErr _ rfl)
  have h := Exec.step _ h (.stopLock _ 0 rfl rfl)
  have h := Exec.step _ h (.cancel _ rfl)
  have h := Exec.step _ h (.stopSet _ 0 rfl)
  have h := Exec.step _ h (.stopRead _ 0 rfl)
  have h := Exec.step _ h (.stopRet _ 0 (some 4) rfl)
  have h := Exec.step _ h (.stopCall _ 1 rfl)
  have h := Exec.step _ h (.onceDone _ 1 rfl rfl)
  have h := Exec.step _ h (.stopLock _ 1 rfl rfl)
  have h := Exec.step _ h (.stopSet _ 1 rfl)
  have h := Exec.step _ h (.stopRead _ 1 rfl)
  have h := Exec.step _ h (.stopRet _ 1 (some 4) rfl)
  exact ⟨_, h⟩

/-- A ping that panics with nil counts as a success, under the Go version of go.mod. -/
example : catchPanics .panicNil = none := rfl

end Monkit.KeepAlive
