import Verif.Model.FindSpan

/-!
# C85: FindSpan
-/

namespace Monkit.FindSpan
open Go

theorem upd_apply {α : Type} (f : Nat → α) (t : Nat) (v : α) (t' : Nat) : upd f t v t' = if t' = t then v else f t' := rfl

/-- The matcher has answered yes. -/
def Found (tr : List Ev) : Prop := ∃ t y, Ev.answer t y true ∈ tr

/-- The goroutine that starts a span, of events of such goroutines. -/
def Ev.by : Ev → Option Nat
  | .start t _ | .ask t _ | .answer t _ _ | .started t _ | .panicked t _ => some t
  | _ => none

/-- The last event of goroutine `t`. -/
def lastOf (t : Nat) (tr : List Ev) : Option Ev := (tr.filter (·.by == some t)).getLast?

structure Inv (tr : List Ev) (s : State) : Prop where
  closes : s.closes ≤ 1
  /-- who has swapped the flag and not closed yet -/
  flag0 : s.flag = false → s.closes = 0 ∧ (∀ t y, s.pc t ≠ .close y) ∧ s.main ≠ .close
  one : s.closes = 1 → (∀ t y, s.pc t ≠ .close y) ∧ s.main ≠ .close
  uniq : ∀ t y u z, s.pc t = .close y → s.pc u = .close z → t = u
  uniqM : ∀ t y, s.pc t = .close y → s.main ≠ .close
  flag1 : s.flag = true → s.closes = 1 ∨ (∃ t y, s.pc t = .close y) ∨ s.main = .close
  ctx : s.ctxDone = true ↔ Ev.ctxDone ∈ tr
  yes : ∀ t y, s.pc t = .swap y ∨ s.pc t = .close y → Found tr
  why : s.flag = true → Found tr ∨ ((s.main = .close ∨ s.main = .out ∨ s.main = .returned) ∧ Ev.ctxDone ∈ tr)
  left : s.main ≠ .watch → Found tr ∨ Ev.ctxDone ∈ tr
  out : s.main = .out ∨ s.main = .returned → s.flag = true
  ret : Ev.ret ∈ tr ↔ s.main = .returned
  det : Ev.detach ∈ tr ↔ s.main = .swap ∨ s.main = .close ∨ s.main = .out ∨ s.main = .returned

theorem inv_init : Inv [] init := by
  constructor <;> simp [init]

theorem found_snoc (tr : List Ev) (e : Ev) : Found (tr ++ [e]) ↔ Found tr ∨ ∃ t y, e = .answer t y true := by
  unfold Found
  simp only [List.mem_append, List.mem_singleton]
  grind

set_option maxHeartbeats 2000000 in
theorem inv_step (tr s e s') (h : Inv tr s) (st : Step s e s') : Inv (tr ++ e.toList) s' := by
  obtain ⟨h1, h2, h3, h4, h5, h6, h7, h8, h9, h10, h11, h12, h13⟩ := h
  cases st
  all_goals
    constructor
  all_goals
    simp only [upd_apply, Option.toList_some, Option.toList_none, List.append_nil, found_snoc, List.mem_append, List.mem_singleton]
  all_goals
    first
    | grind
    | exact fun _ => Or.inr (Or.inl ⟨_, _, if_pos rfl⟩)

theorem inv_exec {tr : List Ev} {s : State} (h : Exec Step init tr s) : Inv tr s := Exec.induct Inv inv_init inv_step h

theorem lastOf_snoc (t : Nat) (tr : List Ev) (e : Ev) : lastOf t (tr ++ [e]) = if e.by = some t then some e else lastOf t tr := by
  unfold lastOf
  rw [List.filter_append]
  by_cases h : e.by = some t
  · simp [h]
  · rw [if_neg h]; simp [h]

structure Hist (tr : List Ev) (s : State) : Prop where
  idle : ∀ t, s.pc t = .idle → lastOf t tr = none ∨ ∃ y, lastOf t tr = some (.started t y) ∨ lastOf t tr = some (.panicked t y)
  load : ∀ t y, s.pc t = .load y ∨ s.pc t = .ask y → lastOf t tr = some (.start t y)
  asking : ∀ t y, s.pc t = .asking y → lastOf t tr = some (.ask t y)
  yes : ∀ t y, s.pc t = .swap y ∨ s.pc t = .close y → lastOf t tr = some (.answer t y true)
  out : ∀ t y, s.pc t = .out y → lastOf t tr = some (.answer t y false) ∨
    (s.flag = true ∧ (lastOf t tr = some (.answer t y true) ∨ lastOf t tr = some (.start t y)))
  closing : ∀ t y, s.pc t = .close y → s.flag = true
  found : ∀ t y, Ev.answer t y true ∈ tr → s.flag = true ∨ s.pc t = .swap y

theorem hist_init : Hist [] init := by
  constructor <;> simp [init, lastOf]

set_option maxHeartbeats 2000000 in
theorem hist_step (tr s e s') (h : Hist tr s) (st : Step s e s') : Hist (tr ++ e.toList) s' := by
  obtain ⟨h1, h2, h3, h4, h5, h6, h7⟩ := h
  cases st
  all_goals
    constructor
  all_goals
    simp only [upd_apply, Option.toList_some, Option.toList_none, List.append_nil, lastOf_snoc, List.mem_append, List.mem_singleton]
  all_goals
    grind [Ev.by]

theorem hist_exec {tr : List Ev} {s : State} (h : Exec Step init tr s) : Hist tr s := Exec.induct Hist hist_init hist_step h

/-- Once the flag is set, a goroutine that is not about to ask the matcher never does. -/
theorem quiet_stays {s0 s : State} {tr : List Ev} {t : Nat} (h : Exec Step s0 tr s) (hf : s0.flag = true)
    (hp : ∀ y, s0.pc t ≠ .ask y) : s.flag = true ∧ (∀ y, s.pc t ≠ .ask y) ∧ ∀ y, Ev.ask t y ∉ tr := by
  refine Exec.induct (fun tr s => s.flag = true ∧ (∀ y, s.pc t ≠ .ask y) ∧ ∀ y, Ev.ask t y ∉ tr) ⟨hf, hp, by simp⟩ ?_ h
  intro tr s e s' ⟨i1, i2, i3⟩ st
  cases st
  all_goals
    simp only [upd_apply, Option.toList_some, Option.toList_none, List.append_nil, List.mem_append, List.mem_singleton]
  all_goals
    grind

/-- After `FindSpan` has returned, or a start for which the matcher said yes has returned, the flag is set. -/
theorem flag_after {a b : List Ev} {e : Ev} {s : State} (h : Exec Step init (a ++ e :: b) s)
    (he : e = .ret ∨ ∃ t y, e = .started t y ∧ Ev.answer t y true ∈ a) :
    ∃ s2, Exec Step s2 b s ∧ s2.flag = true := by
  obtain ⟨s1, s2, h1, st, h2⟩ := h.split a e b rfl
  refine ⟨s2, h2, ?_⟩
  have hi := inv_exec h1
  have hh := hist_exec h1
  rcases he with rfl | ⟨t, y, rfl, hy⟩
  · cases st with | ret h => exact hi.out (Or.inl h)
  · cases st with
    | started _ _ h =>
      rcases hh.found t y hy with h' | h'
      · exact h'
      · rw [h] at h'; cases h'

/-- **C85.** In every schedule of any number of goroutines that start spans: the finder's channel is closed at most once (closing it twice would panic);
`FindSpan` returns only after the matcher said yes or the context was cancelled, and has then been detached from all traces. -/
theorem C85_returns_only {tr : List Ev} {s : State} (h : Exec Step init tr s) :
    s.closes ≤ 1 ∧ ∀ a b, tr = a ++ .ret :: b → (Found a ∨ Ev.ctxDone ∈ a) ∧ Ev.detach ∈ a := by
  refine ⟨(inv_exec h).closes, fun a b hab => ?_⟩
  obtain ⟨s1, s2, h1, st, _⟩ := h.split a .ret b hab
  have hi := inv_exec h1
  cases st with
  | ret h => exact ⟨hi.left (by simp [h]), hi.det.2 (by simp [h])⟩

/-- **C85.** The matcher is asked exactly about the spans that start: each question is about the span its goroutine has just started, no start asks
twice, a start panics only out of the matcher, and a start returns without asking only after the matcher said yes for some span or the context was cancelled. -/
theorem C85_asked {tr : List Ev} {s : State} (h : Exec Step init tr s) :
    (∀ a b t y, tr = a ++ .ask t y :: b → lastOf t a = some (.start t y)) ∧
    (∀ a b t y r, tr = a ++ .answer t y r :: b → lastOf t a = some (.ask t y)) ∧
    (∀ a b t y, tr = a ++ .panicked t y :: b → lastOf t a = some (.ask t y)) ∧
    (∀ a b t y, tr = a ++ .started t y :: b →
      (∃ r, lastOf t a = some (.answer t y r)) ∨ (lastOf t a = some (.start t y) ∧ (Found a ∨ Ev.ctxDone ∈ a))) := by
  refine ⟨fun a b t y hab => ?_, fun a b t y r hab => ?_, fun a b t y hab => ?_, fun a b t y hab => ?_⟩
  · obtain ⟨s1, s2, h1, st, _⟩ := h.split a _ b hab
    have hh := hist_exec h1
    cases st with | ask _ _ h => exact hh.load t y (Or.inr h)
  · obtain ⟨s1, s2, h1, st, _⟩ := h.split a _ b hab
    have hh := hist_exec h1
    cases st with
    | yes _ _ h => exact hh.asking t y h
    | no _ _ h => exact hh.asking t y h
  · obtain ⟨s1, s2, h1, st, _⟩ := h.split a _ b hab
    have hh := hist_exec h1
    cases st with | panics _ _ h => exact hh.asking t y h
  · obtain ⟨s1, s2, h1, st, _⟩ := h.split a _ b hab
    have hh := hist_exec h1
    have hi := inv_exec h1
    cases st with
    | started _ _ h =>
      rcases hh.out t y h with g | ⟨g, g' | g'⟩
      · exact Or.inl ⟨_, g⟩
      · exact Or.inl ⟨_, g'⟩
      · refine Or.inr ⟨g', ?_⟩
        rcases hi.why g with k | ⟨_, k⟩
        · exact Or.inl k
        · exact Or.inr k

/-- **C85.** The matcher is called until it returns true: a span that starts after a start for which it said yes has returned, or after `FindSpan` has
returned, is not asked about. -/
theorem C85_asked_no_more {a b c : List Ev} {s : State} {e : Ev} {t y : Nat} (h : Exec Step init (a ++ e :: (b ++ .start t y :: c)) s)
    (he : e = .ret ∨ ∃ u z, e = .started u z ∧ Ev.answer u z true ∈ a) : ∀ z, Ev.ask t z ∉ c := by
  obtain ⟨s2, h2, hf⟩ := flag_after h he
  obtain ⟨s3, s4, h3, st, h4⟩ := h2.split b (.start t y) c rfl
  have hf3 : s3.flag = true := by
    refine Exec.induct (fun _ s => s.flag = true) hf ?_ h3
    intro _ s e s' hs st
    cases st <;> first | exact hs | rfl
  cases st with
  | start _ _ h =>
    exact (quiet_stays (t := t) h4 hf3 (by simp)).2.2

/-- **C85.** `FindSpan` cannot be kept from returning: once the matcher said yes for a span whose start has returned, or the context is cancelled, its own
next steps, and the closing of the channel by a goroutine that is just about to do it, lead to its return. -/
theorem C85_returns {tr : List Ev} {s : State} (h : Exec Step init tr s)
    (hw : Ev.ctxDone ∈ tr ∨ ∃ a b t y, tr = a ++ .started t y :: b ∧ Ev.answer t y true ∈ a) :
    ∃ tr' s', Exec Step s tr' s' ∧ Ev.ret ∈ tr ++ tr' ∧ ∀ e ∈ tr', e = .detach ∨ e = .ret := by
  have hi := inv_exec h
  have fromOut : ∀ s : State, s.main = .out → ∃ tr' s', Exec Step s tr' s' ∧ Ev.ret ∈ tr' ∧ ∀ e ∈ tr', e = .detach ∨ e = .ret :=
    fun s hs => ⟨_, _, Exec.step _ .start (.ret s hs), by simp, by simp⟩
  have fromClose : ∀ s : State, s.main = .close → ∃ tr' s', Exec Step s tr' s' ∧ Ev.ret ∈ tr' ∧ ∀ e ∈ tr', e = .detach ∨ e = .ret := by
    intro s hs
    obtain ⟨tr', s', g1, g2, g3⟩ := fromOut { s with closes := s.closes + 1, main := .out } rfl
    exact ⟨_, s', (Exec.step _ .start (.mclose s hs)).append g1, by simpa using g2, by simpa using g3⟩
  have fromSwap : ∀ s : State, s.main = .swap → ∃ tr' s', Exec Step s tr' s' ∧ Ev.ret ∈ tr' ∧ ∀ e ∈ tr', e = .detach ∨ e = .ret := by
    intro s hs
    cases hf : s.flag with
    | true =>
      obtain ⟨tr', s', g1, g2, g3⟩ := fromOut { s with main := .out } rfl
      exact ⟨_, s', (Exec.step _ .start (.mswapSet s hs hf)).append g1, by simpa using g2, by simpa using g3⟩
    | false =>
      obtain ⟨tr', s', g1, g2, g3⟩ := fromClose { s with flag := true, main := .close } rfl
      exact ⟨_, s', (Exec.step _ .start (.mswapZero s hs hf)).append g1, by simpa using g2, by simpa using g3⟩
  have fromCancel : ∀ s : State, s.main = .cancel → ∃ tr' s', Exec Step s tr' s' ∧ Ev.ret ∈ tr' ∧ ∀ e ∈ tr', e = .detach ∨ e = .ret := by
    intro s hs
    obtain ⟨tr', s', g1, g2, g3⟩ := fromSwap { s with main := .swap } rfl
    exact ⟨_, s', (Exec.step _ .start (.detach s hs)).append g1, by simpa using g2, by simpa using g3⟩
  have lift : (∃ tr' s', Exec Step s tr' s' ∧ Ev.ret ∈ tr' ∧ ∀ e ∈ tr', e = .detach ∨ e = .ret) →
      ∃ tr' s', Exec Step s tr' s' ∧ Ev.ret ∈ tr ++ tr' ∧ ∀ e ∈ tr', e = .detach ∨ e = .ret := by
    rintro ⟨tr', s', g1, g2, g3⟩; exact ⟨tr', s', g1, List.mem_append_right _ g2, g3⟩
  cases hm : s.main with
  | cancel => exact lift (fromCancel s hm)
  | swap => exact lift (fromSwap s hm)
  | close => exact lift (fromClose s hm)
  | out => exact lift (fromOut s hm)
  | returned => exact ⟨[], s, .start, by simpa using hi.ret.2 hm, by simp⟩
  | watch =>
    refine lift ?_
    have viaDone : ∀ s : State, s.main = .watch → 0 < s.closes →
        ∃ tr' s', Exec Step s tr' s' ∧ Ev.ret ∈ tr' ∧ ∀ e ∈ tr', e = .detach ∨ e = .ret := by
      intro s hm hc
      obtain ⟨tr', s', g1, g2, g3⟩ := fromCancel { s with main := .cancel } rfl
      exact ⟨_, s', (Exec.step _ .start (.selectDone s hm hc)).append g1, by simpa using g2, by simpa using g3⟩
    rcases hw with hw | ⟨a, b, t, y, rfl, hy⟩
    · obtain ⟨tr', s', g1, g2, g3⟩ := fromCancel { s with main := .cancel } rfl
      exact ⟨_, s', (Exec.step _ .start (.selectCtx s hm (hi.ctx.2 hw))).append g1, by simpa using g2, by simpa using g3⟩
    · obtain ⟨s2, h2, hf⟩ := flag_after h (Or.inr ⟨t, y, rfl, hy⟩)
      have hf : s.flag = true := by
        refine Exec.induct (fun _ s => s.flag = true) hf ?_ h2
        intro _ s e s' hs st
        cases st <;> first | exact hs | rfl
      rcases hi.flag1 hf with h | ⟨u, z, h⟩ | h
      · exact viaDone s hm (by omega)
      · obtain ⟨tr', s', g1, g2, g3⟩ := viaDone { s with closes := s.closes + 1, pc := upd s.pc u (.out z) } hm (by simp)
        exact ⟨_, s', (Exec.step _ .start (.close s u z h)).append g1, by simpa using g2, by simpa using g3⟩
      · rw [hm] at h; cases h

/-- The hypotheses are met: two spans match at the same time, a third is not asked about. -/
example : ∃ s, Exec Step init [.start 0 10, .ask 0 10, .answer 0 10 false, .started 0 10, .start 1 11, .start 2 12, .ask 1 11, .ask 2 12, .answer 1 11 true,
    .answer 2 12 true, .started 2 12, .start 2 13, .started 2 13, .detach, .ret] s := by
  have e := Exec.start (step := Step) (s₀ := init)
  have e := e.step _ (.start _ 0 10 rfl)
  have e := e.step _ (.loadZero _ 0 10 rfl rfl)
  have e := e.step _ (.ask _ 0 10 rfl)
  have e := e.step _ (.no _ 0 10 rfl)
  have e := e.step _ (.started _ 0 10 rfl)
  have e := e.step _ (.start _ 1 11 rfl)
  have e := e.step _ (.start _ 2 12 rfl)
  have e := e.step _ (.loadZero _ 1 11 rfl rfl)
  have e := e.step _ (.loadZero _ 2 12 rfl rfl)
  have e := e.step _ (.ask _ 1 11 rfl)
  have e := e.step _ (.ask _ 2 12 rfl)
  have e := e.step _ (.yes _ 1 11 rfl)
  have e := e.step _ (.yes _ 2 12 rfl)
  have e := e.step _ (.swapZero _ 1 11 rfl rfl)
  have e := e.step _ (.swapSet _ 2 12 rfl rfl)
  have e := e.step _ (.started _ 2 12 rfl)
  have e := e.step _ (.start _ 2 13 rfl)
  have e := e.step _ (.loadSet _ 2 13 rfl rfl)
  have e := e.step _ (.started _ 2 13 rfl)
  have e := e.step _ (.close _ 1 11 rfl)
  have e := e.step _ (.selectDone _ rfl (by decide))
  have e := e.step _ (.detach _ rfl)
  have e := e.step _ (.mswapSet _ rfl rfl)
  have e := e.step _ (.ret _ rfl)
  exact ⟨_, e⟩

end Monkit.FindSpan
