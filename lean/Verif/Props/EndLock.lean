import Verif.Model.EndLock

/-!
# C89: naming errors never blocks a function's statistics
-/

namespace Monkit.EndLock
open Go

theorem upd_apply {α : Type} (f : Nat → α) (t : Nat) (v : α) (t' : Nat) : upd f t v t' = if t' = t then v else f t' := rfl

/-- Nobody will ever unlock. -/
structure Stuck (s : State) : Prop where
  held : s.lock ≠ none
  none : ∀ t, s.pc t ≠ .eUnlock ∧ s.pc t ≠ .rUnlock ∧ ∀ n, s.pc t ≠ .eName n

structure Inv (s : State) : Prop where
  eUnlock : ∀ t, s.pc t = .eUnlock → s.lock = some t
  rUnlock : ∀ t, s.pc t = .rUnlock → s.lock = some t
  name : ∀ t n, s.pc t = .eName n → s.lock = some t
  read : ∀ t, s.pc t = .eRead → s.lock = some t

theorem inv_step {s s' : State} {e : Option Ev} (i : Inv s) (st : Step s e s') : Inv s' := by
  obtain ⟨h1, h2, h3, h4⟩ := i
  cases st
  all_goals constructor
  all_goals simp only [upd_apply]
  all_goals grind

theorem inv_exec {tr : List Ev} {s : State} (h : Exec Step init tr s) : Inv s :=
  Exec.induct (fun _ s => Inv s) ⟨by simp [init], by simp [init], by simp [init], by simp [init]⟩ (fun _ _ _ _ i st => inv_step i st) h

/-- Once stuck, no call returns. -/
theorem stuck_stays {s s' : State} {tr : List Ev} (h : Exec Step s tr s') (hs : Stuck s) : Stuck s' ∧ ∀ t, Ev.endRet t ∉ tr ∧ Ev.ret t ∉ tr := by
  refine Exec.induct (fun tr s => Stuck s ∧ ∀ t, Ev.endRet t ∉ tr ∧ Ev.ret t ∉ tr) ⟨hs, by simp⟩ ?_ h
  intro tr s e s' ⟨⟨h1, h2⟩, h3⟩ st
  cases st
  all_goals refine ⟨⟨?_, ?_⟩, ?_⟩
  all_goals simp only [upd_apply, Option.toList_some, Option.toList_none, List.append_nil, List.mem_append, List.mem_singleton]
  all_goals grind

/-- **C89**, what fails: once a handler, or an error's `Name`, has panicked, no call on the function – of another goroutine, or of the same one after
recovering – ever returns again: the statistics of the whole registry cannot be read any more. -/
theorem C89_panicking_handler_violated {a b : List Ev} {t : Nat} {s : State} (h : Exec Step init (a ++ .endPanics t :: b) s) :
    ∀ u, Ev.endRet u ∉ b ∧ Ev.ret u ∉ b := by
  obtain ⟨s1, s2, h1, st, h2⟩ := h.split a _ b rfl
  obtain ⟨o1, o2, o3, r⟩ := inv_exec h1
  have hs : Stuck s2 := by
    cases st with
    | ePanic _ hp =>
      have hl := o3 t .panics hp
      refine ⟨by simp [hl], fun u => ?_⟩
      simp only [upd_apply]
      grind
  exact (stuck_stays h2 hs).2

/-- … and it happens. -/
theorem C89_panicking_handler_happens : ∃ s, Exec Step init [.endCall 0 .panics, .endPanics 0, .call 1] s := by
  have e := Exec.start (step := Step) (s₀ := init)
  have e := e.step _ (.endCall _ 0 .panics rfl)
  have e := e.step _ (.eLock _ 0 _ rfl rfl)
  have e := e.step _ (.ePanic _ 0 rfl)
  have e := e.step _ (.call _ 1 rfl)
  exact ⟨_, e⟩

/-- **C89**, what fails: a handler that asks the function itself for its statistics waits for ever, and so does every later call. -/
theorem C89_reading_handler_violated : ∃ s, Exec Step init [.endCall 0 .reads, .call 1] s ∧
    ∀ tr' s', Exec Step s tr' s' → ∀ u, Ev.endRet u ∉ tr' ∧ Ev.ret u ∉ tr' := by
  have e := Exec.start (step := Step) (s₀ := init)
  have e := e.step _ (.endCall _ 0 .reads rfl)
  have e := e.step _ (.eLock _ 0 _ rfl rfl)
  have e := e.step _ (.eReads _ 0 rfl)
  have e := e.step _ (.call _ 1 rfl)
  refine ⟨_, e, fun tr' s' h => (stuck_stays h ⟨by simp, fun t => ?_⟩).2⟩
  simp only [upd_apply, init]
  grind

/-- Naming never panics and never uses the function. -/
def Tame (tr : List Ev) : Prop := ∀ t n, Ev.endCall t n ∈ tr → n = .returns

structure Tm (s : State) : Prop where
  inv : Inv s
  lock : ∀ t n, s.pc t = .eLock n → n = .returns
  name : ∀ t n, s.pc t = .eName n → n = .returns
  read : ∀ t, s.pc t ≠ .eRead
  held : ∀ t, s.lock = some t → s.pc t = .eUnlock ∨ s.pc t = .rUnlock ∨ s.pc t = .eName .returns

theorem tm_exec {tr : List Ev} {s : State} (h : Exec Step init tr s) : Tame tr → Tm s := by
  refine Exec.induct (fun tr s => Tame tr → Tm s) (fun _ => ⟨inv_exec .start, by simp [init], by simp [init], by simp [init], by simp [init]⟩) ?_ h
  intro tr s e s' ih st ht
  obtain ⟨h1, h2, h3, h4, h5⟩ := ih (fun t n hn => ht t n (List.mem_append_left _ hn))
  have hi := inv_step h1 st
  obtain ⟨o1, o2, o3, o4⟩ := h1
  cases st
  all_goals refine ⟨hi, ?_, ?_, ?_, ?_⟩
  all_goals simp only [upd_apply]
  all_goals try grind
  · rename_i t0 n0 _
    have := ht t0 n0 (by simp)
    intro u n hu
    split at hu
    · cases hu; exact this
    · exact h2 u n hu

/-- **C89** for naming code that returns and does not call the function: whatever the schedule so far, every call on the function can return: those who hold
the mutex give it back by their own steps.  Missing: naming code that panics or reads the function's statistics, for which it is false. -/
theorem C89_returns_partial {tr : List Ev} {s : State} (h : Exec Step init tr s) (ht : Tame tr) {t : Nat} (hp : s.pc t ≠ .idle) :
    ∃ tr' s', Exec Step s tr' s' ∧ (Ev.endRet t ∈ tr' ∨ Ev.ret t ∈ tr') ∧ s'.pc t = .idle := by
  -- whoever holds the mutex gives it back
  have release : ∀ s : State, Tm s → ∀ u, s.lock = some u →
      ∃ tr' s', Exec Step s tr' s' ∧ (Ev.endRet u ∈ tr' ∨ Ev.ret u ∈ tr') ∧ s'.lock = none ∧ s'.pc = upd s.pc u .idle := by
    intro s m u hu
    have upd2 : ∀ (f : Nat → PC) (v w : PC), upd (upd f u v) u w = upd f u w := by
      intro f v w; funext x; simp only [upd_apply]; split <;> rfl
    rcases m.held u hu with hq | hq | hq
    · exact ⟨_, _, Exec.step _ .start (.eUnlock s u hq), by simp, rfl, rfl⟩
    · exact ⟨_, _, Exec.step _ .start (.rUnlock s u hq), by simp, rfl, rfl⟩
    · exact ⟨_, _, Exec.step _ (Exec.step _ .start (.eName s u hq)) (.eUnlock _ u (by simp)), by simp, rfl, upd2 _ _ _⟩
  -- from a free mutex, `t` gets through
  have through : ∀ s : State, Tm s → s.lock = none → s.pc t ≠ .idle → ∃ tr' s', Exec Step s tr' s' ∧ (Ev.endRet t ∈ tr' ∨ Ev.ret t ∈ tr') ∧ s'.pc t = .idle := by
    intro s m hl hp
    cases hpc : s.pc t with
    | idle => exact absurd hpc hp
    | eLock n =>
      have := m.lock t n hpc; subst this
      exact ⟨_, _, Exec.step _ (Exec.step _ (Exec.step _ .start (.eLock s t _ hpc hl)) (.eName _ t (by simp))) (.eUnlock _ t (by simp)), by simp, by simp⟩
    | eName n => have := m.inv.name t n hpc; rw [hl] at this; simp at this
    | eRead => exact absurd hpc (m.read t)
    | eUnlock => have := m.inv.eUnlock t hpc; rw [hl] at this; simp at this
    | rLock => exact ⟨_, _, Exec.step _ (Exec.step _ .start (.rLock s t hpc hl)) (.rUnlock _ t (by simp)), by simp, by simp⟩
    | rUnlock => have := m.inv.rUnlock t hpc; rw [hl] at this; simp at this
  have m := tm_exec h ht
  cases hl : s.lock with
  | none => exact through s m hl hp
  | some u =>
    obtain ⟨tr1, s1, e1, r1, l1, p1⟩ := release s m u hl
    by_cases hut : t = u
    · subst hut; exact ⟨tr1, s1, e1, r1, by rw [p1]; simp⟩
    · have m1 : Tm s1 := by
        refine ⟨?_, ?_, ?_, ?_, ?_⟩
        · exact Exec.induct (fun _ s => Inv s) m.inv (fun _ _ _ _ i st => inv_step i st) e1
        · intro v n hv; rw [p1, upd_apply] at hv; split at hv; simp at hv; exact m.lock v n hv
        · intro v n hv; rw [p1, upd_apply] at hv; split at hv; simp at hv; exact m.name v n hv
        · intro v hv; rw [p1, upd_apply] at hv; split at hv; simp at hv; exact m.read v hv
        · intro v hv; rw [l1] at hv; simp at hv
      obtain ⟨tr2, s2, e2, r2, q2⟩ := through s1 m1 l1 (by rw [p1, upd_apply, if_neg hut]; exact hp)
      exact ⟨tr1 ++ tr2, s2, e1.append e2, by rcases r2 with r2 | r2 <;> simp [r2], q2⟩

/-- Two calls, one of which waits for the other. -/
example : ∃ s, Exec Step init [.endCall 0 .returns, .call 1] s ∧ Tame [.endCall 0 .returns, .call 1] ∧ s.lock = some 0 ∧ s.pc 1 = .rLock := by
  have e := Exec.start (step := Step) (s₀ := init)
  have e := e.step _ (.endCall _ 0 .returns rfl)
  have e := e.step _ (.eLock _ 0 _ rfl rfl)
  have e := e.step _ (.call _ 1 rfl)
  exact ⟨_, e, by simp [Tame], rfl, rfl⟩

end Monkit.EndLock
