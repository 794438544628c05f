import Verif.Proofs.Observers2

/-!
# C31: span observers

`Exec Step init tr s`: any interleaving of any number of goroutines registering observers on a trace,
cancelling them (anyone, any number of times) and starting or finishing spans.  Observers are numbered in
the order of registration.
-/

namespace Monkit.Observers
open Go

theorem split_unique {t : Nat} {a b a' b' : List Ev} (hb : Ev.began t ∉ b) (hb' : Ev.began t ∉ b')
    (h : a ++ .began t :: b = a' ++ .began t :: b') : a = a' ∧ b = b' := by
  induction a generalizing a' with
  | nil =>
    cases a' with
    | nil => simpa using h
    | cons x xs =>
      simp only [List.nil_append, List.cons_append, List.cons.injEq] at h
      exfalso; apply hb; rw [h.2]; simp
  | cons y ys ih =>
    cases a' with
    | nil =>
      simp only [List.nil_append, List.cons_append, List.cons.injEq] at h
      exfalso; apply hb'; rw [← h.2]; simp
    | cons x xs =>
      simp only [List.cons_append, List.cons.injEq] at h
      obtain ⟨h1, h2⟩ := ih h.2
      exact ⟨by rw [h.1, h1], h2⟩

/-- C31.  Consider a span start (or finish) of goroutine `t`: it began after the events `a` and was done with the
observers after the further events `b`.  Then
* it called observers most recently registered first and none twice;
* every observer registered before it began, and whose cancel function nobody had called by its end,
  was called;
* no observer was called whose cancel had returned before it began;
* only registered observers were called. -/
theorem C31_observers {tr : List Ev} {s : State} (h : Exec Step init tr s) (t : Nat) (a b c : List Ev)
    (htr : tr = a ++ .began t :: (b ++ .ended t :: c)) (hb : Ev.began t ∉ b) :
    (callsOf t b).Pairwise (· > ·) ∧
    (∀ n, Registered n a → ¬ CancelCalled n (a ++ b) → n ∈ callsOf t b) ∧
    (∀ n, Cancelled n a → n ∉ callsOf t b) ∧
    (∀ n ∈ callsOf t b, Registered n (a ++ b)) := by
  obtain ⟨s1, s2, h1, h2, _⟩ := h.split (a ++ .began t :: b) (.ended t) c (by rw [htr]; simp)
  obtain ⟨rt, clk, i⟩ := inv_exec h1
  have hpc : s1.pc t = .fin := by cases h2; assumption
  obtain ⟨a', b', T0, e1, e2, e3, e4, e5, e6, e7⟩ := i.walk t (by rw [hpc]; rfl)
  obtain ⟨rfl, rfl⟩ := split_unique hb e2 e1
  rw [hpc] at e7
  refine ⟨e5, fun n hn hc => e7 n hn ?_, fun n hn hm => ?_, fun n hn => ?_⟩
  · cases hr : rt n with
    | none => rfl
    | some k =>
      obtain ⟨u, hu⟩ := i.cst n (by rw [hr]; simp)
      exact absurd ⟨u, by simpa using hu⟩ hc
  · obtain ⟨k, hk, hlt⟩ := e4 n hn
    have := (e6 n hm).1 k hk
    omega
  · obtain ⟨u, hu⟩ := (i.reg n).mpr (e6 n hn).2
    exact ⟨u, by simpa using hu⟩

/-- The same execution seen by the observers' owners: two observers are registered (0, then 1, then 2), number 1 is cancelled,
a span starts and calls 2 and then 0. -/
example : ∃ tr s, Exec Step init tr s ∧
    tr = [.registered 0 0, .registered 0 1, .registered 0 2, .cancelStart 1 1, .cancelled 1 1] ++
      .began 2 :: ([.called 2 2, .called 2 0] ++ .ended 2 :: []) := by
  have e := Exec.start (step := Step) (s₀ := init)
  have e := e.step _ (.regCall _ 0 rfl)
  have e := e.step _ (.regLoad _ 0 rfl)
  have e := e.step _ (.pushOk _ 0 none rfl rfl)
  have e := e.step _ (.regCall _ 0 rfl)
  have e := e.step _ (.regLoad _ 0 rfl)
  have e := e.step _ (.pushOk _ 0 (some 0) rfl rfl)
  have e := e.step _ (.regCall _ 0 rfl)
  have e := e.step _ (.regLoad _ 0 rfl)
  have e := e.step _ (.pushOk _ 0 (some 1) rfl rfl)
  have e := e.step _ (.cancel _ 1 1 rfl (by decide))
  have e := e.step _ (.lock _ 1 1 rfl rfl)
  have e := e.step _ (.atNext _ 1 1 none 2 rfl rfl (by decide))
  have e := e.step _ (.atFound _ 1 1 (some 2) rfl rfl)
  have e := e.step _ (.found _ 1 1 (some 2) rfl)
  have e := e.step _ (.casOk _ 1 1 (some 2) (some 0) rfl rfl)
  have e := e.step _ (.unlock _ 1 1 rfl)
  have e := e.step _ (.begin _ 2 rfl)
  have e := e.step _ (.lookSome _ 2 2 rfl rfl)
  have e := e.step _ (.look2 _ 2 2 rfl)
  have e := e.step _ (.call _ 2 2 false rfl)
  have e := e.step _ (.moreNext _ 2 2 0 rfl rfl)
  have e := e.step _ (.call _ 2 0 false rfl)
  have e := e.step _ (.moreNil _ 2 0 rfl rfl)
  have e := e.step _ (.finish _ 2 rfl)
  exact ⟨_, _, e, rfl⟩

end Monkit.Observers
