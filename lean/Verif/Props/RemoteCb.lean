import Verif.Proofs.RemoteCb

/-! # C104: sampling callbacks while /trace/remote waits -/

namespace Monkit.RemoteCb
open Go

/-- `n` steps lead from `s` to `s'`. -/
inductive Steps (W : World) : State → Nat → State → Prop where
  | nil (s : State) : Steps W s 0 s
  | cons {s s' s'' n} (st : Step W s s') (h : Steps W s' n s'') : Steps W s (n + 1) s''

/-- **C104.** If the spans that callbacks start do not match the query, every span start returns: from every reachable state, under every
schedule, finitely many goroutines come to rest after a bounded number of steps, and then all starts have returned. -/
theorem C104_starts_return_partial (W : World) (hcb : ∀ τ, ∀ x ∈ W.callback τ, W.matches_ x = false)
    (prog : Nat → List Nat) (k : Nat) (hk : ∀ t, k ≤ t → prog t = []) (s : State) (h : Reach W (init prog) s) :
    ∃ B, ∀ n s', Steps W s n s' → n ≤ B ∧ ((¬ ∃ s'', Step W s' s'') → ∀ t, s'.todo t = []) := by
  have hs : ∀ t, k ≤ t → s.todo t = [] := by
    induction h with
    | start => intro t ht; simp [init, hk t ht]
    | step _ st ih => exact (left_step hcb ih st).2
  refine ⟨left W k s, fun n s' hn => ⟨?_, fun hend t => ?_⟩⟩
  · clear h
    induction hn with
    | nil => exact Nat.zero_le _
    | cons st _ ih =>
      obtain ⟨g1, g2⟩ := left_step hcb hs st
      have := ih g2
      omega
  · have hr : Reach W (init prog) s' := by
      clear hend hs
      induction hn with
      | nil => exact h
      | cons st _ ih => exact ih (.step h st)
    by_contra hne
    exact hend (progress (inv hcb hr) t hne)

/-- **C104.** Whatever callbacks do, a goroutine that starts only spans that do not match the query never waits. -/
theorem C104_others_never_wait_partial (W : World) (prog : Nat → List Nat) (s : State) (h : Reach W (init prog) s) (t : Nat)
    (ht : ∀ x ∈ prog t, W.matches_ x = false) (hne : s.todo t ≠ []) :
    ∃ s', Step W s s' ∧ (s'.todo t).length < (s.todo t).length := by
  have hs : ∀ a ∈ s.todo t, ∃ x ∈ prog t, a = .start x := by
    clear hne
    have keep : ∀ {f : Nat → List Act} {u a l}, f u = a :: l → (∀ b ∈ f t, ∃ x ∈ prog t, b = .start x) →
        ∀ v, (∀ b ∈ v, b ∈ l ∨ t ≠ u) → ∀ b ∈ upd f u v t, ∃ x ∈ prog t, b = .start x := by
      intro f u a l hf hb v hv b hbm
      simp only [upd] at hbm
      split at hbm
      · rename_i e; subst e
        rcases hv b hbm with h | h
        · exact hb b (by rw [hf]; exact List.mem_cons_of_mem _ h)
        · exact absurd rfl h
      · exact hb b hbm
    have ne : ∀ {s : State} {u a l}, s.todo u = a :: l → (∀ b ∈ s.todo t, ∃ x ∈ prog t, b = .start x) →
        (∀ x ∈ prog t, a ≠ .start x) → t ≠ u := by
      rintro s u a l hf hb hx rfl
      obtain ⟨x, h1, h2⟩ := hb a (by rw [hf]; simp)
      exact hx x h1 h2
    induction h with
    | start => intro a ha; simpa [init, eq_comm] using ha
    | step _ st ih =>
      cases st with
      | late u x rest h _ => exact keep h ih rest fun b hb => .inl hb
      | other u x rest h _ _ => exact keep h ih rest fun b hb => .inl hb
      | hit u x rest h _ hm =>
        have : t ≠ u := ne h ih fun y hy e => by
          cases e; rw [ht x hy] at hm; cases hm
        exact keep h ih _ fun b hb => .inr this
      | lock u x rest h _ => exact keep h ih _ fun b hb => .inr (ne h ih (by simp))
      | first u x rest h _ => exact keep h ih _ fun b hb => .inr (ne h ih (by simp))
      | again u x rest y h _ => exact keep h ih _ fun b hb => .inr (ne h ih (by simp))
      | unlock u rest h => exact keep h ih _ fun b hb => .inr (ne h ih (by simp))
      | stop u rest h => exact keep h ih _ fun b hb => .inr (ne h ih (by simp))
      | cancel _ => exact ih
  cases hl : s.todo t with
  | nil => exact absurd hl hne
  | cons a rest =>
    obtain ⟨x, hx, rfl⟩ := hs a (by rw [hl]; simp)
    cases hd : s.done with
    | true => exact ⟨_, .late s t x rest hl hd, by simp⟩
    | false => exact ⟨_, .other s t x rest hl hd (ht x hx), by simp⟩

/-- Span 0 matches and has a callback in its trace, which starts span 1, which matches; span 2 matches and is of another trace without
a callback; span 3 does not match. -/
def world : World := ⟨fun x => x < 3, fun x => if x < 2 then 0 else 1, fun τ => if τ = 0 then [1] else []⟩

/-- **C104, against it.** A callback that starts a span that matches waits for ever for a mutex its own goroutine holds, and so does
everybody else who starts a matching span, whatever its trace, even when the client has long gone away. -/
theorem C104_violated : ∃ W prog s, Reach W (init prog) s ∧ prog 1 = [2] ∧ W.callback (W.trace 2) = [] ∧
    ∀ s', Reach W s s' → s'.todo 0 ≠ [] ∧ s'.todo 1 ≠ [] ∧ ¬ ∃ s'', Step W s' s'' ∧ s''.todo ≠ s'.todo := by
  let prog : Nat → List Nat := fun t => if t = 0 then [0] else if t = 1 then [2] else []
  have e : Reach world (init prog) _ := .start
  have e := e.step (.hit _ 0 0 [] rfl rfl rfl)
  have e := e.step (.hit _ 1 2 [] rfl rfl rfl)
  have e := e.step (.lock _ 0 0 [] rfl rfl)
  have e := e.step (.first _ 0 0 [] rfl rfl)
  have e := e.step (.hit _ 0 1 _ rfl rfl rfl)
  refine ⟨world, prog, _, e, rfl, rfl, ?_⟩
  intro s' hr
  have stuck : s'.mtx = some 0 ∧ s'.todo 0 = [.lock 1, .unlock, .stop] ∧ s'.todo 1 = [.lock 2] ∧ ∀ t, 2 ≤ t → s'.todo t = [] := by
    induction hr with
    | start =>
      refine ⟨rfl, rfl, rfl, fun t ht => ?_⟩
      have h0 : t ≠ 0 := by omega
      have h1 : t ≠ 1 := by omega
      simp [upd, init, prog, h0, h1]
    | step _ st ih =>
      obtain ⟨h1, h2, h3, h4⟩ := ih
      have ca : ∀ t, t = 0 ∨ t = 1 ∨ 2 ≤ t := by intro t; omega
      cases st with
      | cancel _ => exact ⟨h1, h2, h3, h4⟩
      | lock t x rest h hm => rw [h1] at hm; cases hm
      | late t x rest h _ | other t x rest h _ _ | hit t x rest h _ _ | first t x rest h _ | again t x rest y h _
      | unlock t rest h | stop t rest h =>
        rcases ca t with rfl | rfl | ht
        · rw [h2] at h; cases h
        · rw [h3] at h; cases h
        · rw [h4 t ht] at h; cases h
  obtain ⟨h1, h2, h3, h4⟩ := stuck
  refine ⟨by rw [h2]; simp, by rw [h3]; simp, ?_⟩
  rintro ⟨s'', st, hne⟩
  have ca : ∀ t, t = 0 ∨ t = 1 ∨ 2 ≤ t := by intro t; omega
  cases st with
  | cancel _ => exact hne rfl
  | lock t x rest h hm => rw [h1] at hm; cases hm
  | late t x rest h _ | other t x rest h _ _ | hit t x rest h _ _ | first t x rest h _ | again t x rest y h _
  | unlock t rest h | stop t rest h =>
    rcases ca t with rfl | rfl | ht
    · rw [h2] at h; cases h
    · rw [h3] at h; cases h
    · rw [h4 t ht] at h; cases h

/-- The hypotheses of the partial theorems are met while a callback runs: it starts span 3, which does not match, and another goroutine
waits. -/
example : ∃ W prog s, (∀ τ, ∀ x ∈ W.callback τ, W.matches_ x = false) ∧ Reach W (init prog) s ∧ s.mtx = some 0 ∧
    s.todo 0 = [.start 3, .unlock, .stop] ∧ s.todo 1 = [.lock 2] ∧ s.todo 2 = [.start 3] := by
  let W : World := { world with callback := fun τ => if τ = 0 then [3] else [] }
  let prog : Nat → List Nat := fun t => if t = 0 then [0] else if t = 1 then [2] else if t = 2 then [3] else []
  have e : Reach W (init prog) _ := .start
  have e := e.step (.hit _ 0 0 [] rfl rfl rfl)
  have e := e.step (.hit _ 1 2 [] rfl rfl rfl)
  have e := e.step (.lock _ 0 0 [] rfl rfl)
  have e := e.step (.first _ 0 0 [] rfl rfl)
  refine ⟨W, prog, _, ?_, e, rfl, rfl, rfl, rfl⟩
  intro τ x hx
  by_cases hτ : τ = 0
  · simp [W, hτ] at hx; subst hx; rfl
  · simp [W, hτ] at hx

end Monkit.RemoteCb
