import Verif.Model.RemoteCb
import Mathlib.Tactic.Ring

/-! # Lemmas on sampling callbacks -/

namespace Monkit.RemoteCb
open Go

/-- Nothing in `l` is done with the mutex held. -/
def Free (l : List Act) : Prop := ∀ a ∈ l, a ≠ .unlock ∧ ∀ x, a ≠ .inside x

/-- Only spans that do not match are started. -/
def Quiet (W : World) (l : List Act) : Prop := ∀ a ∈ l, ∃ x, a = .start x ∧ W.matches_ x = false

/-- The goroutine that does `l` holds the mutex. -/
inductive Holds (W : World) : List Act → Prop where
  | inside (x rest) (h : Free rest) : Holds W (.inside x :: rest)
  | body (pre rest) (hp : Quiet W pre) (h : Free rest) : Holds W (pre ++ .unlock :: rest)

structure Inv (W : World) (s : State) : Prop where
  holder : ∀ t, s.mtx = some t → Holds W (s.todo t)
  rest : ∀ t, s.mtx ≠ some t → Free (s.todo t)

theorem Free.tail {a l} (h : Free (a :: l)) : Free l := fun b hb => h b (List.mem_cons_of_mem _ hb)

theorem Free.cons {a l} (h : Free l) (h1 : a ≠ .unlock) (h2 : ∀ x, a ≠ .inside x) : Free (a :: l) := by
  intro b hb
  rcases List.mem_cons.1 hb with rfl | hb
  · exact ⟨h1, h2⟩
  · exact h b hb

theorem Holds.start {W x rest} (h : Holds W (.start x :: rest)) : W.matches_ x = false ∧ Holds W rest := by
  generalize hl : Act.start x :: rest = l at h
  cases h with
  | inside => cases hl
  | body pre r hp hr =>
    cases pre with
    | nil => cases hl
    | cons a pre =>
      simp only [List.cons_append, List.cons.injEq] at hl
      obtain ⟨y, e, hy⟩ := hp a (by simp)
      obtain ⟨rfl, rfl⟩ := hl
      cases e
      exact ⟨hy, .body pre r (fun b hb => hp b (List.mem_cons_of_mem _ hb)) hr⟩

theorem Holds.notLock {W x rest} (h : Holds W (.lock x :: rest)) : False := by
  generalize hl : Act.lock x :: rest = l at h
  cases h with
  | inside => cases hl
  | body pre r hp hr =>
    cases pre with
    | nil => cases hl
    | cons a pre =>
      simp only [List.cons_append, List.cons.injEq] at hl
      obtain ⟨y, e, hy⟩ := hp a (by simp)
      rw [← hl.1] at e; cases e

theorem Holds.notStop {W rest} (h : Holds W (.stop :: rest)) : False := by
  generalize hl : Act.stop :: rest = l at h
  cases h with
  | inside => cases hl
  | body pre r hp hr =>
    cases pre with
    | nil => cases hl
    | cons a pre =>
      simp only [List.cons_append, List.cons.injEq] at hl
      obtain ⟨y, e, hy⟩ := hp a (by simp)
      rw [← hl.1] at e; cases e

theorem Holds.unlock {W rest} (h : Holds W (.unlock :: rest)) : Free rest := by
  generalize hl : Act.unlock :: rest = l at h
  cases h with
  | inside => cases hl
  | body pre r hp hr =>
    cases pre with
    | nil => cases hl; exact hr
    | cons a pre =>
      simp only [List.cons_append, List.cons.injEq] at hl
      obtain ⟨y, e, hy⟩ := hp a (by simp)
      rw [← hl.1] at e; cases e

theorem Holds.insideRest {W x rest} (h : Holds W (.inside x :: rest)) : Free rest := by
  generalize hl : Act.inside x :: rest = l at h
  cases h with
  | inside _ _ h => cases hl; exact h
  | body pre r hp hr =>
    cases pre with
    | nil => cases hl
    | cons a pre =>
      simp only [List.cons_append, List.cons.injEq] at hl
      obtain ⟨y, e, hy⟩ := hp a (by simp)
      rw [← hl.1] at e; cases e

theorem Holds.nonempty {W} (h : Holds W []) : False := by
  generalize hl : ([] : List Act) = l at h
  cases h with
  | inside => cases hl
  | body pre r => cases pre <;> cases hl

variable {W : World}

theorem inv {prog : Nat → List Nat} (hcb : ∀ τ, ∀ x ∈ W.callback τ, W.matches_ x = false) {s : State}
    (h : Reach W (init prog) s) : Inv W s := by
  induction h with
  | start =>
    refine ⟨fun t h => (by cases h), fun t _ a ha => ?_⟩
    obtain ⟨x, _, rfl⟩ := List.mem_map.1 ha
    simp
  | @step s _ _ st ih =>
    obtain ⟨h1, h2⟩ := ih
    cases st with
    | late t x rest h hd =>
      refine ⟨fun u hu => ?_, fun u hu => ?_⟩ <;> simp only [upd] <;> split
      · rename_i e; subst e; have := h1 u hu; rw [h] at this; exact this.start.2
      · exact h1 u hu
      · rename_i e; subst e; have := h2 u hu; rw [h] at this; exact this.tail
      · exact h2 u hu
    | other t x rest h hd hm =>
      refine ⟨fun u hu => ?_, fun u hu => ?_⟩ <;> simp only [upd] <;> split
      · rename_i e; subst e; have := h1 u hu; rw [h] at this; exact this.start.2
      · exact h1 u hu
      · rename_i e; subst e; have := h2 u hu; rw [h] at this; exact this.tail
      · exact h2 u hu
    | hit t x rest h hd hm =>
      refine ⟨fun u hu => ?_, fun u hu => ?_⟩ <;> simp only [upd] <;> split
      · rename_i e; subst e; have := h1 u hu; rw [h] at this
        have := this.start.1; rw [hm] at this; cases this
      · exact h1 u hu
      · rename_i e; subst e; have := h2 u hu; rw [h] at this
        exact this.tail.cons (by simp) (by simp)
      · exact h2 u hu
    | lock t x rest h hm =>
      have hf := h2 t (by rw [hm]; simp)
      rw [h] at hf
      refine ⟨fun u hu => ?_, fun u hu => ?_⟩ <;> simp only [upd] <;> split
      · exact .inside x rest hf.tail
      · rename_i e; exact absurd (Option.some.inj hu).symm e
      · rename_i e; subst e; exact absurd rfl hu
      · exact h2 u (by rw [hm]; simp)
    | first t x rest h hf =>
      have ht : s.mtx = some t := by
        by_contra hc
        have := h2 t hc
        rw [h] at this
        exact (this (.inside x) (by simp)).2 x rfl
      refine ⟨fun u hu => ?_, fun u hu => ?_⟩ <;> simp only [upd] <;> split
      · rename_i e; subst e; have := h1 u hu; rw [h] at this
        refine .body _ _ (fun a ha => ?_) (this.insideRest.cons (by simp) (by simp))
        obtain ⟨y, hy, rfl⟩ := List.mem_map.1 ha
        exact ⟨y, rfl, hcb _ y hy⟩
      · exact h1 u hu
      · rename_i e; subst e; exact absurd ht hu
      · exact h2 u hu
    | again t x rest y h hf =>
      have ht : s.mtx = some t := by
        by_contra hc
        have := h2 t hc
        rw [h] at this
        exact (this (.inside x) (by simp)).2 x rfl
      refine ⟨fun u hu => ?_, fun u hu => ?_⟩ <;> simp only [upd] <;> split
      · rename_i e; subst e; have := h1 u hu; rw [h] at this
        exact .body [] _ (by intro a ha; cases ha) (this.insideRest.cons (by simp) (by simp))
      · exact h1 u hu
      · rename_i e; subst e; exact absurd ht hu
      · exact h2 u hu
    | unlock t rest h =>
      have ht : s.mtx = some t := by
        by_contra hc
        have := h2 t hc
        rw [h] at this
        exact (this .unlock (by simp)).1 rfl
      refine ⟨fun u hu => (by cases hu), fun u hu => ?_⟩
      simp only [upd]; split
      · rename_i e; subst e; have := h1 u ht; rw [h] at this; exact this.unlock
      · rename_i e; exact h2 u (by rw [ht]; intro hc; exact e (Option.some.inj hc).symm)
    | stop t rest h =>
      refine ⟨fun u hu => ?_, fun u hu => ?_⟩ <;> simp only [upd] <;> split
      · rename_i e; subst e; have := h1 u hu; rw [h] at this; exact this.notStop.elim
      · exact h1 u hu
      · rename_i e; subst e; have := h2 u hu; rw [h] at this; exact this.tail
      · exact h2 u hu
    | cancel hd => exact ⟨h1, h2⟩

/-- Some goroutine can go on as long as one has something to do. -/
theorem progress {s : State} (hi : Inv W s) (t : Nat) (ht : s.todo t ≠ []) : ∃ s', Step W s s' := by
  have other : ∀ t a rest, s.todo t = a :: rest → (∀ x, a ≠ .lock x) → ∃ s', Step W s s' := by
    intro t a rest h hl
    cases a with
    | start x =>
      cases hd : s.done with
      | true => exact ⟨_, .late s t x rest h hd⟩
      | false =>
        cases hm : W.matches_ x with
        | true => exact ⟨_, .hit s t x rest h hd hm⟩
        | false => exact ⟨_, .other s t x rest h hd hm⟩
    | lock x => exact absurd rfl (hl x)
    | inside x =>
      cases hf : s.found with
      | none => exact ⟨_, .first s t x rest h hf⟩
      | some y => exact ⟨_, .again s t x rest y h hf⟩
    | unlock => exact ⟨_, .unlock s t rest h⟩
    | stop => exact ⟨_, .stop s t rest h⟩
  cases h : s.todo t with
  | nil => exact absurd h ht
  | cons a rest =>
    by_cases hl : ∃ x, a = .lock x
    · obtain ⟨x, rfl⟩ := hl
      cases hm : s.mtx with
      | none => exact ⟨_, .lock s t x rest h hm⟩
      | some u =>
        have hh := hi.holder u hm
        cases hu : s.todo u with
        | nil => rw [hu] at hh; exact hh.nonempty.elim
        | cons b r =>
          refine other u b r hu fun y e => ?_
          rw [hu, e] at hh; exact hh.notLock
    · exact other t a rest h fun x e => hl ⟨x, e⟩

/-- How much is left. -/
def weight (W : World) : Act → Nat
  | .start x => if W.matches_ x then (W.callback (W.trace x)).length + 5 else 1
  | .lock x => (W.callback (W.trace x)).length + 4
  | .inside x => (W.callback (W.trace x)).length + 3
  | .unlock | .stop => 1

def load (W : World) (l : List Act) : Nat := (l.map (weight W)).sum

theorem load_cons (a l) : load W (a :: l) = weight W a + load W l := by simp [load]

theorem load_append (a l) : load W (a ++ l) = load W a + load W l := by simp [load]

theorem load_callback (hcb : ∀ τ, ∀ x ∈ W.callback τ, W.matches_ x = false) (τ : Nat) :
    load W ((W.callback τ).map .start) = (W.callback τ).length := by
  have h := hcb τ
  generalize W.callback τ = l at h
  induction l with
  | nil => rfl
  | cons x l ih =>
    rw [List.map_cons, load_cons, ih fun y hy => h y (List.mem_cons_of_mem _ hy)]
    simp [weight, h x (by simp)]; omega

/-- Everything left, of the goroutines below `k`. -/
def left (W : World) (k : Nat) (s : State) : Nat :=
  ((List.range k).map fun t => load W (s.todo t)).sum + (if s.done then 0 else 1)

theorem weight_pos (a : Act) : 0 < weight W a := by
  cases a <;> simp [weight]
  split <;> omega

theorem sum_upd (k : Nat) (f : Nat → List Act) (t : Nat) (v : List Act) (ht : t < k) (c : Nat) (h : load W v + c ≤ load W (f t)) :
    ((List.range k).map fun u => load W (upd f t v u)).sum + c ≤ ((List.range k).map fun u => load W (f u)).sum := by
  induction k with
  | zero => omega
  | succ k ih =>
    simp only [List.range_succ, List.map_append, List.sum_append, List.map_cons, List.map_nil, List.sum_cons, List.sum_nil]
    by_cases e : t = k
    · subst e
      have : (List.range t).map (fun u => load W (upd f t v u)) = (List.range t).map fun u => load W (f u) :=
        List.map_congr_left fun m hm => by
          rw [List.mem_range] at hm
          rw [upd_other _ _ (by omega)]
      rw [this, upd_same]; omega
    · have := ih (by omega)
      rw [upd_other _ _ (Ne.symm e)]; omega

theorem left_step (hcb : ∀ τ, ∀ x ∈ W.callback τ, W.matches_ x = false) {k : Nat} {s s' : State}
    (hk : ∀ t, k ≤ t → s.todo t = []) (st : Step W s s') : left W k s' < left W k s ∧ ∀ t, k ≤ t → s'.todo t = [] := by
  have go : ∀ (t a rest v), s.todo t = a :: rest → load W v + 1 ≤ load W (a :: rest) →
      (((List.range k).map fun u => load W (upd s.todo t v u)).sum + 1 ≤ ((List.range k).map fun u => load W (s.todo u)).sum) ∧
      ∀ u, k ≤ u → upd s.todo t v u = [] := by
    intro t a rest v h hl
    have ht : t < k := by
      by_contra hc
      rw [hk t (by omega)] at h; cases h
    exact ⟨sum_upd k s.todo t v ht 1 (by rw [h]; exact hl), fun u hu => by rw [upd_other _ _ (by omega)]; exact hk u hu⟩
  have wp := weight_pos (W := W)
  cases st with
  | late t x rest h hd =>
    obtain ⟨g1, g2⟩ := go t _ rest rest h (by rw [load_cons]; have := wp (.start x); omega)
    exact ⟨by simp only [left]; omega, g2⟩
  | other t x rest h hd hm =>
    obtain ⟨g1, g2⟩ := go t _ rest rest h (by rw [load_cons]; have := wp (.start x); omega)
    exact ⟨by simp only [left]; omega, g2⟩
  | hit t x rest h hd hm =>
    obtain ⟨g1, g2⟩ := go t _ rest (.lock x :: rest) h (by rw [load_cons, load_cons]; simp [weight, hm]; omega)
    exact ⟨by simp only [left]; omega, g2⟩
  | lock t x rest h hm =>
    obtain ⟨g1, g2⟩ := go t _ rest (.inside x :: rest) h (by rw [load_cons, load_cons]; simp [weight]; omega)
    exact ⟨by simp only [left]; omega, g2⟩
  | first t x rest h hf =>
    obtain ⟨g1, g2⟩ := go t _ rest ((W.callback (W.trace x)).map .start ++ (.unlock :: .stop :: rest)) h (by
      rw [load_append, load_callback hcb, load_cons, load_cons, load_cons]; simp [weight]; omega)
    exact ⟨by simp only [left]; omega, g2⟩
  | again t x rest y h hf =>
    obtain ⟨g1, g2⟩ := go t _ rest (.unlock :: .stop :: rest) h (by
      rw [load_cons, load_cons, load_cons]; simp [weight]; omega)
    exact ⟨by simp only [left]; omega, g2⟩
  | unlock t rest h =>
    obtain ⟨g1, g2⟩ := go t _ rest rest h (by rw [load_cons]; have := wp .unlock; omega)
    exact ⟨by simp only [left]; omega, g2⟩
  | stop t rest h =>
    obtain ⟨g1, g2⟩ := go t _ rest rest h (by rw [load_cons]; have := wp .stop; omega)
    refine ⟨?_, g2⟩
    simp only [left]
    have : (if s.done = true then 0 else 1) ≤ 1 := by split <;> omega
    simp only [if_true]
    omega
  | cancel hd => exact ⟨by simp [left, hd], hk⟩

end Monkit.RemoteCb
