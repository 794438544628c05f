import Verif.Spec.Delta
import Mathlib.Data.List.Perm.Basic
import Mathlib.Tactic.Abel

namespace Monkit.Delta
open Go Spec

variable {V : Type}

theorem totals_snoc (wf : Key → Str → Str) (n : Str) (xs : List (Stat V)) (x : Stat V) :
    totals wf n (xs ++ [x]) = totals wf n xs ++ if isTotal wf n x then [x.2.2] else [] := by
  unfold totals
  rw [List.filter_append, List.map_append]
  by_cases h : isTotal wf n x = true
  · simp [h]
  · simp [h]

/-- The table holds the last total of each series. -/
theorem feed_spec (sub : V → V → V) (wf : Key → Str → Str) (last : Map Str V) (before : List (Stat V)) (x : Stat V)
    (h : ∀ n, Map.get last n = (totals wf n before).getLast?) :
    (feed sub wf last x).2 = (piece sub wf before x).map (·.2) ∧
      ∀ n, Map.get (feed sub wf last x).1 n = (totals wf n (before ++ [x])).getLast? := by
  unfold feed piece
  by_cases hx : x.2.1 = b!"total"
  · rw [if_neg (by simp [hx]), if_pos hx]
    simp only
    rw [h]
    have ht : ∀ n, Map.get (Map.set last (wf x.1 x.2.1) x.2.2) n = (totals wf n (before ++ [x])).getLast? := by
      intro n
      rw [Map.get_set, totals_snoc, h]
      by_cases hn : wf x.1 x.2.1 = n
      · rw [if_pos hn, if_pos (by simpa [isTotal] using ⟨hx, hn⟩)]
        simp
      · rw [if_neg hn, if_neg (by simpa [isTotal] using fun _ => hn)]
        simp
    cases hl : (totals wf (wf x.1 x.2.1) before).getLast? with
    | none => exact ⟨rfl, ht⟩
    | some old => exact ⟨rfl, ht⟩
  · rw [if_pos hx, if_neg hx]
    refine ⟨rfl, fun n => ?_⟩
    rw [totals_snoc, if_neg (by simpa [isTotal] using fun e => absurd e hx), List.append_nil]
    exact h n

theorem stream_spec (sub : V → V → V) (wf : Key → Str → Str) (last : Map Str V) (before xs : List (Stat V))
    (h : ∀ n, Map.get last n = (totals wf n before).getLast?) :
    stream sub wf last xs = (outs sub wf before xs).map (·.2) := by
  induction xs generalizing last before with
  | nil => rfl
  | cons x xs ih =>
    obtain ⟨h1, h2⟩ := feed_spec sub wf last before x h
    rw [stream, outs, List.map_append, h1, ih _ _ h2]

theorem span_snoc [AddCommGroup V] (l : List V) (v : V) :
    span (l ++ [v]) = span l + match l.getLast? with | some o => v - o | none => 0 := by
  cases l with
  | nil => simp [span]
  | cons a l =>
    simp only [List.cons_append, span]
    rw [List.getLast?_eq_some_getLast (by simp : a :: l ≠ [])]
    simp only
    rw [List.getLast_cons (by simp), List.getLast_append]
    simp

theorem deltas_piece [AddCommGroup V] (wf : Key → Str → Str) (n : Str) (before : List (Stat V)) (x : Stat V) :
    span (totals wf n before) + (deltas wf n (piece (fun a b => a - b) wf before x)).sum = span (totals wf n (before ++ [x])) := by
  rw [totals_snoc]
  unfold piece
  by_cases hx : x.2.1 = b!"total"
  · rw [if_pos hx]
    by_cases hn : wf x.1 x.2.1 = n
    · rw [if_pos (by simpa [isTotal] using ⟨hx, hn⟩), span_snoc, hn]
      have hn' : wf x.1 b!"total" = n := hx ▸ hn
      cases (totals wf n before).getLast? with
      | none => simp [deltas]
      | some old => simp [deltas, hn']
    · rw [if_neg (by simpa [isTotal] using fun _ => hn)]
      have hn' : wf x.1 b!"total" ≠ n := hx ▸ hn
      cases (totals wf (wf x.1 x.2.1) before).getLast? with
      | none => simp [deltas]
      | some old => simp [deltas, hn']
  · rw [if_neg hx, if_neg (by simpa [isTotal] using fun e => absurd e hx)]
    simp [deltas]

/-- What a goroutine still has to put out. -/
def PC.rest (sub : V → V → V) : PC V → List (Bool × Stat V)
  | .pass x => [(false, x)]
  | .unlock x o | .total x o => (false, x) :: (match o with | some old => [(true, x.1, b!"delta", sub x.2.2 old)] | none => [])
  | .delta x o => match o with | some old => [(true, x.1, b!"delta", sub x.2.2 old)] | none => []
  | _ => []

theorem upd_apply {α : Type} (f : Nat → α) (t : Nat) (v : α) (t' : Nat) : upd f t v t' = if t' = t then v else f t' := rfl

structure Inv (sub : V → V → V) (wf : Key → Str → Str) (tr : List (Ev V)) (s : State V) : Prop where
  table : ∀ n, Map.get s.last n = (totals wf n (swaps tr)).getLast?
  isTot : ∀ t x, s.pc t = .lock x ∨ s.pc t = .locked x → x.2.1 = b!"total"
  swapTot : ∀ x ∈ swaps tr, x.2.1 = b!"total"
  out : ∀ t, outsOf t tr ++ (s.pc t).rest sub = expected sub t tr

theorem inv {sub : V → V → V} {wf : Key → Str → Str} {tr : List (Ev V)} {s : State V} (h : Exec (Step sub wf) State.init tr s) :
    Inv sub wf tr s := by
  refine Exec.induct (Inv sub wf) ⟨fun _ => rfl, by simp [State.init], by simp [swaps], fun _ => rfl⟩ ?_ h
  intro tr s e s' hi st
  have so : ∀ ev : Ev V, swaps (tr ++ [ev]) = swaps tr ++ (match ev with | .swap _ x _ => [x] | _ => []) := by
    intro ev; unfold swaps; rw [List.filterMap_append]; cases ev <;> rfl
  have oo : ∀ t (ev : Ev V), outsOf t (tr ++ [ev]) = outsOf t tr ++ outsOf t [ev] := by
    intro t ev; unfold outsOf; rw [List.filterMap_append]
  have ee : ∀ t (ev : Ev V), expected sub t (tr ++ [ev]) = expected sub t tr ++ expected sub t [ev] := by
    intro t ev; unfold expected; rw [List.flatMap_append]
  obtain ⟨i1, i2, i3, i4⟩ := hi
  cases st with
  | swap t x hp =>
    have hx := i2 t x (Or.inr hp)
    refine ⟨?_, ?_, ?_, ?_⟩
    · intro n
      simp only [Option.toList_some, so, Map.get_set]
      rw [totals_snoc, i1]
      by_cases hn : wf x.1 x.2.1 = n
      · rw [if_pos hn, if_pos (by simpa [isTotal] using ⟨hx, hn⟩)]
        simp
      · rw [if_neg hn, if_neg (by simpa [isTotal] using fun _ => hn)]
        simp
    · intro u y hu
      simp only [upd_apply] at hu
      by_cases hut : u = t
      · simp [hut] at hu
      · rw [if_neg hut] at hu; exact i2 u y hu
    · intro y hy
      simp only [Option.toList_some, so, List.mem_append, List.mem_singleton] at hy
      rcases hy with hy | hy
      · exact i3 y hy
      · rw [hy]; exact hx
    · intro u
      simp only [Option.toList_some, oo, ee, upd_apply]
      by_cases hut : u = t
      · subst hut
        have := i4 u
        rw [hp] at this
        simp only [PC.rest, List.append_nil] at this
        rw [← this]
        simp [outsOf, expected, PC.rest]
        cases Map.get s.last (wf x.1 x.2.1) <;> rfl
      · have hut' : t ≠ u := fun e => hut e.symm
        have := i4 u
        simpa [outsOf, expected, hut, hut'] using this
  | callPass t x hp hx =>
    refine ⟨by simpa [so] using i1, ?_, by simpa [so] using i3, ?_⟩
    · intro u y hu
      simp only [upd_apply] at hu
      by_cases hut : u = t
      · simp [hut] at hu
      · rw [if_neg hut] at hu; exact i2 u y hu
    · intro u
      simp only [Option.toList_some, oo, ee, upd_apply]
      by_cases hut : u = t
      · subst hut
        have := i4 u
        rw [hp] at this
        simp only [PC.rest, List.append_nil] at this
        rw [← this]
        simp [outsOf, expected, PC.rest, hx]
      · have hut' : t ≠ u := fun e => hut e.symm
        have := i4 u
        simpa [outsOf, expected, hut, hut'] using this
  | callTotal t x hp hx =>
    refine ⟨by simpa [so] using i1, ?_, by simpa [so] using i3, ?_⟩
    · intro u y hu
      simp only [upd_apply] at hu
      by_cases hut : u = t
      · simp only [hut, if_true, PC.lock.injEq, reduceCtorEq, or_false] at hu
        rw [← hu]; exact hx
      · rw [if_neg hut] at hu; exact i2 u y hu
    · intro u
      simp only [Option.toList_some, oo, ee, upd_apply]
      by_cases hut : u = t
      · subst hut
        have := i4 u
        rw [hp] at this
        simp only [PC.rest, List.append_nil] at this
        rw [← this]
        simp [outsOf, expected, PC.rest, hx]
      · have hut' : t ≠ u := fun e => hut e.symm
        have := i4 u
        simpa [outsOf, expected, hut, hut'] using this
  | lock t x hp hl =>
    refine ⟨by simpa using i1, ?_, by simpa using i3, ?_⟩
    · intro u y hu
      simp only [upd_apply] at hu
      by_cases hut : u = t
      · simp only [hut, if_true, PC.locked.injEq, reduceCtorEq, false_or] at hu
        rw [← hu]; exact i2 t x (Or.inl hp)
      · rw [if_neg hut] at hu; exact i2 u y hu
    · intro u
      simp only [Option.toList_none, List.append_nil, upd_apply]
      by_cases hut : u = t
      · subst hut
        have := i4 u
        rw [hp] at this
        simpa [PC.rest] using this
      · simpa [hut] using i4 u
  | unlock t x o hp =>
    refine ⟨by simpa using i1, ?_, by simpa using i3, ?_⟩
    · intro u y hu
      simp only [upd_apply] at hu
      by_cases hut : u = t
      · simp [hut] at hu
      · rw [if_neg hut] at hu; exact i2 u y hu
    · intro u
      simp only [Option.toList_none, List.append_nil, upd_apply]
      by_cases hut : u = t
      · subst hut
        have := i4 u
        rw [hp] at this
        simpa [PC.rest] using this
      · simpa [hut] using i4 u
  | pass t x hp =>
    refine ⟨by simpa [so] using i1, ?_, by simpa [so] using i3, ?_⟩
    · intro u y hu
      simp only [upd_apply] at hu
      by_cases hut : u = t
      · simp [hut] at hu
      · rw [if_neg hut] at hu; exact i2 u y hu
    · intro u
      simp only [Option.toList_some, oo, ee, upd_apply]
      by_cases hut : u = t
      · subst hut
        have := i4 u
        rw [hp] at this
        rw [← this]
        simp [outsOf, expected, PC.rest]
      · have hut' : t ≠ u := fun e => hut e.symm
        have := i4 u
        simpa [outsOf, expected, hut, hut'] using this
  | total t x o hp =>
    refine ⟨by simpa [so] using i1, ?_, by simpa [so] using i3, ?_⟩
    · intro u y hu
      simp only [upd_apply] at hu
      by_cases hut : u = t
      · simp [hut] at hu
      · rw [if_neg hut] at hu; exact i2 u y hu
    · intro u
      simp only [Option.toList_some, oo, ee, upd_apply]
      by_cases hut : u = t
      · subst hut
        have := i4 u
        rw [hp] at this
        rw [← this]
        simp [outsOf, expected, PC.rest]
      · have hut' : t ≠ u := fun e => hut e.symm
        have := i4 u
        simpa [outsOf, expected, hut, hut'] using this
  | delta t x old hp =>
    refine ⟨by simpa [so] using i1, ?_, by simpa [so] using i3, ?_⟩
    · intro u y hu
      simp only [upd_apply] at hu
      by_cases hut : u = t
      · simp [hut] at hu
      · rw [if_neg hut] at hu; exact i2 u y hu
    · intro u
      simp only [Option.toList_some, oo, ee, upd_apply]
      by_cases hut : u = t
      · subst hut
        have := i4 u
        rw [hp] at this
        rw [← this]
        simp [outsOf, expected, PC.rest]
      · have hut' : t ≠ u := fun e => hut e.symm
        have := i4 u
        simpa [outsOf, expected, hut, hut'] using this
  | ret t x hp =>
    refine ⟨by simpa [so] using i1, ?_, by simpa [so] using i3, ?_⟩
    · intro u y hu
      simp only [upd_apply] at hu
      by_cases hut : u = t
      · simp [hut] at hu
      · rw [if_neg hut] at hu; exact i2 u y hu
    · intro u
      simp only [Option.toList_some, oo, ee, upd_apply]
      by_cases hut : u = t
      · subst hut
        have := i4 u
        rw [hp] at this
        rw [← this]
        simp [outsOf, expected, PC.rest]
      · have hut' : t ≠ u := fun e => hut e.symm
        have := i4 u
        simpa [outsOf, expected, hut, hut'] using this

theorem perm_of_filters {α : Type} [DecidableEq α] (l l' : List (Nat × α))
    (h : ∀ t, l.filter (fun y => y.1 = t) = l'.filter (fun y => y.1 = t)) : l.Perm l' := by
  rw [List.perm_iff_count]
  intro y
  have e : ∀ l : List (Nat × α), l.count y = (l.filter (fun z => z.1 = y.1)).count y := by
    intro l; rw [List.count_filter]; simp
  rw [e l, e l', h]

end Monkit.Delta
