import Verif.Model.Locks
import Verif.Proofs.Spans3
import Verif.Props.Spans
import Mathlib.Data.List.Perm.Subperm

/-!
# C65: no deadlock
-/

namespace Monkit.Locks
open Go

/-- The order in which locks may be nested. -/
def rank : L → Nat
  | .span _ | .allTraces _ | .scope _ => 0
  | _ => 1

theorem rank_le (l : L) : rank l ≤ 1 := by cases l <;> simp [rank]

/-- A goroutine holding `held` (innermost first) can run `p` without ever taking a lock that ranks
no higher than one it holds, and ends holding nothing. -/
def Good : List L → List Op → Prop
  | held, [] => held = []
  | held, .lock l :: p => (∀ h ∈ held, rank h < rank l) ∧ Good (l :: held) p
  | held, .unlock l :: p => ∃ hs, held = l :: hs ∧ Good hs p

theorem good_call {p q : List Op} (h : Call p) (hq : Good [] q) : Good [] (p ++ q) := by
  cases h with
  | orphan h => cases h <;> simp [Good, rank, hq]
  | detach m ts =>
    have : ∀ ts : List Nat, Good [.allTraces m] (ts.flatMap
        (fun t => [.lock (.trace t), .unlock (.trace t)]) ++ ([.unlock (.allTraces m)] ++ q)) := by
      intro ts
      induction ts with
      | nil => simp [Good, hq]
      | cons t ts ih => simpa [Good, rank] using ih
    simpa [Good] using this ts
  | newMeter s => simp [Good, rank, hq]
  | _ => simp [Good, hq]

theorem good_prog {p : List Op} (h : Prog p) : Good [] p := by
  induction h with
  | nil => rfl
  | call h _ ih => exact good_call h ih

/-- Invariant. -/
structure Inv (s : State) (held : Nat → List L) : Prop where
  good : ∀ t, Good (held t) (s.todo t)
  owner : ∀ l t, s.owner l = some t ↔ l ∈ held t
  sorted : ∀ t, (held t).Pairwise (fun a b => rank b < rank a)

theorem inv_reach {k : Nat} {prog : Nat → List Op} (hp : ∀ t, Prog (prog t)) {s : State}
    (h : Reach (start k prog) s) : ∃ held, Inv s held := by
  induction h with
  | start =>
    refine ⟨fun _ => [], fun t => ?_, fun l t => by simp [start], fun _ => .nil⟩
    simp only [start]
    split
    · exact good_prog (hp t)
    · rfl
  | step _ st ih =>
    obtain ⟨held, i⟩ := ih
    cases st with
    | lock t l rest h free =>
      have hg := i.good t
      rw [h] at hg
      refine ⟨upd held t (l :: held t), fun t' => ?_, fun l' t' => ?_, fun t' => ?_⟩
      · by_cases ht : t' = t
        · subst ht; simpa using hg.2
        · simp only [upd_other _ _ ht]; exact i.good t'
      · by_cases ht : t' = t
        · subst ht
          simp only [upd_same, List.mem_cons, ← i.owner]
          split <;> simp_all
        · simp only [upd_other _ _ ht, ← i.owner]
          split
          · next e =>
            subst e
            rw [free]
            simp [Ne.symm ht]
          · rfl
      · by_cases ht : t' = t
        · subst ht
          rw [upd_same, List.pairwise_cons]
          exact ⟨hg.1, i.sorted t'⟩
        · rw [upd_other _ _ ht]; exact i.sorted t'
    | unlock t l rest h =>
      have hg := i.good t
      rw [h] at hg
      obtain ⟨hs, e, hg⟩ := hg
      have hsort := i.sorted t
      rw [e, List.pairwise_cons] at hsort
      have hl : l ∉ hs := fun hm => Nat.lt_irrefl _ (hsort.1 l hm)
      refine ⟨upd held t hs, fun t' => ?_, fun l' t' => ?_, fun t' => ?_⟩
      · by_cases ht : t' = t
        · subst ht; simpa using hg
        · simp only [upd_other _ _ ht]; exact i.good t'
      · have ho := i.owner l t
        rw [e] at ho
        have ho : _ := ho.mpr (by simp)
        by_cases ht : t' = t
        · subst ht
          rw [upd_same]
          have := i.owner l' t'
          rw [e] at this
          by_cases hll : l' = l
          · subst hll; simp [hl]
          · simp only [hll, if_false, this, List.mem_cons, false_or]
        · rw [upd_other _ _ ht, ← i.owner]
          by_cases hll : l' = l
          · subst hll; simp [ho, Ne.symm ht]
          · simp [hll]
      · by_cases ht : t' = t
        · subst ht; rw [upd_same]; exact hsort.2
        · rw [upd_other _ _ ht]; exact i.sorted t'

/-- C65.  Goroutines running any sequences of the locking functions never deadlock: as long as one has
something left to do, some goroutine can go on. -/
theorem C65_locks_no_deadlock (k : Nat) (prog : Nat → List Op) (hp : ∀ t, Prog (prog t)) (s : State)
    (h : Reach (start k prog) s) (t : Nat) (ht : s.todo t ≠ []) : ∃ s', Step s s' := by
  obtain ⟨held, i⟩ := inv_reach hp h
  have blocked : ∀ m t l rest, s.todo t = .lock l :: rest → 1 - rank l ≤ m → ∃ s', Step s s' := by
    intro m
    induction m with
    | zero | succ m ih =>
      intro t l rest h hm
      cases ho : s.owner l with
      | none => exact ⟨_, .lock s t l rest h ho⟩
      | some t' =>
        have hmem := (i.owner l t').mp ho
        have hg := i.good t'
        cases htodo : s.todo t' with
        | nil => rw [htodo] at hg; rw [show held t' = [] from hg] at hmem; cases hmem
        | cons op rest' =>
          cases op with
          | unlock l' => exact ⟨_, .unlock s t' l' rest' htodo⟩
          | lock l' =>
            rw [htodo] at hg
            have := hg.1 l hmem
            have := rank_le l'
            first
            | exact ih t' l' rest' htodo (by omega)
            | omega
  cases htodo : s.todo t with
  | nil => exact absurd htodo ht
  | cons op rest =>
    cases op with
    | unlock l => exact ⟨_, .unlock s t l rest htodo⟩
    | lock l => exact blocked _ t l rest htodo (Nat.le_refl _)

/-- A reachable state in which one goroutine orphans span 1 (holding its lock and the registry's), and
another waits for that span. -/
example : ∃ s, Reach (start 2 fun t => if t = 0 then
      [.lock (.span 1), .lock (.orphans 0), .unlock (.orphans 0), .unlock (.span 1)] ++ []
      else [.lock (.span 1), .unlock (.span 1)] ++ []) s ∧ s.owner (.span 1) = some 0 ∧
      s.owner (.orphans 0) = some 0 ∧ s.todo 1 = [.lock (.span 1), .unlock (.span 1)] := by
  refine ⟨_, .step (.step .start (.lock _ 0 (.span 1) _ rfl rfl)) (.lock _ 0 (.orphans 0) _ rfl rfl),
    rfl, rfl, rfl⟩

example : Prog ([.lock (.span 1), .lock (.orphans 0), .unlock (.orphans 0), .unlock (.span 1)] ++ []) :=
  .call (.orphan .marked) .nil

end Monkit.Locks

namespace Monkit.Spans
open Go

/-! ## In the span system itself -/

/-- The start or the exit of span `n` is half way through. -/
def Unfinished (s : State) (n : Nat) : Prop := s.pc n ≠ .new ∧ s.pc n ≠ .running ∧ s.pc n ≠ .over

/-- A step of a start or exit that is under way. -/
def Work (W : World) (s s' : State) : Prop := Step W s s' ∧ ∃ n, Unfinished s n ∧ s'.pc n ≠ s.pc n

theorem step_unfinished {W : World} {s s' : State} {n : Nat} (st : Step W s s') (h : s'.pc n ≠ s.pc n)
    (hu : Unfinished s n) : Work W s s' := ⟨st, n, hu, h⟩

/-- How much is left of a start or exit; `N` bounds the number of spans. -/
def weight (N : Nat) : PC → Nat
  | .new | .running | .over => 0
  | .inc => 4
  | .pub => 3
  | .selfOrphan => 2
  | .selfInsert => 1
  | .mark => 2 * (N + 1) + 5
  | .orphan cs _ => 2 * cs.length + 4
  | .insert _ cs _ => 2 * cs.length + 5
  | .leave _ => 3
  | .unorphan => 2
  | .dec => 1

theorem bag_length {W : World} {s : State} (a : InvA W s) {N : Nat} (hN : ∀ n, N ≤ n → s.pc n = .new)
    {n : Nat} {ord : Map Nat Int32} (hord : ord.Perm (s.bag n).rest) :
    ((s.bag n).iterate ord).length ≤ N + 1 := by
  have hk : (ord.map (·.1)).Nodup := Map.ok_perm hord.symm (a.bagOk n).1
  have hs : ord.map (·.1) ⊆ List.range N := by
    intro c hc
    have : c ∈ (s.bag n).iterate ord := List.mem_append_right _ hc
    have := ((mem_bag a hord c).mp this).2
    rw [List.mem_range]
    rcases Nat.lt_or_ge c N with h | h
    · exact h
    · rw [hN c h] at this; cases this
  have hl := (List.subperm_of_subset hk hs).length_le
  rw [List.length_range, List.length_map] at hl
  unfold SpanBag.iterate
  rw [List.length_append, List.length_map]
  have : (s.bag n).first.toList.length ≤ 1 := by cases (s.bag n).first <;> simp
  omega

/-- A step of work makes the span that moves lighter and moves no other. -/
theorem work_lighter {W : World} {s s' : State} (a : InvA W s) {N : Nat}
    (hN : ∀ n, N ≤ n → s.pc n = .new) (w : Work W s s') :
    ∃ n v, n < N ∧ s'.pc = upd s.pc n v ∧ weight N v < weight N (s.pc n) := by
  obtain ⟨st, m, hu, hm⟩ := w
  have lt : ∀ n, s.pc n ≠ .new → n < N := fun n h => by
    rcases Nat.lt_or_ge n N with h' | h'
    · exact h'
    · exact absurd (hN n h') h
  cases st with
  | create n h _ =>
    exfalso; by_cases e : m = n
    · subst e; exact hu.1 h
    · exact hm (upd_other _ _ e)
  | exit n h =>
    exfalso; by_cases e : m = n
    · subst e; exact hu.2.1 h
    · exact hm (upd_other _ _ e)
  | mark n ord h free hord =>
    refine ⟨n, _, lt n (by rw [h]; simp), rfl, ?_⟩
    have := bag_length a hN hord
    rw [h]; simp only [weight]; omega
  | inc n h => exact ⟨n, _, lt n (by rw [h]; simp), rfl, by rw [h]; simp [weight]⟩
  | root n h hp => exact ⟨n, _, lt n (by rw [h]; simp), rfl, by rw [h]; simp [weight]⟩
  | child n p h hp free =>
    exact ⟨n, _, lt n (by rw [h]; simp), rfl, by rw [h]; split <;> simp [weight]⟩
  | selfMark n h free hn => exact ⟨n, _, lt n (by rw [h]; simp), rfl, by rw [h]; simp [weight]⟩
  | selfSkip n h free hn => exact ⟨n, _, lt n (by rw [h]; simp), rfl, by rw [h]; simp [weight]⟩
  | selfInsert n h => exact ⟨n, _, lt n (by rw [h]; simp), rfl, by rw [h]; simp [weight]⟩
  | orphanMark n c cs o h free hc =>
    exact ⟨n, _, lt n (by rw [h]; simp), rfl, by rw [h]; simp [weight]; omega⟩
  | orphanSkip n c cs o h free hc =>
    exact ⟨n, _, lt n (by rw [h]; simp), rfl, by rw [h]; simp [weight]⟩
  | orphanInsert n c cs o h => exact ⟨n, _, lt n (by rw [h]; simp), rfl, by rw [h]; simp [weight]⟩
  | orphanDone n o h => exact ⟨n, _, lt n (by rw [h]; simp), rfl, by rw [h]; simp [weight]⟩
  | leaveParent n p o h hp free =>
    exact ⟨n, _, lt n (by rw [h]; simp), rfl, by rw [h]; split <;> simp [weight]⟩
  | leaveRoots n o h hp => exact ⟨n, _, lt n (by rw [h]; simp), rfl, by rw [h]; simp [weight]⟩
  | unorphan n h => exact ⟨n, _, lt n (by rw [h]; simp), rfl, by rw [h]; simp [weight]⟩
  | dec n h => exact ⟨n, _, lt n (by rw [h]; simp), rfl, by rw [h]; simp [weight]⟩

/-- C65.  In every reachable state in which some start or exit is unfinished, some unfinished start or exit can take
a step. -/
theorem C65_span_progress {W : World} {s : State} (h : Reach W init s) (n : Nat) (hu : Unfinished s n) :
    ∃ s', Work W s s' := by
  obtain ⟨a, b⟩ := reach_inv h
  -- whoever holds a lock can go on
  have holder : ∀ c, s.locked c = true → ∃ s', Work W s s' := by
    intro c hl
    obtain ⟨_, _, _, h4⟩ := b.lockB c hl
    rcases h4 with h4 | ⟨p, cs, o, _, h4⟩
    · exact ⟨_, .selfInsert s c h4, c, by simp [Unfinished, h4], by simp [h4]⟩
    · exact ⟨_, .orphanInsert s p c cs o h4, p, by simp [Unfinished, h4], by simp [h4]⟩
  have lockOr : ∀ c, s.locked c = false ∨ ∃ s', Work W s s' := fun c => by
    cases hl : s.locked c with
    | false => exact .inl rfl
    | true => exact .inr (holder c hl)
  cases hpc : s.pc n with
  | new => exact absurd hpc hu.1
  | running => exact absurd hpc hu.2.1
  | over => exact absurd hpc hu.2.2
  | inc => exact ⟨_, .inc s n hpc, n, hu, by simp [hpc]⟩
  | pub =>
    cases hp : W.parent n with
    | none => exact ⟨_, .root s n hpc hp, n, hu, by simp [hpc]⟩
    | some p =>
      rcases lockOr p with hf | hf
      · exact ⟨_, .child s n p hpc hp hf, n, hu, by simp only [upd_same, hpc]; split <;> simp⟩
      · exact hf
  | selfOrphan =>
    rcases lockOr n with hf | hf
    · by_cases hc : s.done n = false ∧ s.orphaned n = false
      · exact ⟨_, .selfMark s n hpc hf hc, n, hu, by simp [hpc]⟩
      · exact ⟨_, .selfSkip s n hpc hf hc, n, hu, by simp [hpc]⟩
    · exact hf
  | selfInsert => exact ⟨_, .selfInsert s n hpc, n, hu, by simp [hpc]⟩
  | mark =>
    rcases lockOr n with hf | hf
    · exact ⟨_, .mark s n _ hpc hf (.refl _), n, hu, by simp [hpc]⟩
    · exact hf
  | orphan cs o =>
    cases cs with
    | nil => exact ⟨_, .orphanDone s n o hpc, n, hu, by simp [hpc]⟩
    | cons c cs =>
      rcases lockOr c with hf | hf
      · by_cases hc : s.done c = false ∧ s.orphaned c = false
        · exact ⟨_, .orphanMark s n c cs o hpc hf hc, n, hu, by simp [hpc]⟩
        · refine ⟨_, .orphanSkip s n c cs o hpc hf hc, n, hu, ?_⟩
          simp only [upd_same, hpc, ne_eq, PC.orphan.injEq, not_and]
          intro e
          have := congrArg List.length e
          simp at this
      · exact hf
  | insert c cs o => exact ⟨_, .orphanInsert s n c cs o hpc, n, hu, by simp [hpc]⟩
  | leave o =>
    cases hp : W.parent n with
    | none => exact ⟨_, .leaveRoots s n o hpc hp, n, hu, by simp [hpc]⟩
    | some p =>
      rcases lockOr p with hf | hf
      · exact ⟨_, .leaveParent s n p o hpc hp hf, n, hu, by simp only [upd_same, hpc]; split <;> simp⟩
      · exact hf
  | unorphan => exact ⟨_, .unorphan s n hpc, n, hu, by simp [hpc]⟩
  | dec => exact ⟨_, .dec s n hpc, n, hu, by simp [hpc]⟩

/-- Sequences of work steps. -/
inductive WorkSeq (W : World) : State → Nat → State → Prop where
  | nil (s : State) : WorkSeq W s 0 s
  | cons {s s' s'' k} (w : Work W s s') (h : WorkSeq W s' k s'') : WorkSeq W s (k + 1) s''

theorem sum_upd (N : Nat) (f : Nat → Nat) (n : Nat) (hn : n < N) (g : Nat → Nat)
    (hg : ∀ m, m ≠ n → g m = f m) (hlt : g n < f n) :
    ((List.range N).map g).sum < ((List.range N).map f).sum := by
  induction N with
  | zero => omega
  | succ N ih =>
    simp only [List.range_succ, List.map_append, List.sum_append, List.map_cons, List.map_nil,
      List.sum_cons, List.sum_nil]
    by_cases e : n = N
    · subst e
      have : (List.range n).map g = (List.range n).map f :=
        List.map_congr_left fun m hm => hg m (by rw [List.mem_range] at hm; omega)
      rw [this]; omega
    · have := ih (by omega)
      rw [hg N (Ne.symm e)]; omega

/-- C65.  No livelock either: from every reachable state the starts and exits under way can be scheduled
only boundedly often, and however they are scheduled, when none can move all of them are finished. -/
theorem C65_span_completion {W : World} {s : State} (h : Reach W init s) :
    ∃ B, ∀ k s', WorkSeq W s k s' → k ≤ B ∧ ((¬ ∃ s'', Work W s' s'') → Quiet s') := by
  obtain ⟨N, hN⟩ := reach_finite h
  refine ⟨((List.range N).map fun n => weight N (s.pc n)).sum, fun k s' hw => ⟨?_, fun hs => ?_⟩⟩
  · induction hw with
    | nil => exact Nat.zero_le _
    | @cons s s1 s2 k w _ ih =>
      obtain ⟨n, v, hn, e, hlt⟩ := work_lighter (reach_inv h).1 hN w
      have h1 : Reach W init s1 := .step h w.1
      have hN1 : ∀ m, N ≤ m → s1.pc m = .new := fun m hm => by
        rw [e, upd_other _ _ (by omega)]; exact hN m hm
      have := ih h1 hN1
      have := sum_upd N (fun m => weight N (s.pc m)) n hn (fun m => weight N (s1.pc m))
        (fun m hm => by simp only [e, upd_other _ _ hm]) (by simpa [e] using hlt)
      omega
  · have hr : Reach W init s' := by
      clear hs
      induction hw with
      | nil => exact h
      | @cons s s1 s2 k w _ ih =>
        obtain ⟨n, v, hn, e, _⟩ := work_lighter (reach_inv h).1 hN w
        exact ih (.step h w.1) (fun m hm => by rw [e, upd_other _ _ (by omega)]; exact hN m hm)
    intro n
    by_cases hu : Unfinished s' n
    · exact absurd (C65_span_progress hr n hu) hs
    · simp only [Unfinished, Classical.not_and_iff_not_or_not, Classical.not_not] at hu; exact hu

/-- A reachable state with an unfinished exit. -/
example : ∃ s, Reach chain init s ∧ Unfinished s 1 ∧ s.pc 2 = .running := by
  have h : (runs chain init [0, 0, 0, 1, 1, 1, 2, 2, 2, 1, 1, 1]).map (fun s => (s.pc 1, s.pc 2, s.locked 2)) =
    some (.insert 2 [] false, .running, true) := by rfl
  rw [Option.map_eq_some_iff] at h
  obtain ⟨s, h1, h2⟩ := h
  simp only [Prod.mk.injEq] at h2
  exact ⟨s, runs_reach h1, by simp [Unfinished, h2.1], h2.2.1⟩

end Monkit.Spans
