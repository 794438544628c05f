import Verif.Proofs.Spans3
import Verif.Proofs.SpansRun

/-!
# C22–C27: what the registry shows of the spans

`Reach W init s`: `s` is reached by some interleaving of the steps of any number of spans of the tree
`W`.
-/

namespace Monkit.Spans
open Go

/-! ### Witnesses -/

/-- A chain: 0 ← 1 ← 2, and 3 a second root; one registry; 0, 1, 2 on trace 7, 3 on trace 8. -/
def chain : World where
  parent n := if n = 1 then some 0 else if n = 2 then some 1 else none
  reg _ := 0
  trace n := if n = 3 then 8 else 7
  older n p h := by
    split at h
    · cases h; omega
    · split at h
      · cases h; omega
      · cases h

/-- 0, 1, 2, 3 are started; then 1 exits completely: 2 is orphaned. -/
def scheduleQuiet : List Nat := [0, 0, 0, 1, 1, 1, 2, 2, 2, 3, 3, 3, 1, 1, 1, 1, 1, 1, 1]

theorem quiet_example : ∃ s, Reach chain init s ∧ Quiet s ∧ s.pc 0 = .running ∧ s.pc 1 = .over ∧
    s.pc 2 = .running ∧ s.pc 3 = .running ∧ s.roots 0 = [3, 0] ∧ s.orphans 0 = [2] := by
  have h : (runs chain init scheduleQuiet).map (fun s => (s.pc 0, s.pc 1, s.pc 2, s.pc 3, s.roots 0, s.orphans 0)) =
    some (.running, .over, .running, .running, [3, 0], [2]) := by rfl
  rw [Option.map_eq_some_iff] at h
  obtain ⟨s, h1, h2⟩ := h
  simp only [Prod.mk.injEq] at h2
  obtain ⟨a, b, c, d, e, f⟩ := h2
  refine ⟨s, runs_reach h1, fun n => ?_, a, b, c, d, e, f⟩
  by_cases hn : n ∈ scheduleQuiet
  · have : n = 0 ∨ n = 1 ∨ n = 2 ∨ n = 3 := by simp [scheduleQuiet] at hn; omega
    rcases this with rfl | rfl | rfl | rfl <;> simp [a, b, c, d]
  · left; rw [runs_none h1 hn]; rfl

/-! ### C22 -/

/-- C22.  With no start or exit half way through, `RootSpans` of registry `r` lists exactly the running spans of
that registry with no local parent or whose local parent has finished; each once, ordered by name and
id. -/
theorem C22_root_spans {W : World} {s : State} (h : Reach W init s) (q : Quiet s) (w : SpanSort)
    (r : Nat) (o1 o2 : List Nat) (h1 : o1.Perm (s.roots r)) (h2 : o2.Perm (s.orphans r)) :
    (rootSpans w o1 o2).Nodup ∧
    (∀ n, n ∈ rootSpans w o1 o2 ↔ s.pc n = .running ∧ Top W s n ∧ W.reg n = r) ∧
    (rootSpans w o1 o2).Pairwise (Spec.before w) := by
  obtain ⟨a, b⟩ := reach_inv h
  obtain ⟨hl, ho, hlive⟩ := quiet_facts a b q
  have hmr : ∀ n, n ∈ s.orphans r ↔
      W.reg n = r ∧ s.pc n = .running ∧ ∃ p, W.parent n = some p ∧ s.pc p = .over := by
    intro n
    rw [b.orph, ← ho]
    constructor
    · rintro ⟨h1, h2, _, _, h5⟩; exact ⟨h1, h2, h5⟩
    · rintro ⟨h1, h2, h5⟩
      exact ⟨h1, h2, hl n, fun e => by rcases q n with h | h | h <;> rw [h] at e <;> (cases e), h5⟩
  have hmo : ∀ n, n ∈ s.roots r ↔ W.reg n = r ∧ W.parent n = none ∧ s.pc n = .running := by
    intro n; rw [a.roots, hlive]
  unfold rootSpans
  refine ⟨?_, fun n => ?_, ?_⟩
  · rw [(sortBy_perm _ _).nodup_iff, List.nodup_append]
    refine ⟨h1.nodup_iff.mpr (a.rootsN r), h2.nodup_iff.mpr (b.orphN r), fun x hx y hy e => ?_⟩
    subst e
    obtain ⟨_, g, _⟩ := (hmo x).mp (h1.mem_iff.mp hx)
    obtain ⟨_, _, p, g', _⟩ := (hmr x).mp (h2.mem_iff.mp hy)
    rw [g] at g'; cases g'
  · rw [mem_sortBy, List.mem_append, h1.mem_iff, h2.mem_iff, hmo, hmr]
    unfold Top
    constructor
    · rintro (⟨g1, g2, g3⟩ | ⟨g1, g2, p, g3, g4⟩)
      · exact ⟨g3, (fun p hp => by rw [g2] at hp; cases hp), g1⟩
      · exact ⟨g2, fun p' hp' => by rw [g3] at hp'; cases hp'; exact g4, g1⟩
    · rintro ⟨g1, g2, g3⟩
      cases hp : W.parent n with
      | none => exact .inl ⟨g3, rfl, g1⟩
      | some p => exact .inr ⟨g3, g1, p, rfl, g2 p hp⟩
  · exact (sortBy_sorted (le_trans' w) (le_total w) _).imp fun {i j} hij => (le_iff w i j).mp hij

example : ∃ s, Reach chain init s ∧ Quiet s ∧
    rootSpans ⟨fun n => if n = 2 then b!"a" else b!"b", fun n => if n = 3 then 1 else 2⟩
      (s.roots 0) (s.orphans 0) = [2, 3, 0] := by
  obtain ⟨s, h1, h2, _, _, _, _, h3, h4⟩ := quiet_example
  exact ⟨s, h1, h2, by rw [h3, h4]; decide +kernel⟩

/-! ### C23 -/

theorem mapM_mono {f f' : Nat → Option (List Nat)} (hf : ∀ n x, f n = some x → f' n = some x)
    (l : List Nat) (ls : List (List Nat)) (e : l.mapM f = some ls) : l.mapM f' = some ls := by
  induction l generalizing ls with
  | nil => exact e
  | cons c cs ihc =>
    simp only [List.mapM_cons, Option.pure_def, Option.bind_eq_bind, Option.bind_eq_some_iff,
      Option.some.injEq] at e ⊢
    obtain ⟨y, hy, ys, hys, e⟩ := e
    exact ⟨y, hf c y hy, ys, ihc ys hys, e⟩

/-- C23.  With no start or exit half way through, `AllSpans` of registry `r` terminates, visits no span
twice, and visits exactly the running spans whose topmost running ancestor (along an unbroken chain)
belongs to `r`. -/
theorem C23_all_spans {W : World} {s : State} (h : Reach W init s) (q : Quiet s) (w : SpanSort)
    (r : Nat) (o1 o2 : List Nat) (h1 : o1.Perm (s.roots r)) (h2 : o2.Perm (s.orphans r))
    (ords : Nat → Map Nat Int32) (hords : ∀ n, (ords n).Perm (s.bag n).rest) :
    ∃ depth l, (∀ fuel, depth ≤ fuel → allSpans w s ords o1 o2 fuel = some l) ∧ l.Nodup ∧
      ∀ n, n ∈ l ↔ Under W s r n := by
  obtain ⟨a, b⟩ := reach_inv h
  obtain ⟨N, hN⟩ := reach_finite h
  obtain ⟨g1, g2, _⟩ := C22_root_spans h q w r o1 o2 h1 h2
  have key : ∀ fuel, N + 1 ≤ fuel → ∃ l, allSpans w s ords o1 o2 fuel = some l ∧ l.Nodup ∧
      ∀ n, n ∈ l ↔ Under W s r n := by
    intro fuel hfuel
    obtain ⟨ls, e1, e2, e3⟩ := mapM_walk (f := walk w s ords fuel) (D := Desc W s) (rootSpans w o1 o2)
      (fun c _ => walk_spec a b q w ords hords N hN fuel c (by omega) (by omega)) g1
      (by
        intro c hc c' hc' hne m hd hd'
        have top : ∀ {x y : Nat}, Top W s x → s.pc y = .running → x ≠ y → ¬ Desc W s y x := by
          intro x y hx hy hxy hd
          cases hd with
          | self => exact hxy rfl
          | down _ p _ hp hd' =>
            have ho := hx p hp
            cases hd' with
            | self => rw [ho] at hy; cases hy
            | down _ p' hr _ _ => rw [ho] at hr; cases hr
        have hc1 := (g2 c).mp hc
        have hc2 := (g2 c').mp hc'
        rcases hd.linear hd' with hx | hx
        · exact top hc2.2.1 hc1.1 (Ne.symm hne) hx
        · exact top hc1.2.1 hc2.1 hne hx)
    refine ⟨ls.flatten, by simp [allSpans, e1], e2, fun n => ?_⟩
    rw [e3]
    constructor
    · rintro ⟨c, hc, hd⟩
      obtain ⟨k1, k2, k3⟩ := (g2 c).mp hc
      induction hd with
      | self => exact .top c k1 k2 k3
      | down m p hr hp _ ih => exact .under m p hr hp ih
    · intro hu
      induction hu with
      | top m hr ht hg => exact ⟨m, (g2 m).mpr ⟨hr, ht, hg⟩, .self⟩
      | under m p hr hp _ ih =>
        obtain ⟨c, hc, hd⟩ := ih
        exact ⟨c, hc, .down m p hr hp hd⟩
  obtain ⟨l, hl, hn, hm⟩ := key (N + 1) (Nat.le_refl _)
  refine ⟨N + 1, l, fun fuel hfuel => ?_, hn, hm⟩
  -- more fuel does not change the result
  have mono : ∀ (f f' : Nat), f ≤ f' → ∀ n x, walk w s ords f n = some x → walk w s ords f' n = some x := by
    intro f
    induction f with
    | zero => intro f' _ n x hx; simp [walk] at hx
    | succ f ih =>
      intro f' hf' n x hx
      obtain ⟨f'', rfl⟩ : ∃ k, f' = k + 1 := ⟨f' - 1, by omega⟩
      have ih' := ih f'' (by omega)
      simp only [walk, Option.map_eq_some_iff] at hx ⊢
      obtain ⟨ls, e, e'⟩ := hx
      refine ⟨ls, ?_, e'⟩
      exact mapM_mono ih' _ _ e
  unfold allSpans at hl ⊢
  rw [Option.map_eq_some_iff] at hl ⊢
  obtain ⟨ls, e, e'⟩ := hl
  refine ⟨ls, ?_, e'⟩
  exact mapM_mono (mono _ _ hfuel) _ _ e

/-- C23, the usual case of a single registry: `AllSpans` visits every running span exactly once and
nothing else. -/
theorem C23_all_spans_single {W : World} {s : State} (h : Reach W init s) (q : Quiet s) (w : SpanSort)
    (r : Nat) (hreg : ∀ n, W.reg n = r) (o1 o2 : List Nat) (h1 : o1.Perm (s.roots r))
    (h2 : o2.Perm (s.orphans r))
    (ords : Nat → Map Nat Int32) (hords : ∀ n, (ords n).Perm (s.bag n).rest) :
    ∃ depth l, (∀ fuel, depth ≤ fuel → allSpans w s ords o1 o2 fuel = some l) ∧ l.Nodup ∧
      ∀ n, n ∈ l ↔ s.pc n = .running := by
  obtain ⟨d, l, e, hn, hm⟩ := C23_all_spans h q w r o1 o2 h1 h2 ords hords
  refine ⟨d, l, e, hn, fun n => ?_⟩
  rw [hm]
  constructor
  · intro hu; cases hu <;> assumption
  · obtain ⟨a, b⟩ := reach_inv h
    intro hr
    induction n using Nat.strongRecOn with
    | ind n ih =>
      cases hp : W.parent n with
      | none => exact .top n hr (fun p hp' => by rw [hp] at hp'; cases hp') (hreg n)
      | some p =>
        rcases q p with hq | hq | hq
        · have := a.par n p (by rw [hr]; simp) hp
          rw [hq] at this; cases this
        · exact .under n p hr hp (ih p (W.older n p hp) hq)
        · exact .top n hr (fun p' hp' => by rw [hp] at hp'; cases hp'; exact hq) (hreg n)

/-- The hypotheses are met with a finished span in the middle of a chain: 0, 2 and 3 are visited. -/
example : ∃ s, Reach chain init s ∧ Quiet s ∧ (∀ n, chain.reg n = 0) ∧ s.pc 2 = .running ∧
    s.pc 1 = .over := by
  obtain ⟨s, h1, h2, _, h3, h4, _⟩ := quiet_example
  exact ⟨s, h1, h2, fun _ => rfl, h4, h3⟩

/-! ### C24 -/

/-- C24.  Once a span is over, in every later state it is in no registry's root or orphan map and in no
span's bag of children. -/
theorem C24_finished_never_listed {W : World} {s s' : State} (h : Reach W init s) (n : Nat)
    (ho : s.pc n = .over) (h' : Reach W s s') :
    (∀ r, n ∉ s'.roots r) ∧ (∀ r, n ∉ s'.orphans r) ∧
    (∀ (w : SpanSort) p (ord : Map Nat Int32), ord.Perm (s'.bag p).rest → n ∉ children w (s'.bag p) ord) := by
  have hr : Reach W init s' := by
    clear ho
    induction h' with
    | start => exact h
    | step _ st ih => exact .step ih st
  obtain ⟨a, b⟩ := reach_inv hr
  have ho' := over_stable h' ho
  refine ⟨fun r hm => ?_, fun r hm => ?_, fun w p ord hord hm => ?_⟩
  · have := ((a.roots r n).mp hm).2.2; rw [ho'] at this; cases this
  · exact ((b.orph r n).mp hm).2.2.2.2 ho'
  · have := ((mem_children a w p hord n).mp hm).2; rw [ho'] at this; cases this

example : ∃ s, Reach chain init s ∧ s.pc 1 = .over ∧ s.pc 2 = .running := by
  obtain ⟨s, h1, _, _, h3, h4, _⟩ := quiet_example
  exact ⟨s, h1, h3, h4⟩

/-! ### C25 -/

/-- C25, the part that holds.  A running span is reachable from the root and orphan maps through the bags of
children, unless one of its ancestors is at this instant between marking itself done and having
orphaned its children, or is itself being started under a finished parent and not yet among the orphans.
(Missing: those instants; `C25_always_visible_violated` shows the claim fails there.) -/
theorem C25_always_visible_partial {W : World} {s : State} (h : Reach W init s) (n : Nat)
    (hr : s.pc n = .running) (hanc : ∀ a, Ancestor W a n → ¬ Orphaning s a ∧ ¬ Joining s a) : Visible s n := by
  obtain ⟨a, b⟩ := reach_inv h
  suffices ∀ n, s.pc n = .running ∨ s.pc n = .mark → (∀ a, Ancestor W a n → ¬ Orphaning s a ∧ ¬ Joining s a) →
      Visible s n from this n (.inl hr) hanc
  clear hr hanc n
  intro n
  induction n using Nat.strongRecOn with
  | ind n ih =>
    intro hr hanc
    have hlive : (s.pc n).live = true := by rcases hr with h | h <;> rw [h] <;> rfl
    cases hp : W.parent n with
    | none => exact .root (W.reg n) n ((a.roots _ _).mpr ⟨rfl, hp, hlive⟩)
    | some p =>
      have hrdy := a.par n p (by rcases hr with h | h <;> rw [h] <;> simp) hp
      cases hd : (s.pc p).isDone with
      | false =>
        have hj := (hanc p (.parent n p hp)).2
        unfold Joining at hj
        have hp' : s.pc p = .running ∨ s.pc p = .mark := by
          cases hpc : s.pc p <;> simp_all [PC.ready, PC.isDone]
        refine .child p n ?_ (ih p (W.older n p hp) hp' fun x hx => hanc x (.up n p x hp hx))
        exact (mem_bag a (.refl _) n).mpr ⟨hp, hlive⟩
      | true =>
        have hpo := (hanc p (.parent n p hp)).1
        have hnd : (s.pc n).isDone = false := by rcases hr with h | h <;> rw [h] <;> rfl
        rcases b.pend n p hp hd (pubd_of_live hlive) hnd with h1 | h1 | ⟨cs, o, h1, _⟩
        · refine .orphan (W.reg n) n ((b.orph _ _).mpr ⟨rfl, h1, ?_, ?_, ?_⟩)
          · cases hl : s.locked n with
            | false => rfl
            | true =>
              obtain ⟨_, _, _, h4⟩ := b.lockB n hl
              rcases h4 with h4 | ⟨p', cs, o, h5, h6⟩
              · rcases hr with h | h <;> rw [h] at h4 <;> cases h4
              · rw [hp] at h5; cases h5
                exact absurd (.inr ⟨n, cs, o, h6⟩) hpo
          · rcases hr with h | h <;> rw [h] <;> simp
          · rcases hr with h | h <;> rw [h] <;> simp
        · rcases hr with h | h <;> rw [h] at h1 <;> cases h1
        · rcases h1 with h1 | ⟨c, h1⟩
          · exact absurd (.inl ⟨cs, o, h1⟩) hpo
          · exact absurd (.inr ⟨c, cs, o, h1⟩) hpo

example : ∃ s, Reach chain init s ∧ s.pc 2 = .running ∧ s.pc 1 = .over ∧
    ∀ a, Ancestor chain a 2 → ¬ Orphaning s a ∧ ¬ Joining s a := by
  obtain ⟨s, h1, q, _, h3, h4, _⟩ := quiet_example
  refine ⟨s, h1, h4, h3, fun a _ => ⟨fun ho => ?_, fun hj => ?_⟩⟩
  · rcases ho with ⟨cs, o, h⟩ | ⟨c, cs, o, h⟩ <;> rcases q a with h' | h' | h' <;> rw [h'] at h <;> cases h
  · rcases hj with h | h <;> rcases q a with h' | h' | h' <;> rw [h'] at h <;> cases h

/-- 0, 1, 2 are started; 1 exits as far as marking itself done; 0 exits completely. -/
def scheduleGap : List Nat := [0, 0, 0, 1, 1, 1, 2, 2, 2, 1, 1, 0, 0, 0, 0, 0, 0]

/-- C25 is false of the code: a running span, whose start has returned and whose exit has not been called, that
cannot be reached.  Its parent has marked itself done but not yet orphaned it, and its grandparent has
come and gone in between, skipping the parent because that is done. -/
theorem C25_always_visible_violated :
    ∃ (W : World) (s : State) (n : Nat), Reach W init s ∧ s.pc n = .running ∧ ¬ Visible s n := by
  have h : (runs chain init scheduleGap).map
      (fun s => (s.pc 0, s.pc 2, s.orphaned 0, s.orphaned 1, s.orphaned 2)) =
      some (.over, .running, false, false, false) := by rfl
  rw [Option.map_eq_some_iff] at h
  obtain ⟨s, h1, h2⟩ := h
  simp only [Prod.mk.injEq] at h2
  obtain ⟨p0, p2, o0, o1, o2⟩ := h2
  have hr := runs_reach h1
  obtain ⟨a, b⟩ := reach_inv hr
  have v0 : ¬ Visible s 0 := by
    intro hv
    cases hv with
    | root r _ h => have := ((a.roots r 0).mp h).2.2; rw [p0] at this; cases this
    | orphan r _ h => rw [((b.orph r 0).mp h).2.1] at o0; cases o0
    | child p _ h hp => have := ((mem_bag a (.refl _) 0).mp h).1; simp [chain] at this
  have v1 : ¬ Visible s 1 := by
    intro hv
    cases hv with
    | root r _ h => have := ((a.roots r 1).mp h).2.1; simp [chain] at this
    | orphan r _ h => rw [((b.orph r 1).mp h).2.1] at o1; cases o1
    | child p _ h hp =>
      have := ((mem_bag a (.refl _) 1).mp h).1
      simp [chain] at this
      subst this
      exact v0 hp
  refine ⟨chain, s, 2, hr, p2, fun hv => ?_⟩
  cases hv with
  | root r _ h => have := ((a.roots r 2).mp h).2.1; simp [chain] at this
  | orphan r _ h => rw [((b.orph r 2).mp h).2.1] at o2; cases o2
  | child p _ h hp =>
    have := ((mem_bag a (.refl _) 2).mp h).1
    simp [chain] at this
    subst this
    exact v1 hp

/-! ### C26 -/

/-- C26.  With no start or exit half way through, a running span is reported orphaned exactly if it has a
local parent and that has finished. -/
theorem C26_orphaned_iff_parent_finished {W : World} {s : State} (h : Reach W init s) (q : Quiet s)
    (n : Nat) (hr : s.pc n = .running) :
    s.orphaned n = true ↔ ∃ p, W.parent n = some p ∧ s.pc p = .over := by
  obtain ⟨a, b⟩ := reach_inv h
  have := (quiet_facts a b q).2.1 n
  rw [hr] at this
  simpa using this

/-- C26.  At every instant, an orphaned span has a local parent, and that has begun to exit. -/
theorem C26_orphaned_only_if_parent_exiting {W : World} {s : State} (h : Reach W init s) (n : Nat)
    (ho : s.orphaned n = true) : ∃ p, W.parent n = some p ∧ Exiting s p := by
  obtain ⟨_, p, h1, h2⟩ := (reach_inv h).2.orphP n ho
  refine ⟨p, h1, ?_⟩
  unfold Exiting
  cases hpc : s.pc p <;> simp_all [PC.isDone]

/-- C26.  The flag never goes back, and never changes once the span itself has begun to exit. -/
theorem C26_orphaned_stable {W : World} {s s' : State} (h : Reach W init s) (h' : Reach W s s') (n : Nat) :
    (s.orphaned n = true → s'.orphaned n = true) ∧ (Exiting s n → s'.orphaned n = s.orphaned n) := by
  have hd : Exiting s n → s.done n = true := by
    rw [(reach_inv h).1.done n]
    unfold Exiting
    cases hpc : s.pc n <;> simp [PC.isDone]
  suffices (s.orphaned n = true → s'.orphaned n = true) ∧
      (s.done n = true → s'.orphaned n = s.orphaned n ∧ s'.done n = true) from
    ⟨this.1, fun e => (this.2 (hd e)).1⟩
  clear h hd
  induction h' with
  | start => exact ⟨id, fun h => ⟨rfl, h⟩⟩
  | step _ st ih =>
    cases st <;> simp only [upd_apply] <;> grind

example : ∃ s, Reach chain init s ∧ Quiet s ∧ s.pc 2 = .running ∧ s.pc 1 = .over ∧ s.orphaned 2 = true := by
  obtain ⟨s, h1, q, _, h3, h4, _⟩ := quiet_example
  exact ⟨s, h1, q, h4, h3, (C26_orphaned_iff_parent_finished h1 q 2 h4).mpr ⟨1, rfl, h3⟩⟩

/-! ### C27 -/

/-- C27.  At every instant `Trace.Spans` is the number of spans of the trace counted in and not out; it
is not negative (as long as there are fewer than 2⁶³ of them). -/
theorem C27_span_count {W : World} {s : State} (h : Reach W init s) (t : Nat) :
    ∃ A : List Nat, A.Nodup ∧ (∀ n, n ∈ A ↔ W.trace n = t ∧ Counted s n) ∧
      (A.length < 2 ^ 63 → (s.count t).toInt = A.length ∧ 0 ≤ (s.count t).toInt) := by
  obtain ⟨k, ⟨A, h1, h2, h3⟩, hc⟩ := reach_count h t
  refine ⟨A, h1, fun n => ?_, fun hl => ?_⟩
  · rw [h2, Bool.and_eq_true, decide_eq_true_eq, counted_iff]; rfl
  · rw [hc, ← h3, Int64.toInt_ofNat_of_lt hl]
    exact ⟨rfl, by omega⟩

/-- C27.  When nothing is half way through it is the number of running spans of the trace. -/
theorem C27_span_count_quiet {W : World} {s : State} (h : Reach W init s) (q : Quiet s) (t : Nat) :
    ∃ A : List Nat, A.Nodup ∧ (∀ n, n ∈ A ↔ W.trace n = t ∧ s.pc n = .running) ∧
      (A.length < 2 ^ 63 → (s.count t).toInt = A.length) := by
  obtain ⟨A, h1, h2, h3⟩ := C27_span_count h t
  refine ⟨A, h1, fun n => ?_, fun hl => (h3 hl).1⟩
  rw [h2]
  unfold Counted
  rcases q n with e | e | e <;> simp [e]

example : ∃ s, Reach chain init s ∧ Quiet s ∧ s.count 7 = 2 ∧ s.count 8 = 1 := by
  obtain ⟨s, h1, q, p0, p1, p2, p3, _⟩ := quiet_example
  refine ⟨s, h1, q, ?_⟩
  have key : ∀ t (L : List Nat), L.Nodup → L.length < 2 ^ 63 →
      (∀ n, n ∈ L ↔ chain.trace n = t ∧ s.pc n = .running) → (s.count t).toInt = L.length := by
    intro t L hL hlen hm
    obtain ⟨A, a1, a2, a3⟩ := C27_span_count_quiet h1 q t
    have hp : A.Perm L := (List.perm_ext_iff_of_nodup a1 hL).mpr fun n => (a2 n).trans (hm n).symm
    rw [a3 (by rw [hp.length_eq]; exact hlen), hp.length_eq]
  have only : ∀ n, s.pc n = .running → n = 0 ∨ n = 2 ∨ n = 3 := by
    intro n hn
    rcases Nat.lt_or_ge n 4 with h | h
    · have : n = 0 ∨ n = 1 ∨ n = 2 ∨ n = 3 := by omega
      rcases this with rfl | rfl | rfl | rfl <;> simp_all
    · have h0 : (chain.parent n) = none := by
        show (if n = 1 then some 0 else if n = 2 then some 1 else none) = none
        rw [if_neg (by omega), if_neg (by omega)]
      have hm := ((reach_inv h1).1.roots 0 n).mpr ⟨rfl, h0, by rw [hn]; rfl⟩
      rename_i h3
      rw [h3.1] at hm
      simp at hm; omega
  constructor
  · have := key 7 [0, 2] (by decide) (by decide) (fun n => by
      constructor
      · intro h; simp at h; rcases h with rfl | rfl <;> simp [chain, p0, p2]
      · rintro ⟨h, hr⟩; rcases only n hr with rfl | rfl | rfl <;> simp [chain] at h ⊢)
    exact Int64.toInt_inj.mp this
  · have := key 8 [3] (by decide) (by decide) (fun n => by
      constructor
      · intro h; simp at h; subst h; simp [chain, p3]
      · rintro ⟨h, hr⟩; rcases only n hr with rfl | rfl | rfl <;> simp [chain] at h ⊢)
    exact Int64.toInt_inj.mp this

end Monkit.Spans
