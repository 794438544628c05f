import Verif.Spec.Leftovers
import Verif.Props.Spans
import Verif.Props.Whole

/-!
# C120: calls that have ended leave nothing behind
-/

namespace Monkit.Spans
open Go

theorem Ended.quiet {s : State} (e : Ended s) : Quiet s := fun n => (e n).imp_right .inr

theorem not_live_of_ended {s : State} (e : Ended s) (n : Nat) : (s.pc n).live = false := by
  rcases e n with h | h <;> simp [h, PC.live]

theorem iterate_nodup {b : SpanBag} (h : b.Ok) (h1 : ∀ c, b.count c ≤ 1) : (b.iterate b.rest).Nodup := by
  unfold SpanBag.iterate
  rw [List.nodup_append]
  refine ⟨by cases b.first <;> simp, h.ok, ?_⟩
  intro a ha c hc hac
  subst hac
  have hf : b.first = some a := by
    cases e : b.first <;> simp_all
  obtain ⟨⟨k, v⟩, hm, rfl⟩ := List.mem_map.1 hc
  have hg : Map.get b.rest k = some v := (Map.mem_iff_get h.ok _ _).1 hm
  have := h.pos _ _ hg
  have := h1 k
  simp [SpanBag.count, hf, hg] at this
  omega

theorem bag_empty {b : SpanBag} (h : b.Ok) (h0 : ∀ c, b.count c = 0) : b = .empty := by
  have key : ∀ c, c ∉ b.iterate b.rest := fun c hc => by
    rw [SpanBag.mem_iterate h (.refl _), h0] at hc; omega
  obtain ⟨f, r⟩ := b
  have hf : f = none := by
    cases f with
    | none => rfl
    | some c => exact absurd (by simp [SpanBag.iterate]) (key c)
  have hr : r = [] := by
    cases r with
    | nil => rfl
    | cons x r => exact absurd (by simp [SpanBag.iterate]) (key x.1)
  rw [hf, hr, SpanBag.empty]

/-- **C120**, spans: when every call that was made has ended, the roots and the orphans of every registry, the children of every span, finished ones too, the counts of all
traces and the locks are as they were before the first call. -/
theorem C120_spans {W : World} {s : State} (h : Reach W init s) (e : Ended s) :
    s.roots = init.roots ∧ s.orphans = init.orphans ∧ s.bag = init.bag ∧ s.count = init.count ∧ s.locked = init.locked := by
  obtain ⟨a, b⟩ := reach_inv h
  refine ⟨funext fun r => ?_, funext fun r => ?_, funext fun p => ?_, funext fun t => ?_, funext fun n => ?_⟩
  · refine List.eq_nil_iff_forall_not_mem.2 fun n hn => ?_
    have := ((a.roots r n).1 hn).2.2
    rw [not_live_of_ended e] at this
    cases this
  · refine List.eq_nil_iff_forall_not_mem.2 fun n hn => ?_
    obtain ⟨_, ho, _, _, hne⟩ := (b.orph r n).1 hn
    rcases e n with h' | h'
    · have := (b.orphP n ho).1
      rw [h'] at this
      cases this
    · exact hne h'
  · exact bag_empty (a.bagOk p) fun c => by rw [a.bag, not_live_of_ended e]; simp
  · obtain ⟨A, _, h2, h3⟩ := C27_span_count_quiet h e.quiet t
    have hA : A = [] := List.eq_nil_iff_forall_not_mem.2 fun n hn => by
      have := ((h2 n).1 hn).2
      rcases e n with h' | h' <;> rw [h'] at this <;> cases this
    subst hA
    exact Int64.toInt_inj.1 (h3 (by simp))
  · exact (quiet_facts a b e.quiet).1 n

/-- **C120**, at any time: what registries and spans hold is calls under way, each at most once among all roots and children, and at most once among the orphans.  So the
entries are never more than twice the calls under way. -/
theorem C120_held {W : World} {s : State} (h : Reach W init s) (rs ps : List Nat) (hrs : rs.Nodup) (hps : ps.Nodup) :
    (held s rs ps).Nodup ∧ (∀ n ∈ held s rs ps, UnderWay s n) ∧ (heldOrphans s rs).Nodup ∧ (∀ n ∈ heldOrphans s rs, UnderWay s n) ∧
    ∀ U : List Nat, (∀ n, UnderWay s n → n ∈ U) → (held s rs ps).length + (heldOrphans s rs).length ≤ 2 * U.length := by
  obtain ⟨a, b⟩ := reach_inv h
  have hroot : ∀ r n, n ∈ s.roots r → UnderWay s n ∧ W.reg n = r ∧ W.parent n = none := fun r n hn => by
    obtain ⟨h1, h2, h3⟩ := (a.roots r n).1 hn
    exact ⟨⟨fun e => (by rw [e] at h3; cases h3), fun e => (by rw [e] at h3; cases h3)⟩, h1, h2⟩
  have hbag : ∀ p n, n ∈ (s.bag p).iterate (s.bag p).rest → UnderWay s n ∧ W.parent n = some p := fun p n hn => by
    rw [SpanBag.mem_iterate (a.bagOk p) (.refl _), a.bag] at hn
    split at hn
    · next h' =>
      obtain ⟨h1, h3⟩ := h'
      exact ⟨⟨fun e => (by rw [e] at h3; cases h3), fun e => (by rw [e] at h3; cases h3)⟩, h1⟩
    · omega
  have horph : ∀ r n, n ∈ s.orphans r → UnderWay s n ∧ W.reg n = r := fun r n hn => by
    obtain ⟨h1, ho, _, _, hne⟩ := (b.orph r n).1 hn
    refine ⟨⟨fun e => ?_, hne⟩, h1⟩
    have := (b.orphP n ho).1
    rw [e] at this
    cases this
  have n1 : (held s rs ps).Nodup := by
    unfold held
    rw [List.nodup_append, List.nodup_flatMap, List.nodup_flatMap]
    refine ⟨⟨fun r _ => a.rootsN r, hrs.imp fun {r r'} hne => ?_⟩, ⟨fun p _ => iterate_nodup (a.bagOk p) fun c => ?_, hps.imp fun {p p'} hne => ?_⟩, ?_⟩
    · exact fun n h1 h2 => hne ((hroot r n h1).2.1.symm.trans (hroot r' n h2).2.1)
    · rw [a.bag]; split <;> omega
    · exact fun n h1 h2 => hne (Option.some.inj ((hbag p n h1).2.symm.trans (hbag p' n h2).2))
    · intro x hx y hy hxy
      subst hxy
      obtain ⟨r, _, h1⟩ := List.mem_flatMap.1 hx
      obtain ⟨p, _, h2⟩ := List.mem_flatMap.1 hy
      have e1 := (hroot r x h1).2.2
      rw [(hbag p x h2).2] at e1
      cases e1
  have u1 : ∀ n ∈ held s rs ps, UnderWay s n := fun n hn => by
    rcases List.mem_append.1 hn with hn | hn
    · obtain ⟨r, _, h1⟩ := List.mem_flatMap.1 hn
      exact (hroot r n h1).1
    · obtain ⟨p, _, h1⟩ := List.mem_flatMap.1 hn
      exact (hbag p n h1).1
  have n2 : (heldOrphans s rs).Nodup := by
    unfold heldOrphans
    rw [List.nodup_flatMap]
    exact ⟨fun r _ => b.orphN r, hrs.imp fun {r r'} hne n h1 h2 => hne ((horph r n h1).2.symm.trans (horph r' n h2).2)⟩
  have u2 : ∀ n ∈ heldOrphans s rs, UnderWay s n := fun n hn => by
    obtain ⟨r, _, h1⟩ := List.mem_flatMap.1 hn
    exact (horph r n h1).1
  refine ⟨n1, u1, n2, u2, fun U hU => ?_⟩
  have l1 := (n1.subperm fun n hn => hU n (u1 n hn)).length_le
  have l2 := (n2.subperm fun n hn => hU n (u2 n hn)).length_le
  omega

/-- Two roots and an orphan under way. -/
example : ∃ s, Reach chain init s ∧ (held s [0] []).length = 2 ∧ (heldOrphans s [0]).length = 1 ∧ UnderWay s 2 := by
  obtain ⟨s, h1, _, _, _, p2, _, e1, e2⟩ := quiet_example
  exact ⟨s, h1, by simp [held, e1], by simp [heldOrphans, e2], by simp [UnderWay, p2]⟩

/-- Each span the child of the one before it. -/
def handOver : World where
  parent n := if n = 0 then none else some (n - 1)
  reg _ := 0
  trace _ := 0
  older n p h := by
    split at h
    · cases h
    · cases h; omega

/-- Spans 0 to `k - 1` have come and gone. -/
structure Gone (k : Nat) (s : State) : Prop where
  reach : Reach handOver init s
  over : ∀ n, n < k → s.pc n = .over
  new : ∀ n, k ≤ n → s.pc n = .new

theorem Gone.ended {k : Nat} {s : State} (g : Gone k s) : Ended s := fun n => by
  by_cases h : n < k
  · exact .inr (g.over n h)
  · exact .inl (g.new n (by omega))

/-- Spans 0 to `k - 1` have come and gone, and the next one is somewhere. -/
structure At (k : Nat) (v : PC) (s : State) : Prop where
  reach : Reach handOver init s
  over : ∀ n, n < k → s.pc n = .over
  here : s.pc k = v
  new : ∀ n, k < n → s.pc n = .new

theorem At.go {k : Nat} {v w : PC} {s s' : State} (a : At k v s) (st : Step handOver s s') (e : s'.pc = upd s.pc k w) : At k w s' := by
  refine ⟨a.reach.step st, fun n h => ?_, ?_, fun n h => ?_⟩
  · rw [e, upd_other _ _ (by omega)]; exact a.over n h
  · rw [e, upd_same]
  · rw [e, upd_other _ _ (by omega)]; exact a.new n h

theorem At.free {k : Nat} {v : PC} {s : State} (a : At k v s) (h1 : v ≠ .selfInsert) (h2 : ∀ c cs o, v ≠ .insert c cs o) (n : Nat) : s.locked n = false := by
  cases e : s.locked n with
  | false => rfl
  | true =>
    have key : ∀ m, (∃ c cs o, s.pc m = .insert c cs o) ∨ s.pc m = .selfInsert → False := fun m hm => by
      rcases Nat.lt_trichotomy m k with h | rfl | h
      · rw [a.over m h] at hm; simp at hm
      · rw [a.here] at hm
        rcases hm with ⟨c, cs, o, h⟩ | h
        · exact h2 _ _ _ h
        · exact h1 h
      · rw [a.new m h] at hm; simp at hm
    obtain ⟨_, _, _, h | ⟨p, cs, o, _, h⟩⟩ := (reach_inv a.reach).2.lockB n e
    · exact (key n (.inr h)).elim
    · exact (key p (.inl ⟨_, _, _, h⟩)).elim

theorem At.bag {k : Nat} {v : PC} {s : State} (a : At k v s) : s.bag k = .empty := by
  obtain ⟨i, _⟩ := reach_inv a.reach
  refine bag_empty (i.bagOk k) fun c => ?_
  rw [i.bag, if_neg]
  rintro ⟨h1, h2⟩
  rw [a.new c (handOver.older _ _ h1)] at h2
  cases h2

/-- The next span is started, the one before it being over. -/
theorem Gone.running {k : Nat} {s : State} (g : Gone k s) : ∃ s, At k .running s := by
  have a : At k .new s := ⟨g.reach, g.over, g.new k (le_refl _), fun n h => g.new n (by omega)⟩
  have a := a.go (.create s k a.here fun p hp => by rw [a.over p (handOver.older _ _ hp)]; simp) rfl
  have a := a.go (.inc _ k a.here) rfl
  cases hk : handOver.parent k with
  | none => exact ⟨_, a.go (.root _ k a.here hk) rfl⟩
  | some p =>
    obtain ⟨s, a⟩ : ∃ s, At k .selfOrphan s := ⟨_, a.go (.child _ k p a.here hk (a.free (by simp) (by simp) p)) (by
      dsimp only
      rw [(reach_inv a.reach).1.done, a.over p (handOver.older _ _ hk)]
      rfl)⟩
    by_cases hn : s.done k = false ∧ s.orphaned k = false
    · have a := a.go (.selfMark _ k a.here (a.free (by simp) (by simp) k) hn) rfl
      exact ⟨_, a.go (.selfInsert _ k a.here) rfl⟩
    · exact ⟨_, a.go (.selfSkip _ k a.here (a.free (by simp) (by simp) k) hn) rfl⟩

/-- And then it ends. -/
theorem Gone.next {k : Nat} {s : State} (g : Gone k s) : ∃ s', Gone (k + 1) s' := by
  obtain ⟨s, a⟩ := g.running
  have a := a.go (.exit _ k a.here) rfl
  have a := a.go (.mark _ k [] a.here (a.free (by simp) (by simp) k) (by rw [a.bag]; exact .refl _)) rfl
  rw [(show (State.bag _ k) = .empty from a.bag)] at a
  have a := a.go (.orphanDone _ k _ a.here) rfl
  have last : ∀ {s}, At k .dec s → ∃ s', Gone (k + 1) s' := fun {s} a => by
    have a := a.go (.dec _ k a.here) rfl
    refine ⟨_, a.reach, fun n h => ?_, fun n h => a.new n (by omega)⟩
    by_cases e : n = k
    · subst e; exact a.here
    · exact a.over n (by omega)
  cases hk : handOver.parent k with
  | none => exact last (a.go (.leaveRoots _ k _ a.here hk) rfl)
  | some p =>
    have a := a.go (.leaveParent _ k p _ a.here hk (a.free (by simp) (by simp) p)) rfl
    split at a
    · exact last (a.go (.unorphan _ k a.here) rfl)
    · exact last a

theorem gone (k : Nat) : ∃ s, Gone k s := by
  induction k with
  | zero => exact ⟨init, .start, fun _ h => absurd h (by omega), fun _ _ => rfl⟩
  | succ k ih => exact ih.elim fun _ g => g.next

theorem handOver_ancestor {i k : Nat} (h : i < k) : Ancestor handOver i k := by
  induction k with
  | zero => omega
  | succ k ih =>
    by_cases e : i = k
    · subst e; exact .parent _ _ (by simp [handOver])
    · exact .up _ k _ (by simp [handOver]) (ih (by omega))

/-- C120 is false of the memory that finished spans take: a span points to its parent until it is collected (ctx.go:37), so one running call keeps all its ancestors in memory, and there is no bound on
how many of them have ended: tasks that each start the next one with their own context and end do it. -/
theorem C120_ancestors_violated (k : Nat) : ∃ (W : World) (s : State) (n : Nat) (A : List Nat), Reach W init s ∧ (∀ m, UnderWay s m ↔ m = n) ∧
    A.Nodup ∧ A.length = k ∧ ∀ m ∈ A, Ancestor W m n ∧ s.pc m = .over := by
  obtain ⟨s₀, g⟩ := gone k
  obtain ⟨s, r, h1, h2, h3⟩ := g.running
  refine ⟨handOver, s, k, List.range k, r, fun m => ⟨fun hm => ?_, ?_⟩, List.nodup_range, List.length_range, fun m hm => ?_⟩
  · rcases Nat.lt_trichotomy m k with h | h | h
    · exact absurd (h1 m h) hm.2
    · exact h
    · exact absurd (h3 m h) hm.1
  · rintro rfl
    exact ⟨by rw [h2]; simp, by rw [h2]; simp⟩
  · have := List.mem_range.1 hm
    exact ⟨handOver_ancestor this, h1 m this⟩

/-- A hundred calls have been made, each by the one before, and have ended: nothing is left. -/
example : ∃ s, Reach handOver init s ∧ Ended s ∧ s.pc 99 = .over ∧ s.roots 0 = [] := by
  obtain ⟨s, g⟩ := gone 100
  exact ⟨s, g.reach, g.ended, g.over 99 (by omega), congrFun (C120_spans g.reach g.ended).1 0⟩

end Monkit.Spans

namespace Monkit.Whole
open Go
variable {G E : Type} {K : DistKind Int64 ℚ} {next : G → UInt64 × G} {name : E → Str} {P : Program E}

/-- **C120**, statistics: when every call that was made has ended, every function that has not been reset has no calls running, `Current` is 0, whatever happened. -/
theorem C120_current {g1 g2 : Nat → G} {s : State G} (h : Reach K next name P (init K P g1 g2) s) (e : Spans.Ended s.sp) (f : Nat) (hr : NoReset P s f) (hfew : Few s f) :
    (s.fn f).f.current = 0 ∧ s.sp.roots = Spans.init.roots ∧ s.sp.orphans = Spans.init.orphans ∧ s.sp.bag = Spans.init.bag ∧ s.sp.count = Spans.init.count := by
  obtain ⟨e1, e2, e3, e4, _⟩ := Spans.C120_spans (reach_spans h) e
  refine ⟨Int64.toInt_inj.1 ?_, e1, e2, e3, e4⟩
  exact C115_current h e.quiet f hr hfew [] List.nodup_nil fun n => ⟨fun hn => by simp at hn, fun hn => by
    have := hn.2
    rcases e n with h' | h' <;> rw [h'] at this <;> cases this⟩

/-- Three calls of two functions, one of them ended by an error and one by a panic. -/
example : ∃ s : State Unit, Reach FuncConc.KD FuncConc.nx FuncConc.nm prog w0 s ∧ Spans.Ended s.sp ∧ NoReset prog s 1 ∧ Few s 1 ∧ s.sp.pc 2 = .over ∧ (s.fn 1).f.panics = 1 := by
  have h : (runs prog w0 (schedule ++ List.replicate 12 0 ++ List.replicate 11 2)).map
      (fun s => (s.sp.pc 0, s.sp.pc 1, s.sp.pc 2, s.sp.pc 3, (s.fn 1).f.panics)) = some (.over, .over, .over, .new, 1) := by rfl
  rw [Option.map_eq_some_iff] at h
  obtain ⟨s, h1, h2⟩ := h
  simp only [Prod.mk.injEq] at h2
  obtain ⟨a, b, c, d, e⟩ := h2
  obtain ⟨k, l⟩ := prog_few h1 (by decide)
  refine ⟨s, runs_reach h1, fun n => ?_, prog_noReset s 1, k 1, c, e⟩
  by_cases hn : 4 ≤ n
  · exact .inl (l n hn)
  · have : n = 0 ∨ n = 1 ∨ n = 2 ∨ n = 3 := by omega
    rcases this with rfl | rfl | rfl | rfl <;> simp [*]

end Monkit.Whole
