import Verif.Model.Listing
import Verif.Spec.Listing
import Verif.Proofs.Spans3

namespace Monkit.Spans
open Go

def PC.rank : PC → Nat
  | .new => 0 | .inc => 1 | .pub => 2 | .selfOrphan => 3 | .selfInsert => 4 | .running => 5 | .mark => 6 | _ => 7

theorem rank_step {W : World} {s s' : State} (st : Step W s s') (n : Nat) : (s.pc n).rank ≤ (s'.pc n).rank := by
  cases st <;> simp only [upd_apply] <;> grind [PC.rank]

theorem rank_reach {W : World} {s s' : State} (h : Reach W s s') (n : Nat) : (s.pc n).rank ≤ (s'.pc n).rank := by
  induction h with
  | start => exact Nat.le_refl _
  | step _ st ih => exact Nat.le_trans ih (rank_step st n)

theorem rank_running {pc : PC} : pc.rank = 5 ↔ pc = .running := by cases pc <;> simp [PC.rank]

theorem rank_pubd {pc : PC} : pc.pubd = true ↔ 3 ≤ pc.rank := by cases pc <;> simp [PC.rank, PC.pubd]

theorem call_reach {W : World} {w : SpanSort} {r : Nat} {s₀ s : State} {k : Listing} (h : Call W w r s₀ s k) : Reach W s₀ s := by
  induction h with
  | call => exact .start
  | span _ st ih => exact .step ih st
  | _ => assumption

theorem Reach.trans {W : World} {s s' s'' : State} (h : Reach W s s') (h' : Reach W s' s'') : Reach W s s'' := by
  induction h' with
  | start => exact h
  | step _ st ih => exact .step ih st

theorem Throughout.back {W : World} {s₀ s s' : State} {n : Nat} (h : Throughout s₀ s' n) (h1 : Reach W s₀ s) (st : Step W s s') : Throughout s₀ s n := by
  refine ⟨h.1, rank_running.1 ?_⟩
  have a := rank_reach h1 n
  have b := rank_step st n
  rw [rank_running.2 h.1] at a
  rw [rank_running.2 h.2] at b
  omega

theorem Anchored.run {W : World} {r : Nat} {s₀ s : State} {n : Nat} (h : Anchored W r s₀ s n) : Throughout s₀ s n := by cases h <;> assumption

theorem Anchored.back {W : World} {r : Nat} {s₀ s s' : State} {n : Nat} (h : Anchored W r s₀ s' n) (h1 : Reach W s₀ s) (st : Step W s s') : Anchored W r s₀ s n := by
  induction h with
  | root hr hp h => exact .root hr hp (h.back h1 st)
  | orphan hr hp ho h => exact .orphan hr hp ho (h.back h1 st)
  | child hp _ h ih => exact .child hp ih (h.back h1 st)

/-- Seen or to be seen. -/
def Listing.all : Listing → List Nat
  | .called => []
  | .roots o => o
  | .going todo seen => seen ++ todo
  | .asking _ todo seen => seen ++ todo

theorem count_rootSpans (w : SpanSort) (o o' : List Nat) (n : Nat) : (rootSpans w o o').count n = o.count n + o'.count n := by
  unfold rootSpans; rw [(sortBy_perm _ _).count_eq, List.count_append]

theorem mem_rootSpans {w : SpanSort} {o o' : List Nat} {n : Nat} : n ∈ rootSpans w o o' ↔ n ∈ o ∨ n ∈ o' := by
  unfold rootSpans; rw [mem_sortBy, List.mem_append]

/-- Only what was alive at some time during the call. -/
theorem call_sound {W : World} {w : SpanSort} {r : Nat} {s₀ s : State} {k : Listing} (h0 : Reach W init s₀) (h : Call W w r s₀ s k) :
    (∀ n ∈ k.all, s₀.pc n ≠ .over ∧ (s.pc n).pubd = true) ∧ (∀ n todo seen, k = .asking n todo seen → n ∈ seen) := by
  have alive : ∀ {s n}, Reach W s₀ s → s.pc n ≠ .over → s₀.pc n ≠ .over := fun hr h e => h (over_stable hr e)
  have hr := call_reach h
  have hlive : ∀ {pc : PC}, pc.live = true → pc ≠ .over ∧ pc.pubd = true := by intro pc; cases pc <;> simp [PC.live, PC.pubd]
  induction h with
  | call => exact ⟨by simp [Listing.all], by intro _ _ _ e; cases e⟩
  | span h st ih =>
    obtain ⟨i1, i2⟩ := ih (call_reach h)
    refine ⟨fun n hn => ⟨(i1 n hn).1, rank_pubd.2 ?_⟩, i2⟩
    exact Nat.le_trans (rank_pubd.1 (i1 n hn).2) (rank_step st n)
  | roots h o ho ih =>
    obtain ⟨a, b⟩ := reach_inv (h0.trans hr)
    refine ⟨fun n hn => ?_, by intro _ _ _ e; cases e⟩
    have := hlive ((a.roots r n).1 (ho.mem_iff.1 hn)).2.2
    exact ⟨alive hr this.1, this.2⟩
  | orphans h o ho ih =>
    obtain ⟨i1, i2⟩ := ih hr
    obtain ⟨a, b⟩ := reach_inv (h0.trans hr)
    refine ⟨fun n hn => ?_, by intro _ _ _ e; cases e⟩
    simp only [Listing.all, List.nil_append, mem_rootSpans] at hn
    rcases hn with hn | hn
    · exact i1 n hn
    · obtain ⟨_, h1, _, _, h2⟩ := (b.orph r n).1 (ho.mem_iff.1 hn)
      exact ⟨alive hr h2, (b.orphP n h1).1⟩
  | visit h ih =>
    obtain ⟨i1, i2⟩ := ih hr
    refine ⟨fun n hn => i1 n ?_, by intro _ _ _ e; cases e; simp⟩
    simp only [Listing.all, List.append_assoc, List.singleton_append] at hn ⊢; exact hn
  | children h free ord ho ih =>
    obtain ⟨i1, i2⟩ := ih hr
    obtain ⟨a, b⟩ := reach_inv (h0.trans hr)
    refine ⟨fun n hn => ?_, by intro _ _ _ e; cases e⟩
    simp only [Listing.all, List.mem_append] at hn
    rcases hn with hn | hn | hn
    · exact i1 n (by simp [Listing.all, hn])
    · have := hlive ((mem_children a w _ ho n).1 hn).2
      exact ⟨alive hr this.1, this.2⟩
    · exact i1 n (by simp [Listing.all, hn])

/-- The accounting of anchored spans: each is listed once, or will be, because its parent is still to come. -/
def Account (W : World) (r : Nat) (s₀ s : State) : Listing → Prop
  | .called => True
  | .roots o => o.Nodup ∧ (∀ n ∈ o, W.parent n = none) ∧ ∀ n, Anchored W r s₀ s n → W.parent n = none → n ∈ o
  | .going todo seen => ∀ n, Anchored W r s₀ s n →
      (seen.count n + todo.count n = 1 ∧ ∀ p, W.parent n = some p → Anchored W r s₀ s p → 0 < seen.count p) ∨
      (seen.count n + todo.count n = 0 ∧ ∃ p, W.parent n = some p ∧ Anchored W r s₀ s p ∧ seen.count p = 0)
  | .asking m todo seen => ∀ n, Anchored W r s₀ s n →
      (seen.count n + todo.count n = 1 ∧ ∀ p, W.parent n = some p → Anchored W r s₀ s p → 0 < seen.count p ∧ p ≠ m) ∨
      (seen.count n + todo.count n = 0 ∧ ∃ p, W.parent n = some p ∧ Anchored W r s₀ s p ∧ (seen.count p = 0 ∨ p = m))

theorem Anchored.parent {W : World} {r : Nat} {s₀ s : State} {n p : Nat} (h : Anchored W r s₀ s n) (hp : W.parent n = some p) :
    Anchored W r s₀ s p ∨ (W.reg n = r ∧ s₀.pc p = .over) := by
  cases h with
  | root _ h2 => rw [h2] at hp; cases hp
  | orphan hr h2 ho => rw [h2] at hp; cases hp; exact .inr ⟨hr, ho⟩
  | child h2 ha => rw [h2] at hp; cases hp; exact .inl ha

theorem call_account {W : World} {w : SpanSort} {r : Nat} {s₀ s : State} {k : Listing} (h0 : Reach W init s₀) (h : Call W w r s₀ s k) :
    Account W r s₀ s k := by
  have hr := call_reach h
  induction h with
  | call => trivial
  | @span s s' k h st ih =>
    have hr' := call_reach h
    have ih := ih hr'
    have pa : ∀ {n p}, Anchored W r s₀ s' n → W.parent n = some p → Anchored W r s₀ s p → Anchored W r s₀ s' p := by
      intro n p hn hp hq
      rcases hn.parent hp with h | ⟨_, h⟩
      · exact h
      · have := hq.run.1; rw [h] at this; cases this
    cases k with
    | called => trivial
    | roots o => exact ⟨ih.1, ih.2.1, fun n hn => ih.2.2 n (hn.back hr' st)⟩
    | going todo seen =>
      intro n hn
      rcases ih n (hn.back hr' st) with ⟨c, h1⟩ | ⟨c, p, h1, h2, h3⟩
      · exact .inl ⟨c, fun p hp ha => h1 p hp (ha.back hr' st)⟩
      · exact .inr ⟨c, p, h1, pa hn h1 h2, h3⟩
    | asking m todo seen =>
      intro n hn
      rcases ih n (hn.back hr' st) with ⟨c, h1⟩ | ⟨c, p, h1, h2, h3⟩
      · exact .inl ⟨c, fun p hp ha => h1 p hp (ha.back hr' st)⟩
      · exact .inr ⟨c, p, h1, pa hn h1 h2, h3⟩
  | roots h o ho ih =>
    obtain ⟨a, b⟩ := reach_inv (h0.trans hr)
    refine ⟨ho.nodup_iff.2 (a.rootsN r), fun n hn => ((a.roots r n).1 (ho.mem_iff.1 hn)).2.1, fun n hn hp => ?_⟩
    refine ho.mem_iff.2 ((a.roots r n).2 ⟨?_, hp, by rw [hn.run.2]; rfl⟩)
    cases hn with
    | root hr => exact hr
    | orphan _ h => rw [hp] at h; cases h
    | child h => rw [hp] at h; cases h
  | @orphans s o h o' ho ih =>
    obtain ⟨a, b⟩ := reach_inv (h0.trans hr)
    obtain ⟨i1, i2, i3⟩ := ih hr
    have nd : o'.Nodup := ho.nodup_iff.2 (b.orphN r)
    have par : ∀ n ∈ o', ∃ p, W.parent n = some p ∧ (s.pc p).isDone = true := fun n hn =>
      (b.orphP n ((b.orph r n).1 (ho.mem_iff.1 hn)).2.1).2
    intro n hn
    simp only [List.count_nil, Nat.zero_add, count_rootSpans]
    cases hp : W.parent n with
    | none =>
      refine .inl ⟨?_, by intro p h; cases h⟩
      rw [List.count_eq_one_of_mem i1 (i3 n hn hp), List.count_eq_zero_of_not_mem]
      intro hm
      obtain ⟨p, h, _⟩ := par n hm
      rw [hp] at h; cases h
    | some p =>
      have c0 : o.count n = 0 := List.count_eq_zero_of_not_mem fun hm => by rw [i2 n hm] at hp; cases hp
      rcases hn.parent hp with ha | ⟨hg, ho'⟩
      · refine .inr ⟨?_, p, rfl, ha, trivial⟩
        rw [c0, List.count_eq_zero_of_not_mem]
        intro hm
        obtain ⟨q, h1, h2⟩ := par n hm
        rw [hp] at h1; cases h1
        rw [ha.run.2] at h2; cases h2
      · have hov := over_stable hr ho'
        refine .inl ⟨?_, ?_⟩
        · rw [c0, List.count_eq_one_of_mem nd]
          refine ho.mem_iff.2 ((b.orph r n).2 ?_)
          have hrun := hn.run.2
          refine ⟨hg, ?_, ?_, by rw [hrun]; simp, by rw [hrun]; simp⟩
          · rcases b.pend n p hp (by rw [hov]; rfl) (by rw [hrun]; rfl) (by rw [hrun]; rfl) with h | h | ⟨cs, x, h, _⟩
            · exact h
            · rw [hrun] at h; cases h
            · rw [hov] at h; rcases h with h | ⟨_, h⟩ <;> cases h
          · cases hl : s.locked n with
            | false => rfl
            | true =>
              rcases (b.lockB n hl).2.2.2 with h | ⟨q, cs, x, h1, h2⟩
              · rw [hrun] at h; cases h
              · rw [hp] at h1; cases h1; rw [hov] at h2; cases h2
        · intro q hq ha
          cases hq
          have := ha.run.1; rw [ho'] at this; cases this
  | @visit s m todo seen h ih =>
    have ih := ih hr
    intro n hn
    have e : ∀ x, (seen ++ [m]).count x = seen.count x + if x = m then 1 else 0 := by
      intro x; rw [List.count_append, List.count_singleton]; by_cases hx : x = m
      · simp [hx]
      · simp [hx, Ne.symm hx]
    have e' : ∀ x, (m :: todo).count x = todo.count x + if x = m then 1 else 0 := by
      intro x; rw [List.count_cons]; by_cases hx : x = m
      · simp [hx]
      · simp [hx, Ne.symm hx]
    rcases ih n hn with ⟨c, h1⟩ | ⟨c, p, h1, h2, h3⟩
    · refine .inl ⟨?_, fun p hp ha => ?_⟩
      · rw [e' n] at c; rw [e n]; omega
      · have := h1 p hp ha
        refine ⟨by rw [e p]; omega, ?_⟩
        rintro rfl
        have := ih p ha
        rw [e' p, if_pos rfl] at this
        omega
    · refine .inr ⟨?_, p, h1, h2, ?_⟩
      · rw [e' n] at c; rw [e n]; omega
      · rw [e p, h3]; by_cases hx : p = m
        · exact .inr hx
        · rw [if_neg hx]; exact .inl rfl
  | @children s m todo seen h free ord ho ih =>
    have ih := ih hr
    obtain ⟨a, b⟩ := reach_inv (h0.trans hr)
    obtain ⟨so, sm⟩ := call_sound h0 h
    have hm : m ∈ seen := sm m todo seen rfl
    have hmo : s₀.pc m ≠ .over := (so m (by simp [Listing.all, hm])).1
    intro n hn
    rw [List.count_append]
    have cc : (Monkit.children w (s.bag m) ord).count n = if W.parent n = some m then 1 else 0 := by
      split
      · exact List.count_eq_one_of_mem (nodup_children _ _ _) ((mem_children a w m ho n).2 ⟨‹_›, by rw [hn.run.2]; rfl⟩)
      · exact List.count_eq_zero_of_not_mem fun hc => absurd ((mem_children a w m ho n).1 hc).1 ‹_›
    rcases ih n hn with ⟨c, h1⟩ | ⟨c, p, h1, h2, h3⟩
    · refine .inl ⟨?_, fun p hp ha => (h1 p hp ha).1⟩
      rw [cc, if_neg]
      · omega
      · intro hp
        rcases hn.parent hp with ha | ⟨_, ho'⟩
        · exact (h1 m hp ha).2 rfl
        · exact hmo ho'
    · by_cases hx : p = m
      · subst hx
        refine .inl ⟨?_, fun q hq _ => ?_⟩
        · rw [cc, if_pos h1]; omega
        · rw [h1] at hq; cases hq; exact List.count_pos_iff.2 hm
      · refine .inr ⟨?_, p, h1, h2, h3.resolve_right hx⟩
        rw [cc, if_neg]
        · omega
        · rw [h1]; intro e; cases e; exact hx rfl

/-- When nothing is left to do every anchored span has been seen once. -/
theorem account_done {W : World} {r : Nat} {s₀ s : State} {l : List Nat} (h : Account W r s₀ s (.going [] l)) {n : Nat}
    (hn : Anchored W r s₀ s n) : l.count n = 1 := by
  induction n using Nat.strongRecOn with
  | ind n ih =>
    rcases h n hn with ⟨c, _⟩ | ⟨_, p, hp, ha, h0⟩
    · simpa using c
    · have := ih p (W.older n p hp) ha; omega

/-- The parent's exit has got past marking itself done. -/
theorem rank_exiting {s : State} {n : Nat} : Exiting s n ↔ 7 ≤ (s.pc n).rank := by
  unfold Exiting; cases s.pc n <;> simp [PC.rank]

theorem call_roots {W : World} {w : SpanSort} {r : Nat} {s₀ s : State} {k : Listing} (h0 : Reach W init s₀) (h : Call W w r s₀ s k) :
    (∀ o, k = .roots o → o.Nodup ∧ ∀ n ∈ o, W.reg n = r ∧ W.parent n = none) ∧
    (∀ l, k = .going l [] → l.Nodup ∧ l.Pairwise (Spec.before w) ∧
      ∀ n ∈ l, W.reg n = r ∧ ∀ p, W.parent n = some p → Exiting s p) := by
  have hr := call_reach h
  induction h with
  | call => exact ⟨by intro _ e; (cases e), by intro _ e; (cases e)⟩
  | @span s s' k h st ih =>
    obtain ⟨i1, i2⟩ := ih (call_reach h)
    refine ⟨i1, fun l e => ?_⟩
    obtain ⟨j1, j2, j3⟩ := i2 l e
    refine ⟨j1, j2, fun n hn => ⟨(j3 n hn).1, fun p hp => ?_⟩⟩
    exact rank_exiting.2 (Nat.le_trans (rank_exiting.1 ((j3 n hn).2 p hp)) (rank_step st p))
  | roots h o ho ih =>
    obtain ⟨a, b⟩ := reach_inv (h0.trans hr)
    refine ⟨fun o' e => ?_, by intro _ e; cases e⟩
    cases e
    refine ⟨ho.nodup_iff.2 (a.rootsN r), fun n hn => ?_⟩
    have := (a.roots r n).1 (ho.mem_iff.1 hn)
    exact ⟨this.1, this.2.1⟩
  | @orphans s o h o' ho ih =>
    obtain ⟨a, b⟩ := reach_inv (h0.trans hr)
    obtain ⟨i1, _⟩ := ih hr
    obtain ⟨j1, j2⟩ := i1 o rfl
    refine ⟨by intro _ e; (cases e), fun l e => ?_⟩
    cases e
    have par : ∀ n ∈ o', W.reg n = r ∧ ∃ p, W.parent n = some p ∧ (s.pc p).isDone = true := fun n hn =>
      have := (b.orph r n).1 (ho.mem_iff.1 hn)
      ⟨this.1, (b.orphP n this.2.1).2⟩
    refine ⟨?_, (sortBy_sorted (le_trans' w) (le_total w) _).imp fun {i j} hij => (le_iff w i j).mp hij, fun n hn => ?_⟩
    · unfold rootSpans
      rw [(sortBy_perm _ _).nodup_iff, List.nodup_append]
      refine ⟨j1, ho.nodup_iff.2 (b.orphN r), fun x hx y hy e => ?_⟩
      subst e
      obtain ⟨_, p, h, _⟩ := par x hy
      rw [(j2 x hx).2] at h; cases h
    · rcases mem_rootSpans.1 hn with hn | hn
      · exact ⟨(j2 n hn).1, fun p hp => by rw [(j2 n hn).2] at hp; cases hp⟩
      · obtain ⟨g, p, h1, h2⟩ := par n hn
        refine ⟨g, fun q hq => ?_⟩
        rw [h1] at hq; cases hq
        rw [rank_exiting]; revert h2; cases s.pc p <;> simp [PC.rank, PC.isDone]
  | visit => exact ⟨by intro _ e; (cases e), by intro _ e; (cases e)⟩
  | @children s m todo seen h free ord ho ih =>
    refine ⟨by intro _ e; (cases e), fun l e => ?_⟩
    have := (call_sound h0 h).2 m todo seen rfl
    injection e with _ e
    rw [e] at this; cases this

end Monkit.Spans
