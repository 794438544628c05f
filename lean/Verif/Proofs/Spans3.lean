import Verif.Proofs.Spans2
import Verif.Spec.Spans

namespace Monkit.Spans
open Go

theorem reach_inv {W : World} {s : State} (h : Reach W init s) : InvA W s ∧ InvB W s := by
  induction h with
  | start => exact ⟨invA_init W, invB_init W⟩
  | step _ st ih => exact ⟨invA_step ih.1 st, invB_step ih.1 ih.2 st⟩

/-- Every step moves one span and touches the program counter of no other. -/
theorem step_pc {W : World} {s s' : State} (st : Step W s s') :
    ∃ n v, s'.pc = upd s.pc n v ∧ s.pc n ≠ .over := by
  cases st with
  | create n h _ => exact ⟨n, _, rfl, by rw [h]; simp⟩
  | inc n h => exact ⟨n, _, rfl, by rw [h]; simp⟩
  | root n h hp => exact ⟨n, _, rfl, by rw [h]; simp⟩
  | child n p h hp free => exact ⟨n, _, rfl, by rw [h]; simp⟩
  | selfMark n h free hn => exact ⟨n, _, rfl, by rw [h]; simp⟩
  | selfSkip n h free hn => exact ⟨n, _, rfl, by rw [h]; simp⟩
  | selfInsert n h => exact ⟨n, _, rfl, by rw [h]; simp⟩
  | exit n h => exact ⟨n, _, rfl, by rw [h]; simp⟩
  | mark n ord h free hord => exact ⟨n, _, rfl, by rw [h]; simp⟩
  | orphanMark n c cs o h free hc => exact ⟨n, _, rfl, by rw [h]; simp⟩
  | orphanSkip n c cs o h free hc => exact ⟨n, _, rfl, by rw [h]; simp⟩
  | orphanInsert n c cs o h => exact ⟨n, _, rfl, by rw [h]; simp⟩
  | orphanDone n o h => exact ⟨n, _, rfl, by rw [h]; simp⟩
  | leaveParent n p o h hp free => exact ⟨n, _, rfl, by rw [h]; simp⟩
  | leaveRoots n o h hp => exact ⟨n, _, rfl, by rw [h]; simp⟩
  | unorphan n h => exact ⟨n, _, rfl, by rw [h]; simp⟩
  | dec n h => exact ⟨n, _, rfl, by rw [h]; simp⟩

/-- Only finitely many spans have been created. -/
theorem reach_finite {W : World} {s : State} (h : Reach W init s) : ∃ N, ∀ n, N ≤ n → s.pc n = .new := by
  induction h with
  | start => exact ⟨0, fun _ _ => rfl⟩
  | step _ st ih =>
    obtain ⟨N, hN⟩ := ih
    obtain ⟨n, v, e, _⟩ := step_pc st
    refine ⟨max N (n + 1), fun m hm => ?_⟩
    rw [e, upd_other _ _ (by omega)]
    exact hN m (by omega)

theorem over_stable {W : World} {s s' : State} (h : Reach W s s') {n : Nat} (ho : s.pc n = .over) :
    s'.pc n = .over := by
  induction h with
  | start => exact ho
  | step _ st ih =>
    obtain ⟨m, v, e, hne⟩ := step_pc st
    by_cases hnm : n = m
    · subst hnm; exact absurd ih hne
    · rw [e, upd_other _ _ hnm, ih]

/-! ### The number of spans of a trace -/

/-- Census of the spans of trace `t` that are counted in. -/
theorem step_count {W : World} {s s' : State} (st : Step W s s') :
    ∃ n v, s'.pc = upd s.pc n v ∧
      ((s'.count = s.count ∧ v.counted = (s.pc n).counted) ∨
       (s'.count = upd s.count (W.trace n) (s.count (W.trace n) + 1) ∧
          (s.pc n).counted = false ∧ v.counted = true) ∨
       (s'.count = upd s.count (W.trace n) (s.count (W.trace n) + (-1)) ∧
          (s.pc n).counted = true ∧ v.counted = false)) := by
  cases st with
  | create n h _ => exact ⟨n, _, rfl, by simp [h, PC.counted]⟩
  | inc n h => exact ⟨n, _, rfl, by simp [h, PC.counted]⟩
  | root n h hp => exact ⟨n, _, rfl, by simp [h, PC.counted]⟩
  | child n p h hp free => exact ⟨n, _, rfl, by left; rw [h]; split <;> simp [PC.counted]⟩
  | selfMark n h free hn => exact ⟨n, _, rfl, by simp [h, PC.counted]⟩
  | selfSkip n h free hn => exact ⟨n, _, rfl, by simp [h, PC.counted]⟩
  | selfInsert n h => exact ⟨n, _, rfl, by simp [h, PC.counted]⟩
  | exit n h => exact ⟨n, _, rfl, by simp [h, PC.counted]⟩
  | mark n ord h free hord => exact ⟨n, _, rfl, by simp [h, PC.counted]⟩
  | orphanMark n c cs o h free hc => exact ⟨n, _, rfl, by simp [h, PC.counted]⟩
  | orphanSkip n c cs o h free hc => exact ⟨n, _, rfl, by simp [h, PC.counted]⟩
  | orphanInsert n c cs o h => exact ⟨n, _, rfl, by simp [h, PC.counted]⟩
  | orphanDone n o h => exact ⟨n, _, rfl, by simp [h, PC.counted]⟩
  | leaveParent n p o h hp free => exact ⟨n, _, rfl, by left; rw [h]; split <;> simp [PC.counted]⟩
  | leaveRoots n o h hp => exact ⟨n, _, rfl, by simp [h, PC.counted]⟩
  | unorphan n h => exact ⟨n, _, rfl, by simp [h, PC.counted]⟩
  | dec n h => exact ⟨n, _, rfl, by simp [h, PC.counted]⟩

theorem counted_iff (pc : PC) : pc.counted = true ↔ pc ≠ .new ∧ pc ≠ .inc ∧ pc ≠ .over := by
  cases pc <;> simp [PC.counted]

theorem reach_count {W : World} {s : State} (h : Reach W init s) (t : Nat) :
    ∃ k, Census (fun n => (W.trace n, s.pc n)) (fun x => decide (x.1 = t) && x.2.counted) k ∧
      s.count t = Int64.ofNat k := by
  induction h with
  | start => exact ⟨0, census_zero (by simp [init, PC.counted]), rfl⟩
  | @step s s' _ st ih =>
    obtain ⟨k, hk, hc⟩ := ih
    obtain ⟨n, v, e, hcase⟩ := step_count st
    obtain ⟨m, hm, hmk⟩ := hk.upd n (W.trace n, v)
    have hfun : (fun i => (W.trace i, s'.pc i)) = upd (fun i => (W.trace i, s.pc i)) n (W.trace n, v) := by
      funext i
      rw [e]
      by_cases hi : i = n
      · subst hi; simp
      · rw [upd_other _ _ hi, upd_other _ _ hi]
    refine ⟨m, by rw [hfun]; exact hm, ?_⟩
    rcases hcase with ⟨h1, h2⟩ | ⟨h1, h2, h3⟩ | ⟨h1, h2, h3⟩
    · rw [h1, hc]
      have : m = k := by
        simp only [h2] at hmk; omega
      rw [this]
    · by_cases ht : W.trace n = t
      · have : m = k + 1 := by simp [ht, h2, h3] at hmk; omega
        subst ht
        rw [h1, upd_same, hc, this, Int64.ofNat_add]; rfl
      · have : m = k := by simp [ht] at hmk; omega
        rw [h1, upd_other _ _ (Ne.symm ht), hc, this]
    · by_cases ht : W.trace n = t
      · have : k = m + 1 := by simp [ht, h2, h3] at hmk; omega
        subst ht
        rw [h1, upd_same, hc, this, Int64.ofNat_add]
        rw [Int64.add_assoc]
        exact Int64.add_zero _
      · have : m = k := by simp [ht] at hmk; omega
        rw [h1, upd_other _ _ (Ne.symm ht), hc, this]

/-! ### Quiescent states -/

theorem quiet_facts {W : World} {s : State} (a : InvA W s) (b : InvB W s) (q : Quiet s) :
    (∀ n, s.locked n = false) ∧
    (∀ n, s.orphaned n = true ∧ s.pc n ≠ .over ↔
      s.pc n = .running ∧ ∃ p, W.parent n = some p ∧ s.pc p = .over) ∧
    (∀ n, (s.pc n).live = true ↔ s.pc n = .running) := by
  have hlive : ∀ n, (s.pc n).live = true ↔ s.pc n = .running := by
    intro n; rcases q n with h | h | h <;> simp [h, PC.live]
  have hdone : ∀ n, (s.pc n).isDone = true ↔ s.pc n = .over := by
    intro n; rcases q n with h | h | h <;> simp [h, PC.isDone]
  refine ⟨fun n => ?_, fun n => ?_, hlive⟩
  · cases hl : s.locked n with
    | false => rfl
    | true =>
      obtain ⟨_, _, _, h⟩ := b.lockB n hl
      rcases h with h | ⟨p, cs, o, _, h⟩
      · rcases q n with h' | h' | h' <;> rw [h'] at h <;> cases h
      · rcases q p with h' | h' | h' <;> rw [h'] at h <;> cases h
  · constructor
    · rintro ⟨ho, hne⟩
      obtain ⟨hp, p, hpar, hd⟩ := b.orphP n ho
      refine ⟨?_, p, hpar, (hdone p).mp hd⟩
      rcases q n with h | h | h
      · rw [h] at hp; cases hp
      · exact h
      · exact absurd h hne
    · rintro ⟨hr, p, hpar, hover⟩
      refine ⟨?_, by rw [hr]; simp⟩
      rcases b.pend n p hpar (by rw [hover]; rfl) (by rw [hr]; rfl) (by rw [hr]; rfl) with
        h | h | ⟨cs, o, h | ⟨c, h⟩, _⟩
      · exact h
      · rw [hr] at h; cases h
      · rw [hover] at h; cases h
      · rw [hover] at h; cases h

theorem mem_children {W : World} {s : State} (a : InvA W s) (w : SpanSort) (n : Nat)
    {ord : Map Nat Int32} (hord : ord.Perm (s.bag n).rest) (c : Nat) :
    c ∈ children w (s.bag n) ord ↔ W.parent c = some n ∧ (s.pc c).live = true := by
  unfold children
  rw [mem_sortBy, mem_dedup, mem_bag a hord]
  simp

theorem nodup_children (w : SpanSort) (b : SpanBag) (ord : Map Nat Int32) :
    (children w b ord).Nodup :=
  (sortBy_perm _ _).nodup_iff.mpr (nodup_dedup _ _)

/-! ### Walking the tree -/

/-- `m` is `n` or below it through running spans. -/
inductive Desc (W : World) (s : State) (n : Nat) : Nat → Prop where
  | self : Desc W s n n
  | down (m p : Nat) (h : s.pc m = .running) (hp : W.parent m = some p) (hd : Desc W s n p) :
      Desc W s n m

theorem Desc.le {W : World} {s : State} {n m : Nat} (h : Desc W s n m) : n ≤ m := by
  induction h with
  | self => exact Nat.le_refl _
  | down m p _ hp _ ih => have := W.older m p hp; omega

theorem Desc.linear {W : World} {s : State} {n n' m : Nat} (h : Desc W s n m) (h' : Desc W s n' m) :
    Desc W s n n' ∨ Desc W s n' n := by
  induction h with
  | self => exact .inr h'
  | down m p hr hp hd ih =>
    cases h' with
    | self => exact .inl (.down _ p hr hp hd)
    | down _ p' _ hp' hd' =>
      rw [hp] at hp'
      cases hp'
      exact ih hd'

/-- First step down. -/
theorem Desc.head {W : World} {s : State} {n m : Nat} :
    Desc W s n m ↔ m = n ∨ ∃ c, s.pc c = .running ∧ W.parent c = some n ∧ Desc W s c m := by
  constructor
  · intro h
    induction h with
    | self => exact .inl rfl
    | down m p hr hp hd ih =>
      right
      rcases ih with rfl | ⟨c, h1, h2, h3⟩
      · exact ⟨m, hr, hp, .self⟩
      · exact ⟨c, h1, h2, .down _ p hr hp h3⟩
  · rintro (rfl | ⟨c, h1, h2, h3⟩)
    · exact .self
    · induction h3 with
      | self => exact .down _ n h1 h2 .self
      | down m p hr hp _ ih => exact .down m p hr hp ih

/-- The results of a list of walks, put together. -/
theorem mapM_walk {f : Nat → Option (List Nat)} {D : Nat → Nat → Prop} (l : List Nat)
    (hf : ∀ c ∈ l, ∃ r, f c = some r ∧ r.Nodup ∧ ∀ m, m ∈ r ↔ D c m)
    (hl : l.Nodup) (disj : ∀ c ∈ l, ∀ c' ∈ l, c ≠ c' → ∀ m, D c m → ¬ D c' m) :
    ∃ ls, l.mapM f = some ls ∧ ls.flatten.Nodup ∧ ∀ m, m ∈ ls.flatten ↔ ∃ c ∈ l, D c m := by
  induction l with
  | nil => exact ⟨[], rfl, by simp, by simp⟩
  | cons c cs ih =>
    obtain ⟨r, hr, hn, hm⟩ := hf c (by simp)
    rw [List.nodup_cons] at hl
    obtain ⟨ls, hls, hn', hm'⟩ := ih (fun x hx => hf x (by simp [hx])) hl.2
      (fun x hx y hy => disj x (by simp [hx]) y (by simp [hy]))
    refine ⟨r :: ls, by simp [List.mapM_cons, hr, hls], ?_, fun m => ?_⟩
    · rw [List.flatten_cons, List.nodup_append]
      refine ⟨hn, hn', fun a ha b hb e => ?_⟩
      subst e
      obtain ⟨c', hc', hd⟩ := (hm' a).mp hb
      exact disj c (by simp) c' (by simp [hc']) (fun e => hl.1 (e ▸ hc')) a ((hm a).mp ha) hd
    · rw [List.flatten_cons, List.mem_append, hm, hm']
      simp

theorem walk_spec {W : World} {s : State} (a : InvA W s) (b : InvB W s) (q : Quiet s) (w : SpanSort)
    (ords : Nat → Map Nat Int32) (hords : ∀ n, (ords n).Perm (s.bag n).rest) (N : Nat)
    (hN : ∀ n, N ≤ n → s.pc n = .new) (fuel n : Nat) (hf : N < fuel + n) (hf0 : 0 < fuel) :
    ∃ l, walk w s ords fuel n = some l ∧ l.Nodup ∧ ∀ m, m ∈ l ↔ Desc W s n m := by
  obtain ⟨_, _, hlive⟩ := quiet_facts a b q
  induction fuel generalizing n with
  | zero => omega
  | succ fuel ih =>
    have hch : ∀ c, c ∈ children w (s.bag n) (ords n) ↔ W.parent c = some n ∧ s.pc c = .running := by
      intro c; rw [mem_children a w n (hords n), hlive]
    obtain ⟨ls, h1, h2, h3⟩ := mapM_walk (f := walk w s ords fuel) (D := Desc W s)
      (children w (s.bag n) (ords n))
      (by
        intro c hc
        obtain ⟨hp, hr⟩ := (hch c).mp hc
        have hlt := W.older c n hp
        have hcN : c < N := by
          rcases Nat.lt_or_ge c N with h | h
          · exact h
          · rw [hN c h] at hr; cases hr
        exact ih c (by omega) (by omega))
      (nodup_children _ _ _)
      (by
        intro c hc c' hc' hne m hd hd'
        obtain ⟨hp, _⟩ := (hch c).mp hc
        obtain ⟨hp', _⟩ := (hch c').mp hc'
        have key : ∀ {x y : Nat}, W.parent x = some n → W.parent y = some n → x ≠ y → ¬ Desc W s x y := by
          intro x y hx hy hxy h
          cases h with
          | self => exact hxy rfl
          | down _ p _ hp hd =>
            rw [hy] at hp; cases hp
            have := hd.le
            have := W.older _ _ hx
            omega
        rcases hd.linear hd' with h | h
        · exact key hp hp' hne h
        · exact key hp' hp (Ne.symm hne) h)
    refine ⟨n :: ls.flatten, by simp [walk, h1], ?_, fun m => ?_⟩
    · rw [List.nodup_cons]
      refine ⟨fun h => ?_, h2⟩
      obtain ⟨c, hc, hd⟩ := (h3 n).mp h
      have := hd.le
      have := W.older c n ((hch c).mp hc).1
      omega
    · rw [List.mem_cons, h3, Desc.head]
      constructor
      · rintro (h | ⟨c, hc, hd⟩)
        · exact .inl h
        · exact .inr ⟨c, ((hch c).mp hc).2, ((hch c).mp hc).1, hd⟩
      · rintro (h | ⟨c, h1, h2, h3⟩)
        · exact .inl h
        · exact .inr ⟨c, (hch c).mpr ⟨h2, h1⟩, h3⟩

end Monkit.Spans
