import Verif.Model.ReExit
import Verif.Proofs.Spans3

namespace Monkit.ReExit
open Go Spans

/-- The state of the spans as it would be had no exit function been called again: only the positions of some spans and the counts differ. -/
def sim (s : State) (q : Nat → PC) (cnt : Nat → Int64) : Spans.State := { s.sp with pc := q, count := cnt }

/-- How the positions differ: a span that starts under a parent that has finished may find that a further call of the parent's exit function is entering it in the orphans, or has done so. -/
structure Rel (W : World) (of : Nat → Nat) (s : State) (q : Nat → PC) : Prop where
  pc : ∀ n, q n = s.sp.pc n ∨ (s.sp.pc n = .selfOrphan ∧ s.sp.orphaned n = true ∧
    ((q n = .selfInsert ∧ ∃ k cs o, s.rp k = .insert n cs o) ∨ q n = .running))
  ins : ∀ k c cs o, s.rp k = .insert c cs o → q c = .selfInsert ∧ s.sp.pc c = .selfOrphan
  one : ∀ k k' c cs o cs' o', s.rp k = .insert c cs o → s.rp k' = .insert c cs' o' → k = k'
  over : ∀ k, s.rp k ≠ .new → s.sp.pc (of k) = .over
  kids : ∀ k cs o, (s.rp k = .orphan cs o ∨ ∃ c, s.rp k = .insert c cs o) → ∀ c ∈ cs, W.parent c = some (of k) ∧ (q c).pubd = true

theorem del_absent {m : Map Nat Int32} {n : Nat} (h : Map.get m n = none) : Map.del m n = m := by
  induction m with
  | nil => rfl
  | cons x xs ih =>
    obtain ⟨p, v⟩ := x
    rw [Map.get_cons] at h
    unfold Map.del at ih ⊢
    by_cases hp : p = n
    · rw [if_pos hp] at h; cases h
    · rw [if_neg hp] at h
      rw [List.filter_cons_of_pos (by simp [hp]), ih h]

theorem remove_absent {b : SpanBag} (hb : b.Ok) {n : Nat} (h : b.count n = 0) : b.remove n = b := by
  have h0 := SpanBag.rest_nonneg hb n
  unfold SpanBag.count at h
  have hf : b.first ≠ some n := by
    intro e; rw [if_pos e] at h; omega
  rw [if_neg hf] at h
  have hg : Map.get b.rest n = none := by
    cases e : Map.get b.rest n with
    | none => rfl
    | some c =>
      have := hb.pos n c e
      rw [e] at h
      simp at h
      omega
  unfold SpanBag.remove
  rw [if_neg hf]
  simp only [hg, Option.getD_none]
  rw [if_pos (by decide), del_absent hg]

theorem drop_absent {l : List Nat} {n : Nat} (h : n ∉ l) : drop n l = l := by
  unfold drop
  rw [List.filter_eq_self]
  intro a ha
  simp only [decide_eq_true_eq]
  rintro rfl
  exact h ha

theorem upd_id {α : Type} (f : Nat → α) (n : Nat) (v : α) (h : f n = v) : upd f n v = f := by
  funext i
  by_cases hi : i = n
  · subst hi; simp [h]
  · exact upd_other _ _ hi

theorem rel_init (W : World) (of : Nat → Nat) : Rel W of init Spans.init.pc := by
  constructor <;> simp [init, Spans.init]

variable {W : World} {of : Nat → Nat} {s : State} {q : Nat → PC}

theorem Rel.same (r : Rel W of s q) {n : Nat} (h : s.sp.pc n ≠ .selfOrphan) : q n = s.sp.pc n ∧ ∀ k cs o, s.rp k ≠ .insert n cs o := by
  constructor
  · rcases r.pc n with e | ⟨e, _⟩
    · exact e
    · exact absurd e h
  · intro k cs o hk
    exact h (r.ins k n cs o hk).2

theorem Rel.move (r : Rel W of s q) {n : Nat} {v : PC} {sp' : Spans.State} (hpc : sp'.pc = upd s.sp.pc n v) (ho : ∀ m, s.sp.orphaned m = true → sp'.orphaned m = true)
    (hi : ∀ k cs o, s.rp k ≠ .insert n cs o) (hover : s.sp.pc n ≠ .over) (hpub : (q n).pubd = true → v.pubd = true) :
    Rel W of { s with sp := sp' } (upd q n v) := by
  obtain ⟨r1, r2, r3, r4, r5⟩ := r
  constructor
  · intro m
    simp only [hpc, upd_apply]
    split
    · exact Or.inl rfl
    · rcases r1 m with e | ⟨e1, e2, e3⟩
      · exact Or.inl e
      · exact Or.inr ⟨e1, ho m e2, e3⟩
  · intro k c cs o hk
    have : c ≠ n := by rintro rfl; exact hi k cs o hk
    simp only [hpc, upd_apply, if_neg this]
    exact r2 k c cs o hk
  · exact r3
  · intro k hk
    have := r4 k hk
    have hne : of k ≠ n := by intro e; rw [e] at this; exact hover this
    simp only [hpc, upd_apply, if_neg hne]
    exact this
  · intro k cs o hk c hc
    have := r5 k cs o hk c hc
    refine ⟨this.1, ?_⟩
    rw [upd_apply]
    split
    · rename_i e; subst e; exact hpub this.2
    · exact this.2

theorem span_step {cnt : Nat → Int64} (r : Rel W of s q) (hb : InvB W (sim s q cnt)) {sp' : Spans.State} (st : Spans.Step W s.sp sp') :
    ∃ q' cnt', Rel W of { s with sp := sp' } q' ∧ (∀ t, cnt' t - sp'.count t = cnt t - s.sp.count t) ∧
      (sim { s with sp := sp' } q' cnt' = sim s q cnt ∨ Spans.Step W (sim s q cnt) (sim { s with sp := sp' } q' cnt')) := by
  have mk : ∀ {n v}, sp'.pc = upd s.sp.pc n v → s.sp.pc n ≠ .selfOrphan → (∀ m, s.sp.orphaned m = true → sp'.orphaned m = true) → s.sp.pc n ≠ .over →
      ((s.sp.pc n).pubd = true → v.pubd = true) → Rel W of { s with sp := sp' } (upd q n v) := by
    intro n v hpc h1 h2 h3 h4
    exact r.move hpc h2 (r.same h1).2 h3 (by rw [(r.same h1).1]; exact h4)
  cases st with
  | create n h hp =>
    have e := (r.same (n := n) (by simp [h])).1
    refine ⟨_, cnt, mk rfl (by simp [h]) (fun _ => id) (by simp [h]) (by simp [h, PC.pubd]), fun _ => rfl, Or.inr (.create (sim s q cnt) n (e.trans h) ?_)⟩
    intro p hpp
    obtain ⟨a1, a2, a3⟩ := hp p hpp
    rcases r.pc p with e | ⟨e, _, ⟨e', _⟩ | e'⟩
    · simp only [sim]; rw [e]; exact ⟨a1, a2, a3⟩
    · simp [sim, e']
    · simp [sim, e']
  | inc n h =>
    have e := (r.same (n := n) (by simp [h])).1
    refine ⟨_, upd cnt (W.trace n) (cnt (W.trace n) + 1), mk rfl (by simp [h]) (fun _ => id) (by simp [h]) (by simp [h, PC.pubd]), fun t => ?_,
      Or.inr (.inc (sim s q cnt) n (e.trans h))⟩
    simp only [upd_apply]; split
    · rename_i ht; subst ht; grind
    · rfl
  | root n h hp =>
    have e := (r.same (n := n) (by simp [h])).1
    exact ⟨_, cnt, mk rfl (by simp [h]) (fun _ => id) (by simp [h]) (by simp [h, PC.pubd]), fun _ => rfl, Or.inr (.root (sim s q cnt) n (e.trans h) hp)⟩
  | child n p h hp free =>
    have e := (r.same (n := n) (by simp [h])).1
    exact ⟨_, cnt, mk rfl (by simp [h]) (fun _ => id) (by simp [h]) (by simp [h, PC.pubd]), fun _ => rfl, Or.inr (.child (sim s q cnt) n p (e.trans h) hp free)⟩
  | selfMark n h free hn =>
    have e : q n = s.sp.pc n := by
      rcases r.pc n with e | ⟨_, e, _⟩
      · exact e
      · rw [hn.2] at e; cases e
    have hi : ∀ k cs o, s.rp k ≠ .insert n cs o := by
      intro k cs o hk
      have := (r.ins k n cs o hk).1
      rw [e, h] at this; cases this
    refine ⟨_, cnt, r.move rfl ?_ hi (by simp [h]) (fun _ => rfl), fun _ => rfl, Or.inr (.selfMark (sim s q cnt) n (e.trans h) free hn)⟩
    intro m hm
    simp only [upd_apply]; split <;> simp_all
  | selfSkip n h free hn =>
    rcases r.pc n with e | ⟨_, e, ⟨e', k, cs, o, hk⟩ | e'⟩
    · have hi : ∀ k cs o, s.rp k ≠ .insert n cs o := by
        intro k cs o hk
        have := (r.ins k n cs o hk).1
        rw [e, h] at this; cases this
      exact ⟨_, cnt, r.move rfl (fun _ => id) hi (by simp [h]) (fun _ => rfl), fun _ => rfl, Or.inr (.selfSkip (sim s q cnt) n (e.trans h) free hn)⟩
    · have := (hb.lockS n e').1
      simp only [sim] at this
      rw [free] at this; cases this
    · have hi : ∀ k cs o, s.rp k ≠ .insert n cs o := by
        intro k cs o hk
        have := (r.ins k n cs o hk).1
        rw [e'] at this; cases this
      refine ⟨q, cnt, ?_, fun _ => rfl, Or.inl rfl⟩
      have := r.move (v := .running) (sp' := { s.sp with pc := upd s.sp.pc n .running }) rfl (fun _ => id) hi (by simp [h]) (fun _ => rfl)
      rwa [upd_id q n .running e'] at this
  | selfInsert n h =>
    have e := (r.same (n := n) (by simp [h])).1
    exact ⟨_, cnt, mk rfl (by simp [h]) (fun _ => id) (by simp [h]) (by simp [PC.pubd]), fun _ => rfl, Or.inr (.selfInsert (sim s q cnt) n (e.trans h))⟩
  | exit n h =>
    have e := (r.same (n := n) (by simp [h])).1
    exact ⟨_, cnt, mk rfl (by simp [h]) (fun _ => id) (by simp [h]) (by simp [PC.pubd]), fun _ => rfl, Or.inr (.exit (sim s q cnt) n (e.trans h))⟩
  | mark n ord h free hord =>
    have e := (r.same (n := n) (by simp [h])).1
    exact ⟨_, cnt, mk rfl (by simp [h]) (fun _ => id) (by simp [h]) (by simp [PC.pubd]), fun _ => rfl, Or.inr (.mark (sim s q cnt) n ord (e.trans h) free hord)⟩
  | orphanMark n c cs o h free hc =>
    have e := (r.same (n := n) (by simp [h])).1
    refine ⟨_, cnt, mk rfl (by simp [h]) ?_ (by simp [h]) (by simp [PC.pubd]), fun _ => rfl, Or.inr (.orphanMark (sim s q cnt) n c cs o (e.trans h) free hc)⟩
    intro m hm
    simp only [upd_apply]; split <;> simp_all
  | orphanSkip n c cs o h free hc =>
    have e := (r.same (n := n) (by simp [h])).1
    exact ⟨_, cnt, mk rfl (by simp [h]) (fun _ => id) (by simp [h]) (by simp [PC.pubd]), fun _ => rfl, Or.inr (.orphanSkip (sim s q cnt) n c cs o (e.trans h) free hc)⟩
  | orphanInsert n c cs o h =>
    have e := (r.same (n := n) (by simp [h])).1
    exact ⟨_, cnt, mk rfl (by simp [h]) (fun _ => id) (by simp [h]) (by simp [PC.pubd]), fun _ => rfl, Or.inr (.orphanInsert (sim s q cnt) n c cs o (e.trans h))⟩
  | orphanDone n o h =>
    have e := (r.same (n := n) (by simp [h])).1
    exact ⟨_, cnt, mk rfl (by simp [h]) (fun _ => id) (by simp [h]) (by simp [PC.pubd]), fun _ => rfl, Or.inr (.orphanDone (sim s q cnt) n o (e.trans h))⟩
  | leaveParent n p o h hp free =>
    have e := (r.same (n := n) (by simp [h])).1
    exact ⟨_, cnt, mk rfl (by simp [h]) (fun _ => id) (by simp [h]) (by cases o <;> simp [PC.pubd]), fun _ => rfl,
      Or.inr (.leaveParent (sim s q cnt) n p o (e.trans h) hp free)⟩
  | leaveRoots n o h hp =>
    have e := (r.same (n := n) (by simp [h])).1
    exact ⟨_, cnt, mk rfl (by simp [h]) (fun _ => id) (by simp [h]) (by simp [PC.pubd]), fun _ => rfl, Or.inr (.leaveRoots (sim s q cnt) n o (e.trans h) hp)⟩
  | unorphan n h =>
    have e := (r.same (n := n) (by simp [h])).1
    exact ⟨_, cnt, mk rfl (by simp [h]) (fun _ => id) (by simp [h]) (by simp [PC.pubd]), fun _ => rfl, Or.inr (.unorphan (sim s q cnt) n (e.trans h))⟩
  | dec n h =>
    have e := (r.same (n := n) (by simp [h])).1
    refine ⟨_, upd cnt (W.trace n) (cnt (W.trace n) + (-1)), mk rfl (by simp [h]) (fun _ => id) (by simp [h]) (by simp [PC.pubd]), fun t => ?_,
      Or.inr (.dec (sim s q cnt) n (e.trans h))⟩
    simp only [upd_apply]; split
    · rename_i ht; subst ht; grind
    · rfl

/-- A further call moves on, and nothing is left of what it did but its position. -/
theorem Rel.rep (r : Rel W of s q) {k : Nat} {v : PC} {sp' : Spans.State} (hpc : sp'.pc = s.sp.pc) (ho : sp'.orphaned = s.sp.orphaned)
    (hi : ∀ c cs o, s.rp k ≠ .insert c cs o) (hv : ∀ c cs o, v ≠ .insert c cs o) (hover : s.sp.pc (of k) = .over)
    (hk : ∀ cs o, v = .orphan cs o → ∀ c ∈ cs, W.parent c = some (of k) ∧ (q c).pubd = true) :
    Rel W of ⟨sp', upd s.rp k v⟩ q := by
  obtain ⟨r1, r2, r3, r4, r5⟩ := r
  have hins : ∀ k' c cs o, upd s.rp k v k' = .insert c cs o → s.rp k' = .insert c cs o := by
    intro k' c cs o h
    rw [upd_apply] at h
    split at h
    · exact absurd h (hv c cs o)
    · exact h
  constructor
  · intro n
    simp only [hpc, ho]
    rcases r1 n with e | ⟨e1, e2, ⟨e3, k', cs, o, hk'⟩ | e3⟩
    · exact Or.inl e
    · refine Or.inr ⟨e1, e2, Or.inl ⟨e3, k', cs, o, ?_⟩⟩
      rw [upd_apply, if_neg]
      · exact hk'
      · rintro rfl; exact hi _ _ _ hk'
    · exact Or.inr ⟨e1, e2, Or.inr e3⟩
  · intro k' c cs o h
    rw [hpc]
    exact r2 k' c cs o (hins _ _ _ _ h)
  · intro k1 k2 c cs o cs' o' h1 h2
    exact r3 k1 k2 c cs o cs' o' (hins _ _ _ _ h1) (hins _ _ _ _ h2)
  · intro k' h
    simp only [hpc]
    by_cases e : k' = k
    · subst e; exact hover
    · rw [show (⟨sp', upd s.rp k v⟩ : State).rp k' = s.rp k' from upd_other _ _ e] at h
      exact r4 k' h
  · intro k' cs o h c hc
    by_cases e : k' = k
    · subst e
      simp only [upd_same] at h
      rcases h with h | ⟨c', h⟩
      · exact hk cs o h c hc
      · exact absurd h (hv _ _ _)
    · simp only [upd_other _ _ e] at h
      exact r5 k' cs o h c hc

theorem rep_step {cnt : Nat → Int64} (r : Rel W of s q) (ha : InvA W (sim s q cnt)) (hb : InvB W (sim s q cnt)) {s' : State} (st : Step W of s s')
    (hs : ¬ ∃ sp', Spans.Step W s.sp sp' ∧ s' = { s with sp := sp' }) :
    ∃ q', Rel W of s' q' ∧ (∃ k v, s'.rp = upd s.rp k v ∧ s.rp k ≠ .over ∧ ((v ≠ .over ∧ s'.sp.count = s.sp.count) ∨
        (v = .over ∧ s'.sp.count = upd s.sp.count (W.trace (of k)) (s.sp.count (W.trace (of k)) + (-1))))) ∧
      (sim s' q' cnt = sim s q cnt ∨ Spans.Step W (sim s q cnt) (sim s' q' cnt)) := by
  have over : ∀ k, s.rp k ≠ .new → q (of k) = .over := fun k hk => by
    rw [(r.same (by rw [r.over k hk]; simp)).1, r.over k hk]
  cases st with
  | span sp' st => exact absurd ⟨sp', st, rfl⟩ hs
  | exit k h ho =>
    exact ⟨q, r.rep rfl rfl (by simp [h]) (by simp) ho (by simp), ⟨k, _, rfl, by simp [h], Or.inl ⟨by simp, rfl⟩⟩, Or.inl rfl⟩
  | mark k ord h free hord =>
    refine ⟨q, r.rep rfl rfl (by simp [h]) (by simp) (r.over k (by simp [h])) ?_, ⟨k, _, rfl, by simp [h], Or.inl ⟨by simp, rfl⟩⟩, Or.inl ?_⟩
    · intro cs o e c hc
      simp only [PC.orphan.injEq] at e
      rw [← e.1] at hc
      have := (mem_bag ha hord c).1 hc
      exact ⟨this.1, pubd_of_live this.2⟩
    · have hd : s.sp.done (of k) = true := by
        have := ha.done (of k)
        simp only [sim] at this
        rw [this, over k (by simp [h])]; rfl
      simp only [sim, upd_id _ _ _ hd]
  | orphanMark k c cs o h free hc =>
    obtain ⟨hp, hpub⟩ := r.kids k (c :: cs) o (Or.inl h) c (by simp)
    have hdone : (q c).isDone = false := by
      have := ha.done c; simp only [sim] at this; rw [← this]; exact hc.1
    have hq : q c = .selfOrphan := by
      have ho := over k (by simp [h])
      rcases hb.pend c (of k) hp (by simp [sim, ho, PC.isDone]) hpub hdone with e | e | ⟨_, _, e, _⟩
      · simp only [sim] at e; rw [hc.2] at e; cases e
      · exact e
      · simp [sim, ho] at e
    have hpc : s.sp.pc c = .selfOrphan := by
      rcases r.pc c with e | ⟨e, _⟩
      · rw [← e]; exact hq
      · exact e
    refine ⟨upd q c .selfInsert, ?_, ⟨k, _, rfl, by simp [h], Or.inl ⟨by simp, rfl⟩⟩, Or.inr (.selfMark (sim s q cnt) c hq free hc)⟩
    have noI : ∀ k' cs o, s.rp k' ≠ .insert c cs o := by
      intro k' cs o hk
      have := (r.ins k' c cs o hk).1
      rw [hq] at this; cases this
    have hins : ∀ k' c' cs' o', upd s.rp k (.insert c cs o) k' = .insert c' cs' o' → (k' = k ∧ c' = c) ∨ (k' ≠ k ∧ c' ≠ c ∧ s.rp k' = .insert c' cs' o') := by
      intro k' c' cs' o' h'
      rw [upd_apply] at h'
      split at h'
      · simp only [PC.insert.injEq] at h'; exact Or.inl ⟨by assumption, h'.1.symm⟩
      · refine Or.inr ⟨by assumption, ?_, h'⟩
        rintro rfl; exact noI _ _ _ h'
    constructor
    · intro n
      by_cases hn : n = c
      · subst hn
        exact Or.inr ⟨hpc, by simp, Or.inl ⟨by simp, k, cs, o, by simp⟩⟩
      · simp only [upd_other _ _ hn]
        rcases r.pc n with e | ⟨e1, e2, ⟨e3, k', cs', o', hk'⟩ | e3⟩
        · exact Or.inl e
        · refine Or.inr ⟨e1, e2, Or.inl ⟨e3, k', cs', o', ?_⟩⟩
          rw [upd_other]
          · exact hk'
          · rintro rfl; rw [h] at hk'; cases hk'
        · exact Or.inr ⟨e1, e2, Or.inr e3⟩
    · intro k' c' cs' o' h'
      rcases hins _ _ _ _ h' with ⟨_, rfl⟩ | ⟨_, hne, h''⟩
      · exact ⟨by simp, hpc⟩
      · rw [upd_other _ _ hne]; exact r.ins _ _ _ _ h''
    · intro k1 k2 c' cs1 o1 cs2 o2 h1 h2
      rcases hins _ _ _ _ h1 with ⟨a, b⟩ | ⟨a, b, g1⟩ <;> rcases hins _ _ _ _ h2 with ⟨a', b'⟩ | ⟨a', b', g2⟩
      · rw [a, a']
      · exact absurd b b'
      · exact absurd b' b
      · exact r.one _ _ _ _ _ _ _ g1 g2
    · intro k' hk'
      by_cases e : k' = k
      · subst e; exact r.over k' (by simp [h])
      · simp only [upd_other _ _ e] at hk'; exact r.over k' hk'
    · intro k' cs' o' h' c' hc'
      have : W.parent c' = some (of k') ∧ (q c').pubd = true := by
        by_cases e : k' = k
        · subst e
          simp only [upd_same] at h'
          rcases h' with h' | ⟨_, h'⟩
          · cases h'
          · simp only [PC.insert.injEq] at h'
            exact r.kids k' (c :: cs) o (Or.inl h) c' (by simp [h'.2.1, hc'])
        · simp only [upd_other _ _ e] at h'; exact r.kids k' cs' o' h' c' hc'
      refine ⟨this.1, ?_⟩
      rw [upd_apply]; split
      · rfl
      · exact this.2
  | orphanSkip k c cs o h free hc =>
    refine ⟨q, r.rep rfl rfl (by simp [h]) (by simp) (r.over k (by simp [h])) ?_, ⟨k, _, rfl, by simp [h], Or.inl ⟨by simp, rfl⟩⟩, Or.inl rfl⟩
    intro cs' o' e c' hc'
    simp only [PC.orphan.injEq] at e
    exact r.kids k (c :: cs) o (Or.inl h) c' (by simp [e.1, hc'])
  | orphanInsert k c cs o h =>
    obtain ⟨hq, hpc⟩ := r.ins k c cs o h
    refine ⟨upd q c .running, ?_, ⟨k, _, rfl, by simp [h], Or.inl ⟨by simp, rfl⟩⟩, Or.inr (.selfInsert (sim s q cnt) c hq)⟩
    have hins : ∀ k' c' cs' o', upd s.rp k (.orphan cs o) k' = .insert c' cs' o' → k' ≠ k ∧ c' ≠ c ∧ s.rp k' = .insert c' cs' o' := by
      intro k' c' cs' o' h'
      rw [upd_apply] at h'
      split at h'
      · cases h'
      · rename_i hne
        refine ⟨hne, ?_, h'⟩
        rintro rfl; exact hne (r.one _ _ _ _ _ _ _ h' h)
    constructor
    · intro n
      by_cases hn : n = c
      · subst hn
        exact Or.inr ⟨hpc, (hb.lockS n hq).2, Or.inr (by simp)⟩
      · simp only [upd_other _ _ hn]
        rcases r.pc n with e | ⟨e1, e2, ⟨e3, k', cs', o', hk'⟩ | e3⟩
        · exact Or.inl e
        · refine Or.inr ⟨e1, e2, Or.inl ⟨e3, k', cs', o', ?_⟩⟩
          rw [upd_other]
          · exact hk'
          · rintro rfl; rw [h] at hk'; simp only [PC.insert.injEq] at hk'; exact hn hk'.1.symm
        · exact Or.inr ⟨e1, e2, Or.inr e3⟩
    · intro k' c' cs' o' h'
      obtain ⟨_, hne, h''⟩ := hins _ _ _ _ h'
      rw [upd_other _ _ hne]; exact r.ins _ _ _ _ h''
    · intro k1 k2 c' cs1 o1 cs2 o2 h1 h2
      exact r.one _ _ _ _ _ _ _ (hins _ _ _ _ h1).2.2 (hins _ _ _ _ h2).2.2
    · intro k' hk'
      by_cases e : k' = k
      · subst e; exact r.over k' (by simp [h])
      · simp only [upd_other _ _ e] at hk'; exact r.over k' hk'
    · intro k' cs' o' h' c' hc'
      have : W.parent c' = some (of k') ∧ (q c').pubd = true := by
        by_cases e : k' = k
        · subst e
          simp only [upd_same] at h'
          rcases h' with h' | ⟨_, h'⟩
          · simp only [PC.orphan.injEq] at h'
            exact r.kids k' cs o (Or.inr ⟨c, h⟩) c' (by simp [h'.1, hc'])
          · cases h'
        · simp only [upd_other _ _ e] at h'; exact r.kids k' cs' o' h' c' hc'
      refine ⟨this.1, ?_⟩
      rw [upd_apply]; split
      · rfl
      · exact this.2
  | orphanDone k o h =>
    exact ⟨q, r.rep rfl rfl (by simp [h]) (by simp) (r.over k (by simp [h])) (by simp), ⟨k, _, rfl, by simp [h], Or.inl ⟨by simp, rfl⟩⟩, Or.inl rfl⟩
  | leaveParent k p o h hp free =>
    refine ⟨q, r.rep rfl rfl (by simp [h]) (by cases o <;> simp) (r.over k (by simp [h])) (by cases o <;> simp),
      ⟨k, _, rfl, by simp [h], Or.inl ⟨by cases o <;> simp, rfl⟩⟩, Or.inl ?_⟩
    have hc : (s.sp.bag p).count (of k) = 0 := by
      refine (ha.bag p (of k)).trans (if_neg fun e => ?_)
      have := e.2
      simp only [sim] at this
      rw [over k (by simp [h])] at this; cases this
    simp only [sim]
    rw [upd_id s.sp.bag p _ (remove_absent (b := s.sp.bag p) (ha.bagOk p) hc).symm]
  | leaveRoots k o h hp =>
    refine ⟨q, r.rep rfl rfl (by simp [h]) (by simp) (r.over k (by simp [h])) (by simp), ⟨k, _, rfl, by simp [h], Or.inl ⟨by simp, rfl⟩⟩, Or.inl ?_⟩
    have hc : of k ∉ s.sp.roots (W.reg (of k)) := by
      have := ha.roots (W.reg (of k)) (of k)
      simp only [sim] at this
      rw [this, over k (by simp [h])]; simp [PC.live]
    simp only [sim]
    rw [upd_id _ _ _ (drop_absent hc).symm]
  | unorphan k h =>
    refine ⟨q, r.rep rfl rfl (by simp [h]) (by simp) (r.over k (by simp [h])) (by simp), ⟨k, _, rfl, by simp [h], Or.inl ⟨by simp, rfl⟩⟩, Or.inl ?_⟩
    have hc : of k ∉ s.sp.orphans (W.reg (of k)) := by
      have := hb.orph (W.reg (of k)) (of k)
      simp only [sim] at this
      rw [this, over k (by simp [h])]; simp
    simp only [sim]
    rw [upd_id _ _ _ (drop_absent hc).symm]
  | dec k h =>
    exact ⟨q, r.rep rfl rfl (by simp [h]) (by simp) (r.over k (by simp [h])) (by simp), ⟨k, _, rfl, by simp [h], Or.inr ⟨rfl, rfl⟩⟩, Or.inl rfl⟩

theorem step_sim {cnt : Nat → Int64} (r : Rel W of s q) (ha : InvA W (sim s q cnt)) (hb : InvB W (sim s q cnt)) {s' : State} (st : Step W of s s') :
    ∃ q' cnt', Rel W of s' q' ∧ (sim s' q' cnt' = sim s q cnt ∨ Spans.Step W (sim s q cnt) (sim s' q' cnt')) ∧
      ((s'.rp = s.rp ∧ ∀ t, cnt' t - s'.sp.count t = cnt t - s.sp.count t) ∨
       (cnt' = cnt ∧ ∃ k v, s'.rp = upd s.rp k v ∧ s.rp k ≠ .over ∧ ((v ≠ .over ∧ s'.sp.count = s.sp.count) ∨
        (v = .over ∧ s'.sp.count = upd s.sp.count (W.trace (of k)) (s.sp.count (W.trace (of k)) + (-1)))))) := by
  by_cases hs : ∃ sp', Spans.Step W s.sp sp' ∧ s' = { s with sp := sp' }
  · obtain ⟨sp', st', rfl⟩ := hs
    obtain ⟨q', cnt', h1, h2, h3⟩ := span_step r hb st'
    exact ⟨q', cnt', h1, h3, Or.inl ⟨rfl, h2⟩⟩
  · obtain ⟨q', h1, h2, h3⟩ := rep_step r ha hb st hs
    exact ⟨q', cnt, h1, h3, Or.inr ⟨rfl, h2⟩⟩

/-- Calls that have returned, of spans of trace `t`. -/
def returned (t : Nat) (x : Nat × PC) : Bool := decide (x.1 = t) && decide (x.2 = .over)

theorem reach_sim (h : Reach W of s) : ∃ q cnt, Rel W of s q ∧ Spans.Reach W Spans.init (sim s q cnt) ∧
    ∀ t, ∃ k, Census (fun i => (W.trace (of i), s.rp i)) (returned t) k ∧ cnt t - s.sp.count t = Int64.ofNat k := by
  induction h with
  | start => exact ⟨Spans.init.pc, Spans.init.count, rel_init W of, .start, fun t => ⟨0, census_zero (by simp [init, returned]), by simp [init, Spans.init]⟩⟩
  | @step s s' _ st ih =>
    obtain ⟨q, cnt, r, hr, hc⟩ := ih
    obtain ⟨a, b⟩ := reach_inv hr
    obtain ⟨q', cnt', r', hst, hcnt⟩ := step_sim r a b st
    refine ⟨q', cnt', r', ?_, fun t => ?_⟩
    · rcases hst with e | e
      · rw [e]; exact hr
      · exact .step hr e
    · obtain ⟨k, hk, hk'⟩ := hc t
      rcases hcnt with ⟨e1, e2⟩ | ⟨rfl, j, v, e1, e2, e3⟩
      · exact ⟨k, by rw [e1]; exact hk, by rw [e2, hk']⟩
      · obtain ⟨m, hm, hmk⟩ := hk.upd j (W.trace (of j), v)
        have hfun : (fun i => (W.trace (of i), s'.rp i)) = upd (fun i => (W.trace (of i), s.rp i)) j (W.trace (of j), v) := by
          funext i
          rw [e1]
          by_cases hi : i = j
          · subst hi; simp
          · rw [upd_other _ _ hi, upd_other _ _ hi]
        refine ⟨m, by rw [hfun]; exact hm, ?_⟩
        rcases e3 with ⟨hv, e4⟩ | ⟨rfl, e4⟩
        · have : m = k := by simp [returned, e2, hv] at hmk; omega
          rw [e4, this, hk']
        · by_cases ht : W.trace (of j) = t
          · have : m = k + 1 := by simp [returned, ht, e2] at hmk; omega
            subst ht
            rw [e4, upd_same, this, Int64.ofNat_add, ← hk']
            have : Int64.ofNat 1 = 1 := rfl
            rw [this]
            grind
          · have : m = k := by simp [returned, ht] at hmk; omega
            rw [e4, upd_other _ _ (Ne.symm ht), this, hk']

end Monkit.ReExit
