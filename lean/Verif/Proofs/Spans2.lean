import Verif.Proofs.Spans

namespace Monkit.Spans
open Go

structure InvB (W : World) (s : State) : Prop where
  lockI : ∀ n c cs o, s.pc n = .insert c cs o →
    s.locked c = true ∧ s.orphaned c = true ∧ W.parent c = some n ∧ s.pc c ≠ .selfInsert
  lockS : ∀ n, s.pc n = .selfInsert → s.locked n = true ∧ s.orphaned n = true
  lockB : ∀ c, s.locked c = true → s.orphaned c = true ∧ (s.pc c).pubd = true ∧ (s.pc c).isDone = false ∧
    (s.pc c = .selfInsert ∨ ∃ p cs o, W.parent c = some p ∧ s.pc p = .insert c cs o)
  orphP : ∀ n, s.orphaned n = true → (s.pc n).pubd = true ∧ ∃ p, W.parent n = some p ∧ (s.pc p).isDone = true
  selfP : ∀ n, s.pc n = .selfOrphan ∨ s.pc n = .selfInsert →
    ∃ p, W.parent n = some p ∧ (s.pc p).isDone = true
  flag : ∀ n o, ((∃ cs, s.pc n = .orphan cs o) ∨ (∃ c cs, s.pc n = .insert c cs o) ∨ s.pc n = .leave o) →
    o = s.orphaned n
  flagU : ∀ n, s.pc n = .unorphan → s.orphaned n = true
  kids : ∀ n cs o, (s.pc n = .orphan cs o ∨ ∃ c, s.pc n = .insert c cs o) →
    ∀ c ∈ cs, W.parent c = some n ∧ (s.pc c).pubd = true
  orphN : ∀ r, (s.orphans r).Nodup
  orph : ∀ r n, n ∈ s.orphans r ↔
    W.reg n = r ∧ s.orphaned n = true ∧ s.locked n = false ∧ s.pc n ≠ .dec ∧ s.pc n ≠ .over
  pend : ∀ n p, W.parent n = some p → (s.pc p).isDone = true → (s.pc n).pubd = true →
    (s.pc n).isDone = false → s.orphaned n = true ∨ s.pc n = .selfOrphan ∨
      ∃ cs o, (s.pc p = .orphan cs o ∨ ∃ c, s.pc p = .insert c cs o) ∧ n ∈ cs

theorem invB_init (W : World) : InvB W init := by
  constructor <;> simp [init, PC.isDone, PC.pubd]

theorem parent_ne {W : World} {n p : Nat} (h : W.parent n = some p) : p ≠ n := by
  have := W.older n p h; omega

theorem pubd_of_live {pc : PC} (h : pc.live = true) : pc.pubd = true := by
  cases pc <;> simp_all [PC.live, PC.pubd]

theorem live_of {pc : PC} (h : pc.pubd = true) (h' : pc.isDone = false) : pc.live = true := by
  cases pc <;> simp_all [PC.live, PC.pubd, PC.isDone]

theorem mem_bag {W : World} {s : State} (i : InvA W s) {n : Nat} {ord : Map Nat Int32}
    (hord : ord.Perm (s.bag n).rest) (c : Nat) :
    c ∈ (s.bag n).iterate ord ↔ W.parent c = some n ∧ (s.pc c).live = true := by
  rw [SpanBag.mem_iterate (i.bagOk n) hord, i.bag]
  split <;> simp_all

set_option maxHeartbeats 1000000 in
theorem invB_step {W : World} {s s' : State} (a : InvA W s) (i : InvB W s) (st : Step W s s') :
    InvB W s' := by
  obtain ⟨i1, i2, i3, i4, i5, i6, i7, i8, i9, i10, i11⟩ := i
  have hpar := a.par
  have hdone := a.done
  have hold := W.older
  have hbag := fun n ord hord c => mem_bag a (n := n) (ord := ord) hord c
  clear a
  cases st with
  | create n h hp =>
    constructor <;> simp only [upd_apply] <;> grind [PC.isDone, PC.pubd]
  | inc n h =>
    constructor <;> simp only [upd_apply] <;> grind [PC.isDone, PC.pubd]
  | root n h hp =>
    constructor <;> simp only [upd_apply] <;> grind [PC.isDone, PC.pubd]
  | child n p h hp free =>
    constructor <;> simp only [upd_apply] <;> grind [PC.isDone, PC.pubd]
  | selfMark n h free hn =>
    constructor <;> simp only [upd_apply] <;> grind [PC.isDone, PC.pubd]
  | selfSkip n h free hn =>
    constructor <;> simp only [upd_apply] <;> grind [PC.isDone, PC.pubd]
  | selfInsert n h =>
    constructor <;> simp only [upd_apply] <;> grind [PC.isDone, PC.pubd, mem_put, nodup_put]
  | exit n h =>
    constructor <;> simp only [upd_apply] <;> grind [PC.isDone, PC.pubd]
  | mark n ord h free hord =>
    have hb := hbag n ord hord
    constructor <;> simp only [upd_apply] <;> grind [PC.isDone, PC.pubd, pubd_of_live, live_of]
  | orphanMark n c cs o h free hc =>
    have hk := i8 n (c :: cs) o (.inl h)
    have hc0 := hk c (by simp)
    have hcs : ∀ x ∈ cs, W.parent x = some n ∧ (s.pc x).pubd = true := fun x hx => hk x (by simp [hx])
    have hcn : c ≠ n := fun e => by have := hold c n hc0.1; omega
    have hf := i6 n o (.inl ⟨_, h⟩)
    have hcd : (s.pc c).isDone = false := by rw [← hdone]; exact hc.1
    have hcp : s.pc c ≠ .selfInsert := fun e => by rw [(i2 c e).1] at free; cases free
    clear hk
    have hl : ∀ x, (if x = c then true else s.locked x) = true →
        (if x = c then true else s.orphaned x) = true ∧
        (if x = n then PC.insert c cs o else s.pc x).pubd = true ∧
        (if x = n then PC.insert c cs o else s.pc x).isDone = false ∧
        ((if x = n then PC.insert c cs o else s.pc x) = .selfInsert ∨ ∃ p cs' o', W.parent x = some p ∧
          (if p = n then PC.insert c cs o else s.pc p) = .insert x cs' o') := by
      intro x hx
      by_cases hxc : x = c
      · subst hxc
        rw [if_neg hcn]
        exact ⟨by simp, hc0.2, hcd, .inr ⟨n, cs, o, hc0.1, by simp⟩⟩
      · rw [if_neg hxc] at hx ⊢
        obtain ⟨h1, h2, h3, h4⟩ := i3 x hx
        have hxn : x ≠ n := fun e => by rw [e, h] at h3; simp [PC.isDone] at h3
        rw [if_neg hxn]
        refine ⟨h1, h2, h3, h4.imp id ?_⟩
        rintro ⟨p, cs', o', h5, h6⟩
        have hpn : p ≠ n := fun e => by rw [e, h] at h6; cases h6
        exact ⟨p, cs', o', h5, by rw [if_neg hpn]; exact h6⟩
    constructor <;> simp only [upd_apply]
    case lockB => exact hl
    all_goals clear hl; grind [PC.isDone, PC.pubd]
  | orphanSkip n c cs o h free hc =>
    have hk := i8 n (c :: cs) o (.inl h)
    have hc0 := hk c (by simp)
    have hcs : ∀ x ∈ cs, W.parent x = some n ∧ (s.pc x).pubd = true := fun x hx => hk x (by simp [hx])
    have hcn : c ≠ n := fun e => by have := hold c n hc0.1; omega
    have hf := i6 n o (.inl ⟨_, h⟩)
    clear hk
    constructor <;> simp only [upd_apply] <;> grind [PC.isDone, PC.pubd]
  | orphanInsert n c cs o h =>
    have hc := i1 n c cs o h
    have hcs := i8 n cs o (.inr ⟨c, h⟩)
    have hcn : c ≠ n := fun e => by have := hold c n hc.2.2.1; omega
    have hf := i6 n o (.inr (.inl ⟨c, cs, h⟩))
    have hcl := i3 c hc.1
    constructor <;> simp only [upd_apply] <;> grind [PC.isDone, PC.pubd, mem_put, nodup_put]
  | orphanDone n o h =>
    constructor <;> simp only [upd_apply] <;> grind [PC.isDone, PC.pubd]
  | leaveParent n p o h hp free =>
    constructor <;> simp only [upd_apply] <;> grind [PC.isDone, PC.pubd]
  | leaveRoots n o h hp =>
    constructor <;> simp only [upd_apply] <;> grind [PC.isDone, PC.pubd]
  | unorphan n h =>
    constructor <;> simp only [upd_apply] <;> grind [PC.isDone, PC.pubd, mem_drop, nodup_drop]
  | dec n h =>
    constructor <;> simp only [upd_apply] <;> grind [PC.isDone, PC.pubd]

end Monkit.Spans
