import Verif.Model.Spans
import Verif.Props.SpanBag

namespace Monkit.Spans
open Go

/-- The span has been entered in its parent's bag or the roots. -/
def PC.pubd : PC → Bool
  | .new | .inc | .pub => false
  | _ => true

/-- … and not been taken out again. -/
def PC.live : PC → Bool
  | .new | .inc | .pub | .unorphan | .dec | .over => false
  | _ => true

/-- Marked done. -/
def PC.isDone : PC → Bool
  | .orphan _ _ | .insert _ _ _ | .leave _ | .unorphan | .dec | .over => true
  | _ => false

/-- The span can have children. -/
def PC.ready : PC → Bool
  | .new | .inc | .pub => false
  | _ => true

/-- Counted in and not out. -/
def PC.counted : PC → Bool
  | .new | .inc | .over => false
  | _ => true

structure InvA (W : World) (s : State) : Prop where
  done : ∀ n, s.done n = (s.pc n).isDone
  bagOk : ∀ p, (s.bag p).Ok
  bag : ∀ p c, (s.bag p).count c = if W.parent c = some p ∧ (s.pc c).live = true then 1 else 0
  rootsN : ∀ r, (s.roots r).Nodup
  roots : ∀ r n, n ∈ s.roots r ↔ W.reg n = r ∧ W.parent n = none ∧ (s.pc n).live = true
  par : ∀ n p, s.pc n ≠ .new → W.parent n = some p → (s.pc p).ready = true

theorem upd_apply {α : Type} (f : Nat → α) (t : Nat) (v : α) (t' : Nat) :
    upd f t v t' = if t' = t then v else f t' := rfl

theorem mem_put (x s : Nat) (m : List Nat) : x ∈ put s m ↔ x = s ∨ x ∈ m := by
  unfold put; split
  · constructor
    · exact .inr
    · rintro (rfl | h) <;> assumption
  · exact List.mem_cons

theorem nodup_put (s : Nat) {m : List Nat} (h : m.Nodup) : (put s m).Nodup := by
  unfold put; split
  · exact h
  · exact List.nodup_cons.mpr ⟨by assumption, h⟩

theorem mem_drop (x s : Nat) (m : List Nat) : x ∈ drop s m ↔ x ≠ s ∧ x ∈ m := by
  unfold drop; rw [List.mem_filter]; simp [and_comm]

theorem nodup_drop (s : Nat) {m : List Nat} (h : m.Nodup) : (drop s m).Nodup := h.filter _

theorem ready_iff (pc : PC) : pc.ready = true ↔
    pc ≠ .new ∧ pc ≠ .inc ∧ pc ≠ .pub := by
  cases pc <;> simp [PC.ready]

theorem invA_init (W : World) : InvA W init := by
  constructor <;> simp [init, PC.isDone, SpanBag.ok_empty, SpanBag.count_empty, PC.live]

theorem invA_step {W : World} {s s' : State} (i : InvA W s) (st : Step W s s') : InvA W s' := by
  obtain ⟨i1, i2, i3, i4, i5, i6⟩ := i
  cases st with
  | create n h hp =>
    constructor <;> simp only [upd_apply] <;> grind [PC.isDone, PC.live, PC.ready]
  | inc n h =>
    constructor <;> simp only [upd_apply] <;> grind [PC.isDone, PC.live, PC.ready]
  | root n h hp =>
    constructor <;> simp only [upd_apply] <;> grind [PC.isDone, PC.live, PC.ready, mem_put, nodup_put]
  | child n p h hp free =>
    have hc : (s.bag p).count n = 0 := by rw [i3, h]; simp [PC.live]
    have hb := SpanBag.add_spec (i2 p) n (by rw [hc]; decide)
    constructor <;> simp only [upd_apply] <;> grind [PC.isDone, PC.live, PC.ready]
  | selfMark n h free hn =>
    constructor <;> simp only [upd_apply] <;> grind [PC.isDone, PC.live, PC.ready]
  | selfSkip n h free hn =>
    constructor <;> simp only [upd_apply] <;> grind [PC.isDone, PC.live, PC.ready]
  | selfInsert n h =>
    constructor <;> simp only [upd_apply] <;> grind [PC.isDone, PC.live, PC.ready]
  | exit n h =>
    constructor <;> simp only [upd_apply] <;> grind [PC.isDone, PC.live, PC.ready]
  | mark n ord h free hord =>
    constructor <;> simp only [upd_apply] <;> grind [PC.isDone, PC.live, PC.ready]
  | orphanMark n c cs o h free hc =>
    constructor <;> simp only [upd_apply] <;> grind [PC.isDone, PC.live, PC.ready]
  | orphanSkip n c cs o h free hc =>
    constructor <;> simp only [upd_apply] <;> grind [PC.isDone, PC.live, PC.ready]
  | orphanInsert n c cs o h =>
    constructor <;> simp only [upd_apply] <;> grind [PC.isDone, PC.live, PC.ready]
  | orphanDone n o h =>
    constructor <;> simp only [upd_apply] <;> grind [PC.isDone, PC.live, PC.ready]
  | leaveParent n p o h hp free =>
    have hc : (s.bag p).count n = 1 := by rw [i3, h]; simp [PC.live, hp]
    have hb := SpanBag.remove_spec (i2 p) n (by rw [hc]; decide)
    constructor <;> simp only [upd_apply] <;> grind [PC.isDone, PC.live, PC.ready]
  | leaveRoots n o h hp =>
    constructor <;> simp only [upd_apply] <;> grind [PC.isDone, PC.live, PC.ready, mem_drop, nodup_drop]
  | unorphan n h =>
    constructor <;> simp only [upd_apply] <;> grind [PC.isDone, PC.live, PC.ready]
  | dec n h =>
    constructor <;> simp only [upd_apply] <;> grind [PC.isDone, PC.live, PC.ready]

end Monkit.Spans
