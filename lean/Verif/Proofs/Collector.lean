import Verif.Spec.Collector

namespace Monkit.Collector
open Go

theorem starts_append (a b : List Ev) : starts (a ++ b) = starts a ++ starts b := by
  induction a with
  | nil => rfl
  | cons e es ih => cases e <;> simp [starts, ih]

def PC.holds : PC → Bool
  | .froot _ _ | .fset _ _ | .fout _ | .frootOut _ => true
  | _ => false

def PC.closing : PC → Bool
  | .close _ => true
  | _ => false

/-- About to stop because the span `x` finished. -/
def PC.rooting : PC → Bool
  | .frootOut _ | .swap (some _) => true
  | _ => false

/-- Loaded: the span finishing and the span collected for. -/
def PC.loaded : PC → Option (Nat × Nat)
  | .fwait y x | .froot y x | .fset y x => some (y, x)
  | _ => none

structure Base (traceOf : Nat → Nat) (tr : List Ev) (s : State) : Prop where
  mtx : ∀ t, s.mtx = some t ↔ (s.pc t).holds = true
  unset : s.check = .unset → starts tr = []
  span : ∀ x, s.check = .span x → starts tr = [x]
  atMost : (starts tr).length ≤ 1
  loaded : ∀ t y x, (s.pc t).loaded = some (y, x) → starts tr = [x] ∧ traceOf x = traceOf y ∧ s.check ≠ .unset
  closing : ∀ t, (s.pc t).closing = true → s.closes = 0 ∧ s.check = .done
  closing1 : ∀ t u, (s.pc t).closing = true → (s.pc u).closing = true → t = u
  closes : s.closes ≤ 1
  closed : s.closes = 1 → s.check = .done
  done : s.check = .done → s.closes = 1 ∨ ∃ t, (s.pc t).closing = true
  root : ∀ x, s.root = some x → starts tr = [x] ∧ (s.check = .done ∨ ∃ t, (s.pc t).rooting = true)
  ret : ∀ t y, s.pc t = .ret y → s.check = .done
  stopRet : ∀ t, Ev.stopRet t ∈ tr → s.check = .done
  fsetRoot : ∀ t y x, s.pc t = .fset y x → s.root = none

theorem upd_apply {α : Type} (f : Nat → α) (t : Nat) (v : α) (t' : Nat) :
    upd f t v t' = if t' = t then v else f t' := rfl

theorem base_init (traceOf : Nat → Nat) : Base traceOf [] init := by
  constructor <;> intros <;> simp_all [init, PC.holds, PC.loaded, PC.closing, starts]

theorem other {s : State} (i4 : ∀ t, s.mtx = some t ↔ (s.pc t).holds = true) {t : Nat}
    (ht : (s.pc t).holds = true) (u : Nat) (hu : u ≠ t) : (s.pc u).holds = false := by
  cases h : (s.pc u).holds with
  | false => rfl
  | true =>
    have h1 := (i4 t).mpr ht
    have h2 := (i4 u).mpr h
    rw [h1] at h2; exact absurd (Option.some.inj h2).symm hu

set_option maxHeartbeats 1000000 in
theorem base_step {traceOf : Nat → Nat} {tr : List Ev} {s s' : State} {e : Option Ev} (i : Base traceOf tr s)
    (st : Step traceOf s e s') : Base traceOf (tr ++ e.toList) s' := by
  have oth := fun {t} ht u hu => other i.mtx (t := t) ht u hu
  obtain ⟨i1, i2, i3, i4, i5, i6, i7, i8, i9, i10, i11, i12, i13, i14⟩ := i
  cases st with
  | start t y h =>
    constructor <;> simp only [upd_apply, Option.toList_none, Option.toList_some, List.append_nil, starts_append, starts, retEv] <;>
      grind [PC.holds, PC.loaded, PC.closing, PC.rooting]
  | sloadSet t y h c =>
    constructor <;> simp only [upd_apply, Option.toList_none, Option.toList_some, List.append_nil, starts_append, starts, retEv] <;>
      grind [PC.holds, PC.loaded, PC.closing, PC.rooting]
  | sloadNil t y h c =>
    constructor <;> simp only [upd_apply, Option.toList_none, Option.toList_some, List.append_nil, starts_append, starts, retEv] <;>
      grind [PC.holds, PC.loaded, PC.closing, PC.rooting]
  | smatchNo t y h =>
    constructor <;> simp only [upd_apply, Option.toList_none, Option.toList_some, List.append_nil, starts_append, starts, retEv] <;>
      grind [PC.holds, PC.loaded, PC.closing, PC.rooting]
  | smatchYes t y h =>
    constructor <;> simp only [upd_apply, Option.toList_none, Option.toList_some, List.append_nil, starts_append, starts, retEv] <;>
      grind [PC.holds, PC.loaded, PC.closing, PC.rooting]
  | force t y h =>
    constructor <;> simp only [upd_apply, Option.toList_none, Option.toList_some, List.append_nil, starts_append, starts, retEv] <;>
      grind [PC.holds, PC.loaded, PC.closing, PC.rooting]
  | scasOk t y h c =>
    constructor <;> simp only [upd_apply, Option.toList_none, Option.toList_some, List.append_nil, starts_append, starts, retEv] <;>
      grind [PC.holds, PC.loaded, PC.closing, PC.rooting]
  | scasNo t y h c =>
    constructor <;> simp only [upd_apply, Option.toList_none, Option.toList_some, List.append_nil, starts_append, starts, retEv] <;>
      grind [PC.holds, PC.loaded, PC.closing, PC.rooting]
  | finish t y h =>
    constructor <;> simp only [upd_apply, Option.toList_none, Option.toList_some, List.append_nil, starts_append, starts, retEv] <;>
      grind [PC.holds, PC.loaded, PC.closing, PC.rooting]
  | floadNo t y h c =>
    constructor <;> simp only [upd_apply, Option.toList_none, Option.toList_some, List.append_nil, starts_append, starts, retEv] <;>
      grind [PC.holds, PC.loaded, PC.closing, PC.rooting]
  | floadYes t y x h c c' =>
    constructor <;> simp only [upd_apply, Option.toList_none, Option.toList_some, List.append_nil, starts_append, starts, retEv] <;>
      grind [PC.holds, PC.loaded, PC.closing, PC.rooting]
  | flock t y x h free =>
    constructor <;> simp only [upd_apply, Option.toList_none, Option.toList_some, List.append_nil, starts_append, starts, retEv] <;>
      grind [PC.holds, PC.loaded, PC.closing, PC.rooting]
  | frootSet t y x h c =>
    have o := oth (t := t) (by rw [h]; rfl)
    have m := (i1 t).mpr (by rw [h]; rfl)
    constructor <;> simp only [upd_apply, Option.toList_none, Option.toList_some, List.append_nil, starts_append, starts, retEv] <;>
      grind [PC.holds, PC.loaded, PC.closing, PC.rooting]
  | frootNil t y x h c =>
    have o := oth (t := t) (by rw [h]; rfl)
    have m := (i1 t).mpr (by rw [h]; rfl)
    constructor <;> simp only [upd_apply, Option.toList_none, Option.toList_some, List.append_nil, starts_append, starts, retEv] <;>
      grind [PC.holds, PC.loaded, PC.closing, PC.rooting]
  | fsetRoot t y x h c =>
    have w : ∃ u, (if u = t then PC.frootOut y else s.pc u).rooting = true := ⟨t, by rw [if_pos rfl]; rfl⟩
    have w2 := i5 t y x (by rw [h]; rfl)
    have o := oth (t := t) (by rw [h]; rfl)
    have m := (i1 t).mpr (by rw [h]; rfl)
    constructor <;> simp only [upd_apply, Option.toList_none, Option.toList_some, List.append_nil, starts_append, starts, retEv] <;>
      grind [PC.holds, PC.loaded, PC.closing, PC.rooting]
  | fsetColl t y x h c =>
    have o := oth (t := t) (by rw [h]; rfl)
    have m := (i1 t).mpr (by rw [h]; rfl)
    constructor <;> simp only [upd_apply, Option.toList_none, Option.toList_some, List.append_nil, starts_append, starts, retEv] <;>
      grind [PC.holds, PC.loaded, PC.closing, PC.rooting]
  | fout t y h =>
    have o := oth (t := t) (by rw [h]; rfl)
    have m := (i1 t).mpr (by rw [h]; rfl)
    constructor <;> simp only [upd_apply, Option.toList_none, Option.toList_some, List.append_nil, starts_append, starts, retEv] <;>
      grind [PC.holds, PC.loaded, PC.closing, PC.rooting]
  | frootOut t y h =>
    have o := oth (t := t) (by rw [h]; rfl)
    have m := (i1 t).mpr (by rw [h]; rfl)
    constructor <;> simp only [upd_apply, Option.toList_none, Option.toList_some, List.append_nil, starts_append, starts, retEv] <;>
      grind [PC.holds, PC.loaded, PC.closing, PC.rooting]
  | stop t h =>
    constructor <;> simp only [upd_apply, Option.toList_none, Option.toList_some, List.append_nil, starts_append, starts, retEv] <;>
      grind [PC.holds, PC.loaded, PC.closing, PC.rooting]
  | swapDone t y h c =>
    constructor <;> simp only [upd_apply, Option.toList_none, Option.toList_some, List.append_nil, starts_append, starts, retEv] <;>
      grind [PC.holds, PC.loaded, PC.closing, PC.rooting]
  | swapNew t y h c =>
    constructor <;> simp only [upd_apply, Option.toList_none, Option.toList_some, List.append_nil, starts_append, starts, retEv] <;>
      grind [PC.holds, PC.loaded, PC.closing, PC.rooting]
  | close t y h =>
    constructor <;> simp only [upd_apply, Option.toList_none, Option.toList_some, List.append_nil, starts_append, starts, retEv] <;>
      grind [PC.holds, PC.loaded, PC.closing, PC.rooting]
  | ret t y h =>
    cases y <;>
    constructor <;> simp only [upd_apply, Option.toList_none, Option.toList_some, List.append_nil, starts_append, starts, retEv] <;>
      grind [PC.holds, PC.loaded, PC.closing, PC.rooting]

theorem finishes_append (a b : List Ev) : finishes (a ++ b) = finishes a ++ finishes b := by
  induction a with
  | nil => rfl
  | cons e es ih => cases e <;> simp [finishes, ih]

/-- In `Finish(y)`, and not beyond the point where it is recorded. -/
def PC.finishing : PC → Option Nat
  | .fload y | .fwait y _ | .froot y _ | .fset y _ => some y
  | _ => none

structure Coll (traceOf : Nat → Nat) (tr : List Ev) (s : State) : Prop where
  inFin : ∀ t y, (s.pc t).inFinish = some y → y ∈ finishes tr
  stopping : ∀ t, (s.pc t).stopping = true → ∃ u, Ev.stopCall u ∈ tr
  rooting : ∀ t y, (s.pc t = .frootOut y ∨ s.pc t = .swap (some y) ∨ s.pc t = .close (some y)) → starts tr = [y]
  ending : s.check = .done → (∃ u, Ev.stopCall u ∈ tr) ∨ ∃ x, starts tr = [x] ∧ x ∈ finishes tr
  endRoot : ∀ x, s.root = some x → x ∈ finishes tr
  coll : ∀ y ∈ s.coll, y ∈ finishes tr ∧ ∃ x, starts tr = [x] ∧ traceOf x = traceOf y ∧ x ≠ y
  nodup : (finishes tr).Nodup → s.coll.Nodup
  apart : (finishes tr).Nodup → ∀ t y, (s.pc t).finishing = some y → y ∉ s.coll
  uniq : (finishes tr).Nodup → ∀ t u y, (s.pc t).finishing = some y → (s.pc u).finishing = some y → t = u

theorem coll_init (traceOf : Nat → Nat) : Coll traceOf [] init := by
  constructor <;> intros <;> simp_all [init, PC.inFinish, PC.stopping, PC.finishing, starts, finishes]

set_option maxHeartbeats 1000000 in
theorem coll_step {traceOf : Nat → Nat} {tr : List Ev} {s s' : State} {e : Option Ev} (b : Base traceOf tr s)
    (i : Coll traceOf tr s)
    (st : Step traceOf s e s') : Coll traceOf (tr ++ e.toList) s' := by
  have b2 := b.unset
  have b3 := b.span
  have b5 := b.loaded
  obtain ⟨i1, i2, i3, i4, i5, i6, i7, i8, i9⟩ := i
  cases st with
  | start t y h =>
    constructor <;> simp only [upd_apply, Option.toList_none, Option.toList_some, List.append_nil, starts_append, starts, finishes_append, finishes, retEv] <;>
      grind [PC.inFinish, PC.loaded, PC.stopping, PC.finishing]
  | sloadSet t y h c =>
    constructor <;> simp only [upd_apply, Option.toList_none, Option.toList_some, List.append_nil, starts_append, starts, finishes_append, finishes, retEv] <;>
      grind [PC.inFinish, PC.loaded, PC.stopping, PC.finishing]
  | sloadNil t y h c =>
    constructor <;> simp only [upd_apply, Option.toList_none, Option.toList_some, List.append_nil, starts_append, starts, finishes_append, finishes, retEv] <;>
      grind [PC.inFinish, PC.loaded, PC.stopping, PC.finishing]
  | smatchNo t y h =>
    constructor <;> simp only [upd_apply, Option.toList_none, Option.toList_some, List.append_nil, starts_append, starts, finishes_append, finishes, retEv] <;>
      grind [PC.inFinish, PC.loaded, PC.stopping, PC.finishing]
  | smatchYes t y h =>
    constructor <;> simp only [upd_apply, Option.toList_none, Option.toList_some, List.append_nil, starts_append, starts, finishes_append, finishes, retEv] <;>
      grind [PC.inFinish, PC.loaded, PC.stopping, PC.finishing]
  | force t y h =>
    constructor <;> simp only [upd_apply, Option.toList_none, Option.toList_some, List.append_nil, starts_append, starts, finishes_append, finishes, retEv] <;>
      grind [PC.inFinish, PC.loaded, PC.stopping, PC.finishing]
  | scasOk t y h c =>
    constructor <;> simp only [upd_apply, Option.toList_none, Option.toList_some, List.append_nil, starts_append, starts, finishes_append, finishes, retEv] <;>
      grind [PC.inFinish, PC.loaded, PC.stopping, PC.finishing]
  | scasNo t y h c =>
    constructor <;> simp only [upd_apply, Option.toList_none, Option.toList_some, List.append_nil, starts_append, starts, finishes_append, finishes, retEv] <;>
      grind [PC.inFinish, PC.loaded, PC.stopping, PC.finishing]
  | finish t y h =>
    have nf : (finishes tr ++ [y]).Nodup → y ∉ finishes tr := by
      intro hn hm
      rw [List.nodup_append] at hn
      exact hn.2.2 y hm y (by simp) rfl
    have fi : ∀ u z, (s.pc u).finishing = some z → z ∈ finishes tr := by
      intro u z hu
      refine i1 u z ?_
      cases hp : s.pc u <;> rw [hp] at hu <;> first | exact hu | simp [PC.finishing] at hu
    constructor <;> simp only [upd_apply, Option.toList_none, Option.toList_some, List.append_nil, starts_append, starts, finishes_append, finishes, retEv] <;>
      grind [PC.inFinish, PC.loaded, PC.stopping, PC.finishing]
  | floadNo t y h c =>
    constructor <;> simp only [upd_apply, Option.toList_none, Option.toList_some, List.append_nil, starts_append, starts, finishes_append, finishes, retEv] <;>
      grind [PC.inFinish, PC.loaded, PC.stopping, PC.finishing]
  | floadYes t y x h c c' =>
    constructor <;> simp only [upd_apply, Option.toList_none, Option.toList_some, List.append_nil, starts_append, starts, finishes_append, finishes, retEv] <;>
      grind [PC.inFinish, PC.loaded, PC.stopping, PC.finishing]
  | flock t y x h free =>
    constructor <;> simp only [upd_apply, Option.toList_none, Option.toList_some, List.append_nil, starts_append, starts, finishes_append, finishes, retEv] <;>
      grind [PC.inFinish, PC.loaded, PC.stopping, PC.finishing]
  | frootSet t y x h c =>
    constructor <;> simp only [upd_apply, Option.toList_none, Option.toList_some, List.append_nil, starts_append, starts, finishes_append, finishes, retEv] <;>
      grind [PC.inFinish, PC.loaded, PC.stopping, PC.finishing]
  | frootNil t y x h c =>
    constructor <;> simp only [upd_apply, Option.toList_none, Option.toList_some, List.append_nil, starts_append, starts, finishes_append, finishes, retEv] <;>
      grind [PC.inFinish, PC.loaded, PC.stopping, PC.finishing]
  | fsetRoot t y x h c =>
    have w := b5 t y x (by rw [h]; rfl)
    constructor <;> simp only [upd_apply, Option.toList_none, Option.toList_some, List.append_nil, starts_append, starts, finishes_append, finishes, retEv] <;>
      grind [PC.inFinish, PC.loaded, PC.stopping, PC.finishing]
  | fsetColl t y x h c =>
    constructor <;> simp only [upd_apply, Option.toList_none, Option.toList_some, List.append_nil, starts_append, starts, finishes_append, finishes, retEv] <;>
      grind [PC.inFinish, PC.loaded, PC.stopping, PC.finishing]
  | fout t y h =>
    constructor <;> simp only [upd_apply, Option.toList_none, Option.toList_some, List.append_nil, starts_append, starts, finishes_append, finishes, retEv] <;>
      grind [PC.inFinish, PC.loaded, PC.stopping, PC.finishing]
  | frootOut t y h =>
    constructor <;> simp only [upd_apply, Option.toList_none, Option.toList_some, List.append_nil, starts_append, starts, finishes_append, finishes, retEv] <;>
      grind [PC.inFinish, PC.loaded, PC.stopping, PC.finishing]
  | stop t h =>
    constructor <;> simp only [upd_apply, Option.toList_none, Option.toList_some, List.append_nil, starts_append, starts, finishes_append, finishes, retEv] <;>
      grind [PC.inFinish, PC.loaded, PC.stopping, PC.finishing]
  | swapDone t y h c =>
    cases y <;>
    constructor <;> simp only [upd_apply, Option.toList_none, Option.toList_some, List.append_nil, starts_append, starts, finishes_append, finishes, retEv] <;>
      grind [PC.inFinish, PC.loaded, PC.stopping, PC.finishing]
  | swapNew t y h c =>
    have w := fun z => i3 t z
    have w2 := i2 t
    cases y <;>
    constructor <;> simp only [upd_apply, Option.toList_none, Option.toList_some, List.append_nil, starts_append, starts, finishes_append, finishes, retEv] <;>
      grind [PC.inFinish, PC.loaded, PC.stopping, PC.finishing]
  | close t y h =>
    cases y <;>
    constructor <;> simp only [upd_apply, Option.toList_none, Option.toList_some, List.append_nil, starts_append, starts, finishes_append, finishes, retEv] <;>
      grind [PC.inFinish, PC.loaded, PC.stopping, PC.finishing]
  | ret t y h =>
    cases y <;>
    constructor <;> simp only [upd_apply, Option.toList_none, Option.toList_some, List.append_nil, starts_append, starts, finishes_append, finishes, retEv] <;>
      grind [PC.inFinish, PC.loaded, PC.stopping, PC.finishing]

end Monkit.Collector
