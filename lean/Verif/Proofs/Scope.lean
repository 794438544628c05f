import Verif.Spec.Scope

namespace Monkit.Scope
open Go Spec

def PC.holds : PC → Bool
  | .locked .. | .absent .. | .unlock .. | .gLocked _ | .gFree _ | .gUnlock .. | .cLocked _ | .cUnlock _
  | .sLocked | .sUnlock | .sLocked2 | .sUnlock2 => true
  | _ => false

def PC.reads : PC → Bool
  | .reading .. | .read .. => true
  | _ => false

def PC.kind : PC → Option Kind
  | .rlock k | .reading k | .read k _ | .wlock k | .locked k | .absent k | .unlock k _ | .got k _ => some k.kind
  | _ => none

def PC.call : PC → Option Call
  | .rlock k | .reading k | .read k _ | .wlock k | .locked k | .absent k | .unlock k _ | .got k _ => some k
  | _ => none

def PC.carried : PC → Option (Str × Obj)
  | .read c (some o) | .unlock c o | .got c o => some (c.key, o)
  | _ => none

def PC.absentName : PC → Option Str
  | .absent c => some c.key
  | _ => none

def PC.freeName : PC → Option Str
  | .gFree n => some n
  | _ => none

def PC.badName : PC → Option Str
  | .gUnlock n true => some n
  | _ => none

/-- Is it something other than a gauge? -/
def solid : Option Obj → Bool
  | some o => decide (o.kind ≠ .gauge)
  | none => false

structure Inv (tr : List Ev) (s : State) : Prop where
  tab : ∀ n, Map.get s.sources n = table tr n
  pend : ∀ t, pending tr t none = (s.pc t).call
  chains : s.chains = chained tr
  ok : Map.Ok s.sources
  lock : ∀ t, (s.pc t).holds = true → s.writer = some t
  kinds : ∀ t k, (s.pc t).kind = some k → k ≠ .gauge
  carrySolid : ∀ t n o, (s.pc t).carried = some (n, o) → o.kind ≠ .gauge → Map.get s.sources n = some o
  carryGauge : ∀ t n o, (s.pc t).carried = some (n, o) → o.kind = .gauge → (Map.get s.sources n).map (·.kind) = some .gauge
  absent : ∀ t n, (s.pc t).absentName = some n → Map.get s.sources n = none
  free : ∀ t n, (s.pc t).freeName = some n → solid (Map.get s.sources n) = false
  bad : ∀ t n, (s.pc t).badName = some n → solid (Map.get s.sources n) = true
  rd : ∀ t, (s.pc t).reads = true → t ∈ s.readers
  excl : s.writer ≠ none → s.readers = []
  wr : ∀ t, s.writer = some t → (s.pc t).holds = true
  rdr : ∀ t, t ∈ s.readers → (s.pc t).reads = true
  nodup : s.readers.Nodup
  fresh : ∀ x ∈ tr, ∀ n o, puts x = some (n, o) → o.id < s.next

theorem table_snoc (h : List Ev) (e : Ev) (n : Str) :
    table (h ++ [e]) n = match puts e with
      | some (m, o) => if m = n then some o else table h n
      | none => table h n := by
  unfold table
  rw [List.filterMap_append, List.reverse_append]
  cases hp : puts e with
  | none => simp [hp]
  | some x =>
    obtain ⟨m, o⟩ := x
    by_cases hm : m = n
    · simp [hp, hm]
    · simp [hp, hm]

theorem chained_snoc (h : List Ev) (e : Ev) :
    chained (h ++ [e]) = chained h ++ (match e with | .chain _ c => [c] | _ => []) := by
  unfold chained
  rw [List.filterMap_append]
  cases e <;> rfl

theorem upd_apply {α : Type} (f : Nat → α) (t : Nat) (v : α) (t' : Nat) : upd f t v t' = if t' = t then v else f t' := rfl

theorem mem_erase' {l : List Nat} {t u : Nat} (h : u ≠ t) : u ∈ l.erase t ↔ u ∈ l := List.mem_erase_of_ne h

theorem inv_init : Inv [] State.init := by
  constructor <;> simp [State.init, PC.holds, PC.reads, PC.kind, PC.call, PC.carried, PC.absentName, PC.freeName, PC.badName, table, chained, pending, Map.ok_nil]

theorem other {s : State} (hl : ∀ t, (s.pc t).holds = true → s.writer = some t) {t u : Nat} (ht : (s.pc t).holds = true) (hu : (s.pc u).holds = true) : u = t := by
  have h1 := hl t ht
  have h2 := hl u hu
  rw [h1] at h2
  exact (Option.some.inj h2).symm

theorem PC.absent_holds {p : PC} {n : Str} (h : p.absentName = some n) : p.holds = true := by
  cases p <;> first | rfl | cases h

theorem PC.free_holds {p : PC} {n : Str} (h : p.freeName = some n) : p.holds = true := by
  cases p <;> first | rfl | cases h

theorem PC.bad_holds {p : PC} {n : Str} (h : p.badName = some n) : p.holds = true := by
  cases p <;> first | rfl | cases h

theorem pending_snoc (h : List Ev) (e : Ev) (t : Nat) (r : Option Call) :
    pending (h ++ [e]) t r = match e with
      | .call t' c => if t' = t then some c else pending h t r
      | .ret t' _ _ => if t' = t then none else pending h t r
      | .panic t' _ => if t' = t then none else pending h t r
      | _ => pending h t r := by
  induction h generalizing r with
  | nil => cases e <;> simp [pending]
  | cons x h ih => cases x <;> simp only [List.cons_append, pending, ih]

theorem put_none {e : Ev} (h : puts e = none) (tr : List Ev) (n : Str) : table (tr ++ [e]) n = table tr n := by
  rw [table_snoc, h]

theorem chained_none {e : Ev} (h : ∀ t c, e ≠ .chain t c) (tr : List Ev) : chained (tr ++ [e]) = chained tr := by
  rw [chained_snoc]
  cases e <;> simp at h ⊢

set_option maxHeartbeats 2000000 in
theorem inv_step {tr : List Ev} {s : State} {e : Option Ev} {s' : State} (h : Inv tr s) (st : Step s e s') :
    Inv (tr ++ e.toList) s' := by
  cases st
  case call t c hp hk =>
    all_goals obtain ⟨i1, i0, i2, i3, i4, i5, i6, i7, i8, i9, i10, i12, i13, i14, i15, i16, i11⟩ := h
    all_goals constructor
    all_goals simp only [upd_apply, Option.toList_none, Option.toList_some, List.append_nil, table_snoc, chained_snoc, pending_snoc, Map.get_set, List.mem_append, List.mem_singleton]
    all_goals grind [PC.holds, PC.reads, PC.kind, PC.call, PC.carried, PC.absentName, PC.freeName, PC.badName, solid, puts, mem_erase', List.nodup_cons, List.Nodup.mem_erase_iff, List.Nodup.erase]
  case rlock t c hp hw =>
    all_goals obtain ⟨i1, i0, i2, i3, i4, i5, i6, i7, i8, i9, i10, i12, i13, i14, i15, i16, i11⟩ := h
    all_goals constructor
    all_goals simp only [upd_apply, Option.toList_none, Option.toList_some, List.append_nil, table_snoc, chained_snoc, pending_snoc, Map.get_set, List.mem_append, List.mem_singleton]
    all_goals grind [PC.holds, PC.reads, PC.kind, PC.call, PC.carried, PC.absentName, PC.freeName, PC.badName, solid, puts, mem_erase', List.nodup_cons, List.Nodup.mem_erase_iff, List.Nodup.erase]
  case read t c hp =>
    rcases hg : Map.get s.sources c.key with _ | o
    all_goals obtain ⟨i1, i0, i2, i3, i4, i5, i6, i7, i8, i9, i10, i12, i13, i14, i15, i16, i11⟩ := h
    all_goals constructor
    all_goals simp only [upd_apply, Option.toList_none, Option.toList_some, List.append_nil, table_snoc, chained_snoc, pending_snoc, Map.get_set, List.mem_append, List.mem_singleton]
    all_goals grind [PC.holds, PC.reads, PC.kind, PC.call, PC.carried, PC.absentName, PC.freeName, PC.badName, solid, puts, mem_erase', List.nodup_cons, List.Nodup.mem_erase_iff, List.Nodup.erase]
  case runlockSome t c o hp =>
    all_goals obtain ⟨i1, i0, i2, i3, i4, i5, i6, i7, i8, i9, i10, i12, i13, i14, i15, i16, i11⟩ := h
    all_goals constructor
    all_goals simp only [upd_apply, Option.toList_none, Option.toList_some, List.append_nil, table_snoc, chained_snoc, pending_snoc, Map.get_set, List.mem_append, List.mem_singleton]
    all_goals grind [PC.holds, PC.reads, PC.kind, PC.call, PC.carried, PC.absentName, PC.freeName, PC.badName, solid, puts, mem_erase', List.nodup_cons, List.Nodup.mem_erase_iff, List.Nodup.erase]
  case runlockNone t c hp =>
    all_goals obtain ⟨i1, i0, i2, i3, i4, i5, i6, i7, i8, i9, i10, i12, i13, i14, i15, i16, i11⟩ := h
    all_goals constructor
    all_goals simp only [upd_apply, Option.toList_none, Option.toList_some, List.append_nil, table_snoc, chained_snoc, pending_snoc, Map.get_set, List.mem_append, List.mem_singleton]
    all_goals grind [PC.holds, PC.reads, PC.kind, PC.call, PC.carried, PC.absentName, PC.freeName, PC.badName, solid, puts, mem_erase', List.nodup_cons, List.Nodup.mem_erase_iff, List.Nodup.erase]
  case wlock t c hp hw hr =>
    all_goals obtain ⟨i1, i0, i2, i3, i4, i5, i6, i7, i8, i9, i10, i12, i13, i14, i15, i16, i11⟩ := h
    all_goals constructor
    all_goals simp only [upd_apply, Option.toList_none, Option.toList_some, List.append_nil, table_snoc, chained_snoc, pending_snoc, Map.get_set, List.mem_append, List.mem_singleton]
    all_goals grind [PC.holds, PC.reads, PC.kind, PC.call, PC.carried, PC.absentName, PC.freeName, PC.badName, solid, puts, mem_erase', List.nodup_cons, List.Nodup.mem_erase_iff, List.Nodup.erase]
  case again t c hp =>
    have oth := fun u hu => other h.lock (t := t) (u := u) (by rw [hp]; rfl) hu
    have oa := fun u m hu => oth u (PC.absent_holds (n := m) hu)
    have ofr := fun u m hu => oth u (PC.free_holds (n := m) hu)
    have ob := fun u m hu => oth u (PC.bad_holds (n := m) hu)
    rcases hg : Map.get s.sources c.key with _ | o
    all_goals obtain ⟨i1, i0, i2, i3, i4, i5, i6, i7, i8, i9, i10, i12, i13, i14, i15, i16, i11⟩ := h
    all_goals constructor
    all_goals simp only [upd_apply, Option.toList_none, Option.toList_some, List.append_nil, table_snoc, chained_snoc, pending_snoc, Map.get_set, List.mem_append, List.mem_singleton]
    all_goals grind [PC.holds, PC.reads, PC.kind, PC.call, PC.carried, PC.absentName, PC.freeName, PC.badName, solid, puts, mem_erase', List.nodup_cons, List.Nodup.mem_erase_iff, List.Nodup.erase]
  case make t c hp =>
    have oth := fun u hu => other h.lock (t := t) (u := u) (by rw [hp]; rfl) hu
    have oa := fun u m hu => oth u (PC.absent_holds (n := m) hu)
    have ofr := fun u m hu => oth u (PC.free_holds (n := m) hu)
    have ob := fun u m hu => oth u (PC.bad_holds (n := m) hu)
    all_goals obtain ⟨i1, i0, i2, i3, i4, i5, i6, i7, i8, i9, i10, i12, i13, i14, i15, i16, i11⟩ := h
    all_goals constructor
    all_goals simp only [upd_apply, Option.toList_none, Option.toList_some, List.append_nil, table_snoc, chained_snoc, pending_snoc, Map.get_set, List.mem_append, List.mem_singleton]
    case ok => exact Map.ok_set i3 _ _
    case carryGauge =>
      intro u m o hu hk
      have i8' := i8 t c.key (by rw [hp]; rfl)
      have i5' := i5 t c.kind (by rw [hp]; rfl)
      by_cases hut : u = t
      · rw [if_pos hut] at hu
        simp only [PC.carried, Option.some.injEq, Prod.mk.injEq] at hu
        rw [← hu.2] at hk
        exact absurd hk i5'
      · rw [if_neg hut] at hu
        have := i7 u m o hu hk
        by_cases hm : c.key = m
        · rw [← hm, i8'] at this
          cases this
        · rw [if_neg hm]
          exact this
    all_goals grind [PC.holds, PC.reads, PC.kind, PC.call, PC.carried, PC.absentName, PC.freeName, PC.badName, solid, puts, mem_erase', List.nodup_cons, List.Nodup.mem_erase_iff, List.Nodup.erase]
  case unlock t c o hp =>
    have oth := fun u hu => other h.lock (t := t) (u := u) (by rw [hp]; rfl) hu
    have oa := fun u m hu => oth u (PC.absent_holds (n := m) hu)
    have ofr := fun u m hu => oth u (PC.free_holds (n := m) hu)
    have ob := fun u m hu => oth u (PC.bad_holds (n := m) hu)
    all_goals obtain ⟨i1, i0, i2, i3, i4, i5, i6, i7, i8, i9, i10, i12, i13, i14, i15, i16, i11⟩ := h
    all_goals constructor
    all_goals simp only [upd_apply, Option.toList_none, Option.toList_some, List.append_nil, table_snoc, chained_snoc, pending_snoc, Map.get_set, List.mem_append, List.mem_singleton]
    all_goals grind [PC.holds, PC.reads, PC.kind, PC.call, PC.carried, PC.absentName, PC.freeName, PC.badName, solid, puts, mem_erase', List.nodup_cons, List.Nodup.mem_erase_iff, List.Nodup.erase]
  case ret t c o hp hk =>
    all_goals obtain ⟨i1, i0, i2, i3, i4, i5, i6, i7, i8, i9, i10, i12, i13, i14, i15, i16, i11⟩ := h
    all_goals constructor
    all_goals simp only [upd_apply, Option.toList_none, Option.toList_some, List.append_nil, table_snoc, chained_snoc, pending_snoc, Map.get_set, List.mem_append, List.mem_singleton]
    all_goals grind [PC.holds, PC.reads, PC.kind, PC.call, PC.carried, PC.absentName, PC.freeName, PC.badName, solid, puts, mem_erase', List.nodup_cons, List.Nodup.mem_erase_iff, List.Nodup.erase]
  case panic t c o hp hk =>
    all_goals obtain ⟨i1, i0, i2, i3, i4, i5, i6, i7, i8, i9, i10, i12, i13, i14, i15, i16, i11⟩ := h
    all_goals constructor
    all_goals simp only [upd_apply, Option.toList_none, Option.toList_some, List.append_nil, table_snoc, chained_snoc, pending_snoc, Map.get_set, List.mem_append, List.mem_singleton]
    all_goals grind [PC.holds, PC.reads, PC.kind, PC.call, PC.carried, PC.absentName, PC.freeName, PC.badName, solid, puts, mem_erase', List.nodup_cons, List.Nodup.mem_erase_iff, List.Nodup.erase]
  case gCall t n hp =>
    all_goals obtain ⟨i1, i0, i2, i3, i4, i5, i6, i7, i8, i9, i10, i12, i13, i14, i15, i16, i11⟩ := h
    all_goals constructor
    all_goals simp only [upd_apply, Option.toList_none, Option.toList_some, List.append_nil, table_snoc, chained_snoc, pending_snoc, Map.get_set, List.mem_append, List.mem_singleton]
    all_goals grind [PC.holds, PC.reads, PC.kind, PC.call, PC.carried, PC.absentName, PC.freeName, PC.badName, solid, puts, mem_erase', List.nodup_cons, List.Nodup.mem_erase_iff, List.Nodup.erase]
  case gLock t n hp hw hr =>
    all_goals obtain ⟨i1, i0, i2, i3, i4, i5, i6, i7, i8, i9, i10, i12, i13, i14, i15, i16, i11⟩ := h
    all_goals constructor
    all_goals simp only [upd_apply, Option.toList_none, Option.toList_some, List.append_nil, table_snoc, chained_snoc, pending_snoc, Map.get_set, List.mem_append, List.mem_singleton]
    all_goals grind [PC.holds, PC.reads, PC.kind, PC.call, PC.carried, PC.absentName, PC.freeName, PC.badName, solid, puts, mem_erase', List.nodup_cons, List.Nodup.mem_erase_iff, List.Nodup.erase]
  case gOk t n hp hg =>
    have oth := fun u hu => other h.lock (t := t) (u := u) (by rw [hp]; rfl) hu
    have oa := fun u m hu => oth u (PC.absent_holds (n := m) hu)
    have ofr := fun u m hu => oth u (PC.free_holds (n := m) hu)
    have ob := fun u m hu => oth u (PC.bad_holds (n := m) hu)
    have hs : solid (Map.get s.sources n) = false := by
      rcases hq : Map.get s.sources n with _ | o
      · rfl
      · simp [solid, hg o hq]
    all_goals obtain ⟨i1, i0, i2, i3, i4, i5, i6, i7, i8, i9, i10, i12, i13, i14, i15, i16, i11⟩ := h
    all_goals constructor
    all_goals simp only [upd_apply, Option.toList_none, Option.toList_some, List.append_nil, table_snoc, chained_snoc, pending_snoc, Map.get_set, List.mem_append, List.mem_singleton]
    all_goals grind [PC.holds, PC.reads, PC.kind, PC.call, PC.carried, PC.absentName, PC.freeName, PC.badName, solid, puts, mem_erase', List.nodup_cons, List.Nodup.mem_erase_iff, List.Nodup.erase]
  case gBad t n o hp hg hk =>
    have oth := fun u hu => other h.lock (t := t) (u := u) (by rw [hp]; rfl) hu
    have oa := fun u m hu => oth u (PC.absent_holds (n := m) hu)
    have ofr := fun u m hu => oth u (PC.free_holds (n := m) hu)
    have ob := fun u m hu => oth u (PC.bad_holds (n := m) hu)
    all_goals obtain ⟨i1, i0, i2, i3, i4, i5, i6, i7, i8, i9, i10, i12, i13, i14, i15, i16, i11⟩ := h
    all_goals constructor
    all_goals simp only [upd_apply, Option.toList_none, Option.toList_some, List.append_nil, table_snoc, chained_snoc, pending_snoc, Map.get_set, List.mem_append, List.mem_singleton]
    all_goals grind [PC.holds, PC.reads, PC.kind, PC.call, PC.carried, PC.absentName, PC.freeName, PC.badName, solid, puts, mem_erase', List.nodup_cons, List.Nodup.mem_erase_iff, List.Nodup.erase]
  case gSet t n hp =>
    have oth := fun u hu => other h.lock (t := t) (u := u) (by rw [hp]; rfl) hu
    have oa := fun u m hu => oth u (PC.absent_holds (n := m) hu)
    have ofr := fun u m hu => oth u (PC.free_holds (n := m) hu)
    have ob := fun u m hu => oth u (PC.bad_holds (n := m) hu)
    all_goals obtain ⟨i1, i0, i2, i3, i4, i5, i6, i7, i8, i9, i10, i12, i13, i14, i15, i16, i11⟩ := h
    all_goals constructor
    all_goals simp only [upd_apply, Option.toList_none, Option.toList_some, List.append_nil, table_snoc, chained_snoc, pending_snoc, Map.get_set, List.mem_append, List.mem_singleton]
    case ok => exact Map.ok_set i3 _ _
    all_goals grind [PC.holds, PC.reads, PC.kind, PC.call, PC.carried, PC.absentName, PC.freeName, PC.badName, solid, puts, mem_erase', List.nodup_cons, List.Nodup.mem_erase_iff, List.Nodup.erase]
  case gUnlock t n b hp =>
    have oth := fun u hu => other h.lock (t := t) (u := u) (by rw [hp]; rfl) hu
    have oa := fun u m hu => oth u (PC.absent_holds (n := m) hu)
    have ofr := fun u m hu => oth u (PC.free_holds (n := m) hu)
    have ob := fun u m hu => oth u (PC.bad_holds (n := m) hu)
    cases b
    all_goals simp only [Bool.false_eq_true, if_true, if_false]
    all_goals obtain ⟨i1, i0, i2, i3, i4, i5, i6, i7, i8, i9, i10, i12, i13, i14, i15, i16, i11⟩ := h
    all_goals constructor
    all_goals simp only [upd_apply, Option.toList_none, Option.toList_some, List.append_nil, table_snoc, chained_snoc, pending_snoc, Map.get_set, List.mem_append, List.mem_singleton]
    all_goals grind [PC.holds, PC.reads, PC.kind, PC.call, PC.carried, PC.absentName, PC.freeName, PC.badName, solid, puts, mem_erase', List.nodup_cons, List.Nodup.mem_erase_iff, List.Nodup.erase]
  case cCall t c hp =>
    all_goals obtain ⟨i1, i0, i2, i3, i4, i5, i6, i7, i8, i9, i10, i12, i13, i14, i15, i16, i11⟩ := h
    all_goals constructor
    all_goals simp only [upd_apply, Option.toList_none, Option.toList_some, List.append_nil, table_snoc, chained_snoc, pending_snoc, Map.get_set, List.mem_append, List.mem_singleton]
    all_goals grind [PC.holds, PC.reads, PC.kind, PC.call, PC.carried, PC.absentName, PC.freeName, PC.badName, solid, puts, mem_erase', List.nodup_cons, List.Nodup.mem_erase_iff, List.Nodup.erase]
  case cLock t c hp hw hr =>
    all_goals obtain ⟨i1, i0, i2, i3, i4, i5, i6, i7, i8, i9, i10, i12, i13, i14, i15, i16, i11⟩ := h
    all_goals constructor
    all_goals simp only [upd_apply, Option.toList_none, Option.toList_some, List.append_nil, table_snoc, chained_snoc, pending_snoc, Map.get_set, List.mem_append, List.mem_singleton]
    all_goals grind [PC.holds, PC.reads, PC.kind, PC.call, PC.carried, PC.absentName, PC.freeName, PC.badName, solid, puts, mem_erase', List.nodup_cons, List.Nodup.mem_erase_iff, List.Nodup.erase]
  case cAppend t c hp =>
    have oth := fun u hu => other h.lock (t := t) (u := u) (by rw [hp]; rfl) hu
    have oa := fun u m hu => oth u (PC.absent_holds (n := m) hu)
    have ofr := fun u m hu => oth u (PC.free_holds (n := m) hu)
    have ob := fun u m hu => oth u (PC.bad_holds (n := m) hu)
    all_goals obtain ⟨i1, i0, i2, i3, i4, i5, i6, i7, i8, i9, i10, i12, i13, i14, i15, i16, i11⟩ := h
    all_goals constructor
    all_goals simp only [upd_apply, Option.toList_none, Option.toList_some, List.append_nil, table_snoc, chained_snoc, pending_snoc, Map.get_set, List.mem_append, List.mem_singleton]
    all_goals grind [PC.holds, PC.reads, PC.kind, PC.call, PC.carried, PC.absentName, PC.freeName, PC.badName, solid, puts, mem_erase', List.nodup_cons, List.Nodup.mem_erase_iff, List.Nodup.erase]
  case cUnlock t c hp =>
    have oth := fun u hu => other h.lock (t := t) (u := u) (by rw [hp]; rfl) hu
    have oa := fun u m hu => oth u (PC.absent_holds (n := m) hu)
    have ofr := fun u m hu => oth u (PC.free_holds (n := m) hu)
    have ob := fun u m hu => oth u (PC.bad_holds (n := m) hu)
    all_goals obtain ⟨i1, i0, i2, i3, i4, i5, i6, i7, i8, i9, i10, i12, i13, i14, i15, i16, i11⟩ := h
    all_goals constructor
    all_goals simp only [upd_apply, Option.toList_none, Option.toList_some, List.append_nil, table_snoc, chained_snoc, pending_snoc, Map.get_set, List.mem_append, List.mem_singleton]
    all_goals grind [PC.holds, PC.reads, PC.kind, PC.call, PC.carried, PC.absentName, PC.freeName, PC.badName, solid, puts, mem_erase', List.nodup_cons, List.Nodup.mem_erase_iff, List.Nodup.erase]
  case sCall t hp =>
    all_goals obtain ⟨i1, i0, i2, i3, i4, i5, i6, i7, i8, i9, i10, i12, i13, i14, i15, i16, i11⟩ := h
    all_goals constructor
    all_goals simp only [upd_apply, Option.toList_none, Option.toList_some, List.append_nil, table_snoc, chained_snoc, pending_snoc, Map.get_set, List.mem_append, List.mem_singleton]
    all_goals grind [PC.holds, PC.reads, PC.kind, PC.call, PC.carried, PC.absentName, PC.freeName, PC.badName, solid, puts, mem_erase', List.nodup_cons, List.Nodup.mem_erase_iff, List.Nodup.erase]
  case sLock t hp hw hr =>
    all_goals obtain ⟨i1, i0, i2, i3, i4, i5, i6, i7, i8, i9, i10, i12, i13, i14, i15, i16, i11⟩ := h
    all_goals constructor
    all_goals simp only [upd_apply, Option.toList_none, Option.toList_some, List.append_nil, table_snoc, chained_snoc, pending_snoc, Map.get_set, List.mem_append, List.mem_singleton]
    all_goals grind [PC.holds, PC.reads, PC.kind, PC.call, PC.carried, PC.absentName, PC.freeName, PC.badName, solid, puts, mem_erase', List.nodup_cons, List.Nodup.mem_erase_iff, List.Nodup.erase]
  case sCopy t l hp hl =>
    have oth := fun u hu => other h.lock (t := t) (u := u) (by rw [hp]; rfl) hu
    have oa := fun u m hu => oth u (PC.absent_holds (n := m) hu)
    have ofr := fun u m hu => oth u (PC.free_holds (n := m) hu)
    have ob := fun u m hu => oth u (PC.bad_holds (n := m) hu)
    all_goals obtain ⟨i1, i0, i2, i3, i4, i5, i6, i7, i8, i9, i10, i12, i13, i14, i15, i16, i11⟩ := h
    all_goals constructor
    all_goals simp only [upd_apply, Option.toList_none, Option.toList_some, List.append_nil, table_snoc, chained_snoc, pending_snoc, Map.get_set, List.mem_append, List.mem_singleton]
    all_goals grind [PC.holds, PC.reads, PC.kind, PC.call, PC.carried, PC.absentName, PC.freeName, PC.badName, solid, puts, mem_erase', List.nodup_cons, List.Nodup.mem_erase_iff, List.Nodup.erase]
  case sUnlock t hp =>
    have oth := fun u hu => other h.lock (t := t) (u := u) (by rw [hp]; rfl) hu
    have oa := fun u m hu => oth u (PC.absent_holds (n := m) hu)
    have ofr := fun u m hu => oth u (PC.free_holds (n := m) hu)
    have ob := fun u m hu => oth u (PC.bad_holds (n := m) hu)
    all_goals obtain ⟨i1, i0, i2, i3, i4, i5, i6, i7, i8, i9, i10, i12, i13, i14, i15, i16, i11⟩ := h
    all_goals constructor
    all_goals simp only [upd_apply, Option.toList_none, Option.toList_some, List.append_nil, table_snoc, chained_snoc, pending_snoc, Map.get_set, List.mem_append, List.mem_singleton]
    all_goals grind [PC.holds, PC.reads, PC.kind, PC.call, PC.carried, PC.absentName, PC.freeName, PC.badName, solid, puts, mem_erase', List.nodup_cons, List.Nodup.mem_erase_iff, List.Nodup.erase]
  case sLock2 t hp hw hr =>
    all_goals obtain ⟨i1, i0, i2, i3, i4, i5, i6, i7, i8, i9, i10, i12, i13, i14, i15, i16, i11⟩ := h
    all_goals constructor
    all_goals simp only [upd_apply, Option.toList_none, Option.toList_some, List.append_nil, table_snoc, chained_snoc, pending_snoc, Map.get_set, List.mem_append, List.mem_singleton]
    all_goals grind [PC.holds, PC.reads, PC.kind, PC.call, PC.carried, PC.absentName, PC.freeName, PC.badName, solid, puts, mem_erase', List.nodup_cons, List.Nodup.mem_erase_iff, List.Nodup.erase]
  case sCopy2 t hp =>
    have oth := fun u hu => other h.lock (t := t) (u := u) (by rw [hp]; rfl) hu
    have oa := fun u m hu => oth u (PC.absent_holds (n := m) hu)
    have ofr := fun u m hu => oth u (PC.free_holds (n := m) hu)
    have ob := fun u m hu => oth u (PC.bad_holds (n := m) hu)
    all_goals obtain ⟨i1, i0, i2, i3, i4, i5, i6, i7, i8, i9, i10, i12, i13, i14, i15, i16, i11⟩ := h
    all_goals constructor
    all_goals simp only [upd_apply, Option.toList_none, Option.toList_some, List.append_nil, table_snoc, chained_snoc, pending_snoc, Map.get_set, List.mem_append, List.mem_singleton]
    all_goals grind [PC.holds, PC.reads, PC.kind, PC.call, PC.carried, PC.absentName, PC.freeName, PC.badName, solid, puts, mem_erase', List.nodup_cons, List.Nodup.mem_erase_iff, List.Nodup.erase]
  case sUnlock2 t hp =>
    have oth := fun u hu => other h.lock (t := t) (u := u) (by rw [hp]; rfl) hu
    have oa := fun u m hu => oth u (PC.absent_holds (n := m) hu)
    have ofr := fun u m hu => oth u (PC.free_holds (n := m) hu)
    have ob := fun u m hu => oth u (PC.bad_holds (n := m) hu)
    all_goals obtain ⟨i1, i0, i2, i3, i4, i5, i6, i7, i8, i9, i10, i12, i13, i14, i15, i16, i11⟩ := h
    all_goals constructor
    all_goals simp only [upd_apply, Option.toList_none, Option.toList_some, List.append_nil, table_snoc, chained_snoc, pending_snoc, Map.get_set, List.mem_append, List.mem_singleton]
    all_goals grind [PC.holds, PC.reads, PC.kind, PC.call, PC.carried, PC.absentName, PC.freeName, PC.badName, solid, puts, mem_erase', List.nodup_cons, List.Nodup.mem_erase_iff, List.Nodup.erase]

theorem inv {tr : List Ev} {s : State} (h : Exec Step State.init tr s) : Inv tr s :=
  Exec.induct Inv inv_init (fun _ _ _ _ hi st => inv_step hi st) h

end Monkit.Scope
