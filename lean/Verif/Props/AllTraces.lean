import Verif.Model.AllTraces

/-!
# C33: ObserveAllTraces
-/

namespace Monkit.AllTraces
open Go

/-- The traces the collector was registered with, in order. -/
def attachments : List Ev → List Nat
  | [] => []
  | .attached T :: es => T :: attachments es
  | _ :: es => attachments es

theorem attachments_append (a b : List Ev) : attachments (a ++ b) = attachments a ++ attachments b := by
  induction a with
  | nil => rfl
  | cons e es ih => cases e <;> simp [attachments, ih]

def PC.holds : PC → Bool
  | .check _ | .mark _ | .attach _ | .append _ _ | .out _ | .cstop | .cloop _ => true
  | _ => false

def PC.adding : PC → Bool
  | .mark _ | .attach _ | .append _ _ => true
  | _ => false

/-- The attachment about to be recorded. -/
def PC.ref : PC → Option Nat
  | .append _ r => some r
  | _ => none

/-- The trace dealt with. -/
def PC.dealt : PC → Option Nat
  | .append T _ | .out T => some T
  | _ => none

structure Inv (tr : List Ev) (s : State) : Prop where
  mtx : ∀ t, s.mtx = some t ↔ (s.pc t).holds = true
  add : ∀ t, (s.pc t).adding = true → s.stopping = false
  mark : ∀ t T, s.pc t = .mark T → T ∉ s.existing
  attNew : ∀ t T, s.pc t = .attach T → T ∉ attachments tr ∧ T ∈ s.existing
  nodup : (attachments tr).Nodup
  sub : ∀ T ∈ attachments tr, T ∈ s.existing
  lt : ∀ x ∈ s.live, x.1 < s.next
  canc : ∀ x ∈ s.live, x.1 ∈ s.cancelers ∨ ∃ t, (s.pc t).ref = some x.1
  loop : ∀ t rest, s.pc t = .cloop rest → s.stopping = true ∧ ∀ x ∈ s.live, x.1 ∈ rest
  stop : s.stopping = true → (∀ t rest, s.pc t ≠ .cloop rest) → s.live = []
  ret : Ev.cancelReturn ∈ tr → s.stopping = true ∧ s.live = []
  call : s.stopping = true → Ev.cancelCall ∈ tr
  want : ∀ t, (s.pc t = .cwant ∨ s.pc t = .cstop) → Ev.cancelCall ∈ tr
  /-- attached and not stopping: still there -/
  ex : s.stopping = false → ∀ T ∈ s.existing, T ∈ s.live.map Prod.snd ∨ ∃ t, s.pc t = .attach T
  outT : s.stopping = false → ∀ t T, (s.pc t).dealt = some T → T ∈ s.live.map Prod.snd
  retT : s.stopping = false → ∀ T, Ev.returned T ∈ tr → T ∈ s.live.map Prod.snd
  liveAtt : ∀ x ∈ s.live, x.2 ∈ attachments tr
  liveNodup : (s.live.map Prod.snd).Nodup

theorem upd_apply {α : Type} (f : Nat → α) (t : Nat) (v : α) (t' : Nat) :
    upd f t v t' = if t' = t then v else f t' := rfl

theorem inv_init : Inv [] init := by
  constructor <;> intros <;> simp_all [init, PC.holds, PC.adding, PC.dealt, attachments]

theorem other {s : State} (i4 : ∀ t, s.mtx = some t ↔ (s.pc t).holds = true) {t : Nat}
    (ht : (s.pc t).holds = true) (u : Nat) (hu : u ≠ t) : (s.pc u).holds = false := by
  cases h : (s.pc u).holds with
  | false => rfl
  | true =>
    have h1 := (i4 t).mpr ht
    have h2 := (i4 u).mpr h
    rw [h1] at h2; exact absurd (Option.some.inj h2).symm hu

set_option maxHeartbeats 1000000 in
theorem inv_step {tr : List Ev} {s s' : State} {e : Option Ev} (i : Inv tr s) (st : Step s e s') :
    Inv (tr ++ e.toList) s' := by
  have oth := fun {t} ht u hu => other i.mtx (t := t) ht u hu
  obtain ⟨i1, i2, i3, i4, i5, i6, i7, i8, i9, i10, i11, i12, i13, i14, i15, i16, i17, i18⟩ := i
  cases st with
  | callback t T h =>
    constructor <;> simp only [upd_apply, Option.toList_none, Option.toList_some, List.append_nil, attachments_append, attachments] <;>
      grind [PC.holds, PC.adding, PC.ref, PC.dealt]
  | lock t T h free =>
    constructor <;> simp only [upd_apply, Option.toList_none, Option.toList_some, List.append_nil, attachments_append, attachments] <;>
      grind [PC.holds, PC.adding, PC.ref, PC.dealt]
  | checkOut t T h c =>
    have o := oth (t := t) (by rw [h]; rfl)
    have m := (i1 t).mpr (by rw [h]; rfl)
    constructor <;> simp only [upd_apply, Option.toList_none, Option.toList_some, List.append_nil, attachments_append, attachments] <;>
      grind [PC.holds, PC.adding, PC.ref, PC.dealt]
  | checkIn t T h c c' =>
    have o := oth (t := t) (by rw [h]; rfl)
    have m := (i1 t).mpr (by rw [h]; rfl)
    constructor <;> simp only [upd_apply, Option.toList_none, Option.toList_some, List.append_nil, attachments_append, attachments] <;>
      grind [PC.holds, PC.adding, PC.ref, PC.dealt]
  | mark t T h =>
    have o := oth (t := t) (by rw [h]; rfl)
    have m := (i1 t).mpr (by rw [h]; rfl)
    constructor <;> simp only [upd_apply, Option.toList_none, Option.toList_some, List.append_nil, attachments_append, attachments] <;>
      grind [PC.holds, PC.adding, PC.ref, PC.dealt]
  | attach t T h =>
    have o := oth (t := t) (by rw [h]; rfl)
    have m := (i1 t).mpr (by rw [h]; rfl)
    constructor <;> simp only [upd_apply, Option.toList_none, Option.toList_some, List.append_nil, attachments_append, attachments] <;>
      grind [PC.holds, PC.adding, PC.ref, PC.dealt]
  | append t T r h =>
    have o := oth (t := t) (by rw [h]; rfl)
    have m := (i1 t).mpr (by rw [h]; rfl)
    constructor <;> simp only [upd_apply, Option.toList_none, Option.toList_some, List.append_nil, attachments_append, attachments] <;>
      grind [PC.holds, PC.adding, PC.ref, PC.dealt]
  | unlock t T h =>
    have o := oth (t := t) (by rw [h]; rfl)
    have m := (i1 t).mpr (by rw [h]; rfl)
    constructor <;> simp only [upd_apply, Option.toList_none, Option.toList_some, List.append_nil, attachments_append, attachments] <;>
      grind [PC.holds, PC.adding, PC.ref, PC.dealt]
  | cancel t h =>
    constructor <;> simp only [upd_apply, Option.toList_none, Option.toList_some, List.append_nil, attachments_append, attachments] <;>
      grind [PC.holds, PC.adding, PC.ref, PC.dealt]
  | clock t h free =>
    constructor <;> simp only [upd_apply, Option.toList_none, Option.toList_some, List.append_nil, attachments_append, attachments] <;>
      grind [PC.holds, PC.adding, PC.ref, PC.dealt]
  | cstop t h =>
    have o := oth (t := t) (by rw [h]; rfl)
    have m := (i1 t).mpr (by rw [h]; rfl)
    have oa : ∀ u, (s.pc u).adding = false := by
      intro u
      by_cases e : u = t
      · subst e; rw [h]; rfl
      · have := o u e
        cases hp : s.pc u <;> rw [hp] at this <;> first | rfl | cases this
    have oc : ∀ x ∈ s.live, x.1 ∈ s.cancelers := by
      intro x hx
      rcases i8 x hx with h | ⟨u, hu⟩
      · exact h
      · have := oa u
        cases hp : s.pc u <;> rw [hp] at this hu <;> first | (simp [PC.ref] at hu; done) | cases this
    have hl : ¬ ∀ (t_1 : Nat) (rest : List Nat),
        (if t_1 = t then PC.cloop s.cancelers else s.pc t_1) ≠ PC.cloop rest :=
      fun f => f t s.cancelers (if_pos rfl)
    constructor <;> simp only [upd_apply, Option.toList_none, Option.toList_some, List.append_nil, attachments_append, attachments] <;>
      grind [PC.holds, PC.adding, PC.ref, PC.dealt]
  | canceler t r rest h =>
    have o := oth (t := t) (by rw [h]; rfl)
    have m := (i1 t).mpr (by rw [h]; rfl)
    constructor <;> simp only [upd_apply, Option.toList_none, Option.toList_some, List.append_nil, attachments_append, attachments] <;>
      grind [PC.holds, PC.adding, PC.ref, PC.dealt]
  | cunlock t h =>
    have o := oth (t := t) (by rw [h]; rfl)
    have hl : s.live = [] := by
      cases hs : s.live with
      | nil => rfl
      | cons x xs => have := (i9 t [] h).2 x (by rw [hs]; simp); cases this
    have m := (i1 t).mpr (by rw [h]; rfl)
    constructor <;> simp only [upd_apply, Option.toList_none, Option.toList_some, List.append_nil, attachments_append, attachments] <;>
      grind [PC.holds, PC.adding, PC.ref, PC.dealt]

theorem inv_exec {tr : List Ev} {s : State} (h : Exec Step init tr s) : Inv tr s :=
  Exec.induct Inv inv_init (fun _ _ _ _ i st => inv_step i st) h

/-- C33.  Under every interleaving of announcements of traces, the scan of the root spans and cancellation:
* the collector is registered with each trace at most once;
* in any state it is attached at most once to each trace, only where it was registered;
* once a call of the cancel function has returned it is attached to no trace, and is never again registered;
* as long as cancel has not been called it is attached to every trace for which a callback (announcement or
  scan) has returned. -/
theorem C33_observe_all_traces {tr : List Ev} {s : State} (h : Exec Step init tr s) :
    (attachments tr).Nodup ∧
    ((s.live.map Prod.snd).Nodup ∧ ∀ T ∈ s.live.map Prod.snd, T ∈ attachments tr) ∧
    (Ev.cancelReturn ∈ tr → s.live = [] ∧ ∀ tr' s', Exec Step s tr' s' → attachments tr' = [] ∧ s'.live = []) ∧
    (Ev.cancelCall ∉ tr → ∀ T, Ev.returned T ∈ tr → T ∈ s.live.map Prod.snd) := by
  have i := inv_exec h
  refine ⟨i.nodup, ⟨i.liveNodup, fun T hT => ?_⟩, fun hr => ?_, fun hc T hT => ?_⟩
  · obtain ⟨x, hx, rfl⟩ := List.mem_map.mp hT
    exact i.liveAtt x hx
  · refine ⟨(i.ret hr).2, fun tr' s' h' => ?_⟩
    have key : Inv (tr ++ tr') s' ∧ attachments tr' = [] := by
      refine Exec.induct (fun tr' s' => Inv (tr ++ tr') s' ∧ attachments tr' = []) ⟨by simpa using i, rfl⟩ ?_ h'
      intro tr1 s1 e s2 ⟨i1, a1⟩ st
      refine ⟨by rw [← List.append_assoc]; exact inv_step i1 st, ?_⟩
      rw [attachments_append, a1]
      have hs := (i1.ret (List.mem_append_left _ hr)).1
      cases st <;> first | rfl | skip
      rename_i t T h
      have := i1.add t (by rw [h]; rfl)
      rw [hs] at this; cases this
    exact ⟨key.2, (key.1.ret (List.mem_append_left _ hr)).2⟩
  · refine i.retT ?_ T hT
    cases hs : s.stopping with
    | false => rfl
    | true => exact absurd (i.call hs) hc

/-- Trace 7 is announced and found by the scan: attached once.  Trace 8 is announced; then cancel, concurrently with the
announcement of trace 9, which is not attached. -/
example : ∃ tr s, Exec Step init tr s ∧
    tr = [.attached 7, .returned 7, .returned 7, .attached 8, .returned 8, .cancelCall, .cancelReturn, .returned 9] ∧
    s.live = [] := by
  have e := Exec.start (step := Step) (s₀ := init)
  have e := e.step _ (.callback _ 0 7 rfl)
  have e := e.step _ (.callback _ 1 7 rfl)
  have e := e.step _ (.lock _ 1 7 rfl rfl)
  have e := e.step _ (.checkIn _ 1 7 rfl (by decide) rfl)
  have e := e.step _ (.mark _ 1 7 rfl)
  have e := e.step _ (.attach _ 1 7 rfl)
  have e := e.step _ (.append _ 1 7 0 rfl)
  have e := e.step _ (.unlock _ 1 7 rfl)
  have e := e.step _ (.lock _ 0 7 rfl rfl)
  have e := e.step _ (.checkOut _ 0 7 rfl (.inl (by decide)))
  have e := e.step _ (.unlock _ 0 7 rfl)
  have e := e.step _ (.callback _ 0 8 rfl)
  have e := e.step _ (.lock _ 0 8 rfl rfl)
  have e := e.step _ (.checkIn _ 0 8 rfl (by decide) rfl)
  have e := e.step _ (.mark _ 0 8 rfl)
  have e := e.step _ (.attach _ 0 8 rfl)
  have e := e.step _ (.append _ 0 8 1 rfl)
  have e := e.step _ (.unlock _ 0 8 rfl)
  have e := e.step _ (.callback _ 0 9 rfl)
  have e := e.step _ (.cancel _ 1 rfl)
  have e := e.step _ (.clock _ 1 rfl rfl)
  have e := e.step _ (.cstop _ 1 rfl)
  have e := e.step _ (.canceler _ 1 0 [1] rfl)
  have e := e.step _ (.canceler _ 1 1 [] rfl)
  have e := e.step _ (.cunlock _ 1 rfl)
  have e := e.step _ (.lock _ 0 9 rfl rfl)
  have e := e.step _ (.checkOut _ 0 9 rfl (.inr rfl))
  have e := e.step _ (.unlock _ 0 9 rfl)
  exact ⟨_, _, e, rfl, rfl⟩

end Monkit.AllTraces
