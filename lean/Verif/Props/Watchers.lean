import Verif.Model.Watchers
import Verif.Props.Observers

/-!
# C32: trace watchers
-/

namespace Monkit.Watchers
open Go
open Monkit.Observers (Ev callsOf Registered CancelCalled Cancelled callsOf_append foreign callsOf_foreign
  foreign_none split_unique)

def PC.holds : PC → Bool
  | .oset | .opub _ | .odone _ | .cset _ | .cpub _ | .cdone _ => true
  | _ => false

/-- The callback being cancelled. -/
def PC.victim : PC → Option Nat
  | .cwait id | .cset id | .cpub id | .cdone id => some id
  | _ => none

/-- Half way between changing the map and publishing. -/
def PC.half : PC → Bool
  | .opub _ | .cpub _ => true
  | _ => false

/-- `R`, `K`, `C`: the callbacks registered, with cancel called, with cancel returned. -/
structure Core (s : State) (R K C : Nat → Prop) : Prop where
  nodupW : s.watchers.Nodup
  nodupP : s.pub.Nodup
  lt : ∀ x ∈ s.watchers, x < s.counter
  mtx : ∀ t, s.mtx = some t ↔ (s.pc t).holds = true
  sync : (∀ t, (s.pc t).half = false) → ∀ x, x ∈ s.watchers ↔ x ∈ s.pub
  opub : ∀ t id, s.pc t = .opub id → id < s.counter ∧ ∀ x, x ∈ s.pub ↔ x ∈ s.watchers ∧ x ≠ id
  cpub : ∀ t id, s.pc t = .cpub id → ∀ x, x ∈ s.watchers ↔ x ∈ s.pub ∧ x ≠ id
  odone : ∀ t id, s.pc t = .odone id → id < s.counter
  cdone : ∀ t id, s.pc t = .cdone id → id ∉ s.watchers
  victim : ∀ t id, (s.pc t).victim = some id → K id ∧ id < s.counter
  reg : ∀ n, R n → n < s.counter ∧ ∀ t, s.pc t ≠ .opub n
  all : ∀ n, n < s.counter → n ∈ s.watchers ∨ K n
  canc : ∀ n, C n → n ∉ s.watchers ∧ n ∉ s.pub ∧ n < s.counter

theorem upd_apply {α : Type} (f : Nat → α) (t : Nat) (v : α) (t' : Nat) :
    upd f t v t' = if t' = t then v else f t' := rfl

/-- Only the goroutine that holds the lock can be half way. -/
theorem half_unique {s : State} {R K C : Nat → Prop} (i : Core s R K C) {t u : Nat}
    (ht : (s.pc t).holds = true) (hu : (s.pc u).holds = true) : u = t := by
  have h1 := (i.mtx t).mpr ht
  have h2 := (i.mtx u).mpr hu
  rw [h1] at h2; exact (Option.some.inj h2).symm

theorem core_other {s : State} {R K C : Nat → Prop} (i : Core s R K C) {t : Nat}
    (ht : (s.pc t).holds = true) (u : Nat) (hu : u ≠ t) : (s.pc u).holds = false := by
  cases h : (s.pc u).holds with
  | false => rfl
  | true => exact absurd (half_unique i ht h) hu

theorem half_holds {pc : PC} (h : pc.half = true) : pc.holds = true := by
  cases pc <;> simp_all [PC.half, PC.holds]

set_option maxHeartbeats 1000000 in
theorem core_step {s s' : State} {e : Option Ev} {R K C : Nat → Prop} (i : Core s R K C) (st : Step s e s') :
    Core s' (fun n => R n ∨ ∃ t, e = some (.registered t n)) (fun n => K n ∨ ∃ t, e = some (.cancelStart t n))
      (fun n => C n ∨ ∃ t, e = some (.cancelled t n)) := by
  have oth := fun {t} ht u hu => core_other i (t := t) ht u hu
  have hh := @half_holds
  obtain ⟨i1, i2, i3, i4, i5, i6, i7, i8, i9, i10, i11, i12, i13⟩ := i
  cases st with
  | opub t id ord h hord =>
    have o := oth (t := t) (by rw [h]; rfl)
    have hm := fun x => hord.mem_iff (a := x)
    have hn := hord.nodup_iff.mpr i1
    constructor <;> simp only [upd_apply] <;> grind [PC.holds, PC.half, PC.victim]
  | cpub t id ord h hord =>
    have o := oth (t := t) (by rw [h]; rfl)
    have hm := fun x => hord.mem_iff (a := x)
    have hn := hord.nodup_iff.mpr i1
    constructor <;> simp only [upd_apply] <;> grind [PC.holds, PC.half, PC.victim]
  | oset t h =>
    have o := oth (t := t) (by rw [h]; rfl)
    have sy := i5 (fun u => by
      by_cases e : u = t
      · subst e; rw [h]; rfl
      · have := o u e
        cases hf : (s.pc u).half with
        | false => rfl
        | true => rw [hh hf] at this; cases this)
    constructor <;> simp only [upd_apply] <;> grind [PC.holds, PC.half, PC.victim]
  | cset t id h =>
    have o := oth (t := t) (by rw [h]; rfl)
    have sy := i5 (fun u => by
      by_cases e : u = t
      · subst e; rw [h]; rfl
      · have := o u e
        cases hf : (s.pc u).half with
        | false => rfl
        | true => rw [hh hf] at this; cases this)
    have hm : ∀ x, x ∈ s.watchers.filter (fun y => decide (y ≠ id)) ↔ x ∈ s.watchers ∧ x ≠ id := by
      intro x; rw [List.mem_filter]; simp
    have hn := i1.filter (fun y => decide (y ≠ id))
    constructor <;> simp only [upd_apply] <;> grind [PC.holds, PC.half, PC.victim]
  | ounlock t id h =>
    have o := oth (t := t) (by rw [h]; rfl)
    have m := (i4 t).mpr (by rw [h]; rfl)
    constructor <;> simp only [upd_apply] <;> grind [PC.holds, PC.half, PC.victim]
  | cunlock t id h =>
    have o := oth (t := t) (by rw [h]; rfl)
    have m := (i4 t).mpr (by rw [h]; rfl)
    have sy := i5 (fun u => by
      by_cases e : u = t
      · subst e; rw [h]; rfl
      · have := o u e
        cases hf : (s.pc u).half with
        | false => rfl
        | true => rw [hh hf] at this; cases this)
    constructor <;> simp only [upd_apply] <;> grind [PC.holds, PC.half, PC.victim]
  | olock t h free =>
    constructor <;> simp only [upd_apply] <;> grind [PC.holds, PC.half, PC.victim]
  | clock t id h free =>
    constructor <;> simp only [upd_apply] <;> grind [PC.holds, PC.half, PC.victim]
  | observe t h => constructor <;> simp only [upd_apply] <;> grind [PC.holds, PC.half, PC.victim]
  | cancel t id h hid =>
    constructor <;> simp only [upd_apply]
    case victim =>
      intro u n hu
      by_cases e : u = t
      · rw [if_pos e] at hu
        have := Option.some.inj hu
        subst this
        exact ⟨.inr ⟨t, rfl⟩, hid⟩
      · rw [if_neg e] at hu
        exact ⟨.inl (i10 u n hu).1, (i10 u n hu).2⟩
    all_goals grind [PC.holds, PC.half, PC.victim]
  | begin t h => constructor <;> simp only [upd_apply] <;> grind [PC.holds, PC.half, PC.victim]
  | load t h => constructor <;> simp only [upd_apply] <;> grind [PC.holds, PC.half, PC.victim]
  | call t id rest h => constructor <;> simp only [upd_apply] <;> grind [PC.holds, PC.half, PC.victim]
  | finish t h => constructor <;> simp only [upd_apply] <;> grind [PC.holds, PC.half, PC.victim]

/-- Where a goroutine announcing a new trace stands. -/
def walk (t : Nat) (tr : List Ev) (counter : Nat) : PC → Prop
  | .look => ∃ a b, tr = a ++ .began t :: b ∧ Ev.began t ∉ b ∧ callsOf t b = []
  | .calls rest => ∃ a b, tr = a ++ .began t :: b ∧ Ev.began t ∉ b ∧ (callsOf t b ++ rest).Nodup ∧
      (∀ n, Registered n a → n ∈ callsOf t b ++ rest ∨ CancelCalled n (a ++ b)) ∧
      (∀ n, Cancelled n a → n ∉ callsOf t b ++ rest) ∧ (∀ n ∈ callsOf t b ++ rest, n < counter)
  | _ => True

structure Inv (tr : List Ev) (s : State) : Prop where
  core : Core s (Registered · tr) (CancelCalled · tr) (Cancelled · tr)
  walk : ∀ t, walk t tr s.counter (s.pc t)

theorem walk_foreign {t : Nat} {tr : List Ev} {c c' : Nat} {pc : PC} {e : Option Ev} (h : walk t tr c pc)
    (f : foreign t e) (hc : c ≤ c') : walk t (tr ++ e.toList) c' pc := by
  have nb : Ev.began t ∉ e.toList := by
    intro hm
    cases e with
    | none => simp at hm
    | some x => simp only [Option.toList_some, List.mem_singleton] at hm; exact (f x rfl).1 hm.symm
  cases pc with
  | look =>
    obtain ⟨a, b, h1, h2, h3⟩ := h
    exact ⟨a, b ++ e.toList, by rw [h1]; simp, by simp [h2, nb], by rw [callsOf_foreign f, h3]⟩
  | calls rest =>
    obtain ⟨a, b, h1, h2, h3, h4, h5, h6⟩ := h
    refine ⟨a, b ++ e.toList, by rw [h1]; simp, by simp [h2, nb], ?_, ?_, ?_, ?_⟩ <;>
      rw [callsOf_foreign f]
    · exact h3
    · intro n hn
      rcases h4 n hn with h | ⟨u, hu⟩
      · exact .inl h
      · exact .inr ⟨u, by rw [← List.append_assoc]; exact List.mem_append_left _ hu⟩
    · exact h5
    · exact fun n hn => Nat.lt_of_lt_of_le (h6 n hn) hc
  | _ => trivial

theorem core_congr {s : State} {R K C R' K' C' : Nat → Prop} (i : Core s R K C) (hR : ∀ n, R n ↔ R' n)
    (hK : ∀ n, K n ↔ K' n) (hC : ∀ n, C n ↔ C' n) : Core s R' K' C' := by
  have e1 : R = R' := funext fun n => propext (hR n)
  have e2 : K = K' := funext fun n => propext (hK n)
  have e3 : C = C' := funext fun n => propext (hC n)
  subst e1; subst e2; subst e3; exact i

theorem inv_init : Inv [] init := by
  constructor
  · constructor <;> intros <;> simp_all [init, PC.holds, PC.victim, Registered, Cancelled]
  · intro t; trivial

theorem inv_plain {tr : List Ev} {s s' : State} {e : Option Ev} (i : Inv tr s) (st : Step s e s') (t : Nat) (v : PC)
    (hpc : s'.pc = upd s.pc t v) (hc : s.counter ≤ s'.counter) (hf : ∀ u, u ≠ t → foreign u e)
    (hw : walk t (tr ++ e.toList) s'.counter v) : Inv (tr ++ e.toList) s' := by
  constructor
  · refine core_congr (core_step i.core st) (fun n => ?_) (fun n => ?_) (fun n => ?_)
    · cases e <;> simp [Registered, exists_or, eq_comm]
    · cases e <;> simp [CancelCalled, exists_or, eq_comm]
    · cases e <;> simp [Cancelled, exists_or, eq_comm]
  · intro u
    rw [hpc]
    by_cases e : u = t
    · subst e; rw [upd_same]; exact hw
    · rw [upd_other _ _ e]
      exact walk_foreign (i.walk u) (hf u e) hc

theorem foreign_some {u : Nat} {x : Ev} (h1 : x ≠ .began u) (h2 : ∀ n, x ≠ .called u n) : foreign u (some x) := by
  intro y hy; cases hy; exact ⟨h1, h2⟩

theorem inv_step {tr : List Ev} {s s' : State} {e : Option Ev} (i : Inv tr s) (st : Step s e s') :
    Inv (tr ++ e.toList) s' := by
  have st' := st
  cases st with
  | observe t h => exact inv_plain i st' t _ rfl (Nat.le_refl _) (fun _ _ => foreign_none _) trivial
  | olock t h free => exact inv_plain i st' t _ rfl (Nat.le_refl _) (fun _ _ => foreign_none _) trivial
  | oset t h => exact inv_plain i st' t _ rfl (Nat.le_succ _) (fun _ _ => foreign_none _) trivial
  | opub t id ord h hord => exact inv_plain i st' t _ rfl (Nat.le_refl _) (fun _ _ => foreign_none _) trivial
  | ounlock t id h =>
    exact inv_plain i st' t _ rfl (Nat.le_refl _) (fun _ _ => foreign_some (by simp) (by simp)) trivial
  | cancel t id h hid =>
    exact inv_plain i st' t _ rfl (Nat.le_refl _) (fun _ _ => foreign_some (by simp) (by simp)) trivial
  | clock t id h free => exact inv_plain i st' t _ rfl (Nat.le_refl _) (fun _ _ => foreign_none _) trivial
  | cset t id h => exact inv_plain i st' t _ rfl (Nat.le_refl _) (fun _ _ => foreign_none _) trivial
  | cpub t id ord h hord => exact inv_plain i st' t _ rfl (Nat.le_refl _) (fun _ _ => foreign_none _) trivial
  | cunlock t id h =>
    exact inv_plain i st' t _ rfl (Nat.le_refl _) (fun _ _ => foreign_some (by simp) (by simp)) trivial
  | begin t h =>
    refine inv_plain i st' t _ rfl (Nat.le_refl _)
      (fun u hu => foreign_some (by simp; exact fun e => hu e.symm) (by simp)) ?_
    exact ⟨tr, [], by simp, by simp, rfl⟩
  | load t h =>
    refine inv_plain i st' t _ rfl (Nat.le_refl _) (fun _ _ => foreign_none _) ?_
    have w := i.walk t
    rw [h] at w
    obtain ⟨a, b, h1, h2, h3⟩ := w
    have c := i.core
    have inpub : ∀ x ∈ s.pub, x < s.counter := by
      intro x hx
      by_cases hh : ∀ u, (s.pc u).half = false
      · exact c.lt x ((c.sync hh x).mpr hx)
      · simp only [Classical.not_forall, Bool.not_eq_false] at hh
        obtain ⟨u, hu⟩ := hh
        cases hp : s.pc u <;> rw [hp] at hu <;> simp [PC.half] at hu
        · exact c.lt x (((c.opub u _ hp).2 x).mp hx).1
        · rename_i id
          by_cases e : x = id
          · subst e; exact (c.victim u x (by rw [hp]; rfl)).2
          · exact c.lt x ((c.cpub u _ hp x).mpr ⟨hx, e⟩)
    refine ⟨a, b, by simpa using h1, h2, ?_, ?_, ?_, ?_⟩ <;> rw [h3, List.nil_append]
    · exact c.nodupP
    · intro n hn
      have hreg : Registered n tr := by obtain ⟨u, hu⟩ := hn; exact ⟨u, by rw [h1]; simp [hu]⟩
      obtain ⟨r1, r2⟩ := c.reg n hreg
      rcases c.all n r1 with hw | ⟨u, hu⟩
      · left
        by_cases hh : ∀ u, (s.pc u).half = false
        · exact (c.sync hh n).mp hw
        · simp only [Classical.not_forall, Bool.not_eq_false] at hh
          obtain ⟨u, hu⟩ := hh
          cases hp : s.pc u <;> rw [hp] at hu <;> simp [PC.half] at hu
          · exact ((c.opub u _ hp).2 n).mpr ⟨hw, fun e => r2 u (by rw [hp, e])⟩
          · exact ((c.cpub u _ hp n).mp hw).1
      · right
        refine ⟨u, ?_⟩
        rw [h1] at hu; simpa using hu
    · intro n hn
      have hcan : Cancelled n tr := by obtain ⟨u, hu⟩ := hn; exact ⟨u, by rw [h1]; simp [hu]⟩
      exact (c.canc n hcan).2.1
    · exact inpub
  | call t id rest h =>
    refine inv_plain i st' t _ rfl (Nat.le_refl _)
      (fun u hu => foreign_some (by simp) (by simp; exact fun e => absurd e.symm hu)) ?_
    have w := i.walk t
    rw [h] at w
    obtain ⟨a, b, h1, h2, h3, h4, h5, h6⟩ := w
    have e : callsOf t (b ++ [.called t id]) ++ rest = callsOf t b ++ id :: rest := by
      rw [callsOf_append]; simp [callsOf]
    refine ⟨a, b ++ [.called t id], by rw [h1]; simp, by simp [h2], ?_, ?_, ?_, ?_⟩ <;> rw [e]
    · exact h3
    · intro n hn
      rcases h4 n hn with h | ⟨u, hu⟩
      · exact .inl h
      · exact .inr ⟨u, by rw [← List.append_assoc]; exact List.mem_append_left _ hu⟩
    · exact h5
    · exact h6
  | finish t h =>
    exact inv_plain i st' t _ rfl (Nat.le_refl _) (fun _ _ => foreign_some (by simp) (by simp)) trivial

theorem inv_exec {tr : List Ev} {s : State} (h : Exec Step init tr s) : Inv tr s :=
  Exec.induct Inv inv_init (fun _ _ _ _ i st => inv_step i st) h

theorem counter_mono {s s' : State} {tr : List Ev} (h : Exec Step s tr s') : s.counter ≤ s'.counter := by
  refine Exec.induct (fun _ x => s.counter ≤ x.counter) (Nat.le_refl _) ?_ h
  intro _ x e y hx st
  refine Nat.le_trans hx ?_
  cases st <;> first | exact Nat.le_refl _ | exact Nat.le_succ _

/-- C32.  Consider the announcement of a new trace by goroutine `t`: it began after the events `a` and was done
after the further events `b`.  Then
* no callback was called twice;
* every callback registered before it began, and whose cancel function nobody had called by its end, was called –
  whatever was done with the other callbacks;
* no callback was called whose cancel had returned before it began;
* only callbacks that `ObserveTraces` had entered were called. -/
theorem C32_watchers {tr : List Ev} {s : State} (h : Exec Step init tr s) (t : Nat) (a b c : List Ev)
    (htr : tr = a ++ .began t :: (b ++ .ended t :: c)) (hb : Ev.began t ∉ b) :
    (callsOf t b).Nodup ∧
    (∀ n, Registered n a → ¬ CancelCalled n (a ++ b) → n ∈ callsOf t b) ∧
    (∀ n, Cancelled n a → n ∉ callsOf t b) ∧
    (∀ n ∈ callsOf t b, n < s.counter) := by
  obtain ⟨s1, s2, h1, h2, h3⟩ := h.split (a ++ .began t :: b) (.ended t) c (by rw [htr]; simp)
  have i := inv_exec h1
  have hpc : s1.pc t = .calls [] := by cases h2; assumption
  have w := i.walk t
  rw [hpc] at w
  obtain ⟨a', b', e1, e2, e3, e4, e5, e6⟩ := w
  obtain ⟨rfl, rfl⟩ := split_unique hb e2 e1
  rw [List.append_nil] at e3 e4 e5 e6
  refine ⟨e3, fun n hn hc => (e4 n hn).resolve_right hc, e5, fun n hn => ?_⟩
  have m := counter_mono h3
  have m2 : s1.counter = s2.counter := by cases h2; rfl
  have := e6 n hn
  omega

/-- Three callbacks, of which number 1 is cancelled; a trace announced then goes to 0 and 2; meanwhile 0's cancel is called,
too late to stop it. -/
example : ∃ tr s, Exec Step init tr s ∧
    tr = [.registered 0 0, .registered 0 1, .registered 0 2, .cancelStart 1 1, .cancelled 1 1] ++
      .began 2 :: ([.cancelStart 1 0, .cancelled 1 0, .called 2 2, .called 2 0] ++ .ended 2 :: []) := by
  have e := Exec.start (step := Step) (s₀ := init)
  have e := e.step _ (.observe _ 0 rfl)
  have e := e.step _ (.olock _ 0 rfl rfl)
  have e := e.step _ (.oset _ 0 rfl)
  have e := e.step _ (.opub _ 0 0 [0] rfl (.refl _))
  have e := e.step _ (.ounlock _ 0 0 rfl)
  have e := e.step _ (.observe _ 0 rfl)
  have e := e.step _ (.olock _ 0 rfl rfl)
  have e := e.step _ (.oset _ 0 rfl)
  have e := e.step _ (.opub _ 0 1 [0, 1] rfl (.swap _ _ _))
  have e := e.step _ (.ounlock _ 0 1 rfl)
  have e := e.step _ (.observe _ 0 rfl)
  have e := e.step _ (.olock _ 0 rfl rfl)
  have e := e.step _ (.oset _ 0 rfl)
  have e := e.step _ (.opub _ 0 2 [2, 1, 0] rfl (.refl _))
  have e := e.step _ (.ounlock _ 0 2 rfl)
  have e := e.step _ (.cancel _ 1 1 rfl (by decide))
  have e := e.step _ (.clock _ 1 1 rfl rfl)
  have e := e.step _ (.cset _ 1 1 rfl)
  have e := e.step _ (.cpub _ 1 1 [2, 0] rfl (.refl _))
  have e := e.step _ (.cunlock _ 1 1 rfl)
  have e := e.step _ (.begin _ 2 rfl)
  have e := e.step _ (.load _ 2 rfl)
  have e := e.step _ (.cancel _ 1 0 rfl (by decide))
  have e := e.step _ (.clock _ 1 0 rfl rfl)
  have e := e.step _ (.cset _ 1 0 rfl)
  have e := e.step _ (.cpub _ 1 0 [2] rfl (.refl _))
  have e := e.step _ (.cunlock _ 1 0 rfl)
  have e := e.step _ (.call _ 2 2 [0] rfl)
  have e := e.step _ (.call _ 2 0 [] rfl)
  have e := e.step _ (.finish _ 2 rfl)
  exact ⟨_, _, e, rfl⟩

end Monkit.Watchers
