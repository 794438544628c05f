import Verif.Model.FuncSet
import Mathlib.Data.List.Nodup
import Mathlib.Tactic.ByContra

/-!
# C20: parents are neither lost nor invented
-/

namespace Monkit.FuncSet
open Go

theorem toPtr_inj {f g : Option Nat} (h : toPtr f = toPtr g) : f = g := by
  cases f <;> cases g <;> simp_all [toPtr]

theorem from_to (f : Option Nat) : fromPtr (toPtr f) = f := by cases f <;> rfl
theorem to_from (p : Ptr) : toPtr (fromPtr p) = p := by cases p <;> rfl
theorem fromPtr_inj {f g : Ptr} (h : fromPtr f = fromPtr g) : f = g := by
  rw [← to_from f, h, to_from]

theorem mem_insert (f g : Ptr) (m : List Ptr) : f ∈ insert g m ↔ f = g ∨ f ∈ m := by
  unfold insert; split
  · constructor
    · exact .inr
    · rintro (rfl | h) <;> assumption
  · exact List.mem_cons

theorem nodup_insert (f : Ptr) {m : List Ptr} (h : m.Nodup) : (insert f m).Nodup := by
  unfold insert; split
  · exact h
  · exact List.nodup_cons.mpr ⟨by assumption, h⟩

/-- The set holds `f`. -/
def has (s : State) (p : Ptr) : Prop := s.first = some p ∨ p ∈ s.rest

/-- The `Add(f)` that the goroutine is in. -/
def PC.adding : PC → Option (Option Nat)
  | .load f | .cas f | .lock f | .ins f | .unlock f | .ret f => some f
  | _ => none

structure Inv (tr : List Event) (s : State) : Prop where
  nodup : s.rest.Nodup
  /-- an `Add` about to return has put its function in -/
  done : ∀ t f, (s.thr t = .unlock f ∨ s.thr t = .ret f) → has s (toPtr f)
  added : ∀ t f, .added t f ∈ tr → has s (toPtr f)
  /-- an `Add` in progress has begun -/
  begun : ∀ t f, (s.thr t).adding = some f → .add t f ∈ tr
  real : ∀ p, has s p → ∃ t, .add t (fromPtr p) ∈ tr
  copyNodup : ∀ t u, (s.thr t = .iunlock u ∨ s.thr t = .ifirst u ∨ s.thr t = .visit u) → u.Nodup
  copyReal : ∀ t u, (s.thr t = .iunlock u ∨ s.thr t = .ifirst u ∨ s.thr t = .visit u) →
    ∀ p ∈ u, ∃ t, .add t (fromPtr p) ∈ tr

/-- Nothing leaves the set. -/
theorem has_mono {s s' : State} {e} (st : Step s e s') (p : Ptr) (h : has s p) : has s' p := by
  cases st with
  | swap t f h' eq =>
    rcases h with h | h
    · rw [eq] at h; cases h
    · exact .inr h
  | ins t f h' =>
    rcases h with h | h
    · exact .inl h
    · exact .inr ((mem_insert _ _ _).mpr (.inr h))
  | _ => exact h

theorem inv_step {tr : List Event} {s : State} (i : Inv tr s) (e : Option Event) (s' : State)
    (t : Nat) (v : PC) (hthr : s'.thr = upd s.thr t v) (hmono : ∀ p, has s p → has s' p)
    (hnodup : s'.rest.Nodup)
    (hdone : ∀ f, (v = .unlock f ∨ v = .ret f) → has s' (toPtr f))
    (hadded : ∀ t f, e = some (.added t f) → has s (toPtr f))
    (hbegun : ∀ f, v.adding = some f → e = some (.add t f) ∨ (s.thr t).adding = some f)
    (hreal : ∀ p, has s' p → has s p ∨ ∃ f, p = toPtr f ∧ (s.thr t).adding = some f)
    (hcopyNodup : ∀ u, (v = .iunlock u ∨ v = .ifirst u ∨ v = .visit u) → u.Nodup)
    (hcopyReal : ∀ u, (v = .iunlock u ∨ v = .ifirst u ∨ v = .visit u) →
      ∀ p ∈ u, has s p ∨ ∃ t, .add t (fromPtr p) ∈ tr) :
    Inv (tr ++ e.toList) s' := by
  have hr : ∀ p, has s p → ∃ t, .add t (fromPtr p) ∈ tr ++ e.toList := by
    intro p hp
    obtain ⟨t, ht⟩ := i.real p hp
    exact ⟨t, by simp [ht]⟩
  refine ⟨hnodup, ?_, ?_, ?_, ?_, ?_, ?_⟩
  · intro t' f h
    rw [hthr] at h
    by_cases ht : t' = t
    · subst ht; exact hdone f (by simpa using h)
    · rw [upd_other _ _ ht] at h; exact hmono _ (i.done t' f h)
  · intro t' f h
    rcases List.mem_append.mp h with h | h
    · exact hmono _ (i.added t' f h)
    · cases e with
      | none => simp at h
      | some e => simp at h; subst h; exact hmono _ (hadded _ _ rfl)
  · intro t' f h
    rw [hthr] at h
    by_cases ht : t' = t
    · subst ht
      rw [upd_same] at h
      rcases hbegun f h with h | h
      · subst h; simp
      · have := i.begun t' f h; simp [this]
    · rw [upd_other _ _ ht] at h
      have := i.begun t' f h; simp [this]
  · intro p hp
    rcases hreal p hp with h | ⟨f, rfl, h⟩
    · exact hr p h
    · exact ⟨t, by have := i.begun t f h; simp [from_to, this]⟩
  · intro t' u h
    rw [hthr] at h
    by_cases ht : t' = t
    · subst ht; exact hcopyNodup u (by simpa using h)
    · rw [upd_other _ _ ht] at h; exact i.copyNodup t' u h
  · intro t' u h p hp
    rw [hthr] at h
    by_cases ht : t' = t
    · subst ht
      rcases hcopyReal u (by simpa using h) p hp with h | ⟨t, ht⟩
      · exact hr p h
      · exact ⟨t, by simp [ht]⟩
    · rw [upd_other _ _ ht] at h
      obtain ⟨t, ht⟩ := i.copyReal t' u h p hp
      exact ⟨t, by simp [ht]⟩

theorem inv_reach {tr s} (h : Exec Step init tr s) : Inv tr s := by
  refine Exec.induct Inv ?_ ?_ h
  · refine ⟨List.nodup_nil, ?_, ?_, ?_, ?_, ?_, ?_⟩ <;> simp [init, has, PC.adding]
  intro tr s e s' i st
  have hm := has_mono st
  cases st with
  | add t f h =>
    refine inv_step i _ _ t _ rfl hm i.nodup ?_ ?_ ?_ ?_ ?_ ?_ <;>
      simp_all [PC.adding, has]
  | isFirst t f h eq =>
    refine inv_step i _ _ t _ rfl hm i.nodup ?_ ?_ ?_ ?_ ?_ ?_ <;>
      simp_all [PC.adding, has]
  | notFirst t f h ne =>
    refine inv_step i _ _ t _ rfl hm i.nodup ?_ ?_ ?_ ?_ ?_ ?_ <;>
      simp_all [PC.adding, has]
  | swap t f h eq =>
    refine inv_step i _ _ t _ rfl hm i.nodup ?_ ?_ ?_ ?_ ?_ ?_ <;>
      simp_all [PC.adding, has]
    intro p hp; rcases hp with hp | hp
    · exact .inr hp.symm
    · exact .inl hp
  | noSwap t f h ne =>
    refine inv_step i _ _ t _ rfl hm i.nodup ?_ ?_ ?_ ?_ ?_ ?_ <;>
      simp_all [PC.adding, has]
  | lock t f h free =>
    refine inv_step i _ _ t _ rfl hm i.nodup ?_ ?_ ?_ ?_ ?_ ?_ <;>
      simp_all [PC.adding, has]
  | ins t f h =>
    refine inv_step i _ _ t _ rfl hm (nodup_insert _ i.nodup) ?_ ?_ ?_ ?_ ?_ ?_ <;>
      simp_all [PC.adding, has, mem_insert]
    intro p hp; rcases hp with hp | hp | hp
    · exact .inl (.inl hp)
    · exact .inr hp
    · exact .inl (.inr hp)
  | unlock t f h =>
    have := i.done t f (.inl h)
    refine inv_step i _ _ t _ rfl hm i.nodup ?_ ?_ ?_ ?_ ?_ ?_ <;>
      simp_all [PC.adding, has]
  | ret t f h =>
    have := i.done t f (.inr h)
    refine inv_step i _ _ t _ rfl hm i.nodup ?_ ?_ ?_ ?_ ?_ ?_ <;>
      simp_all [PC.adding, has]
  | iterate t h =>
    refine inv_step i _ _ t _ rfl hm i.nodup ?_ ?_ ?_ ?_ ?_ ?_ <;>
      simp_all [PC.adding, has]
  | ilock t h free =>
    refine inv_step i _ _ t _ rfl hm i.nodup ?_ ?_ ?_ ?_ ?_ ?_ <;>
      simp_all [PC.adding, has]
  | icopy t h =>
    have := i.nodup
    refine inv_step i _ _ t _ rfl hm i.nodup ?_ ?_ ?_ ?_ ?_ ?_ <;>
      simp_all [PC.adding, has]
  | iunlock t u h =>
    have h1 := i.copyNodup t u (.inl h)
    have h2 := i.copyReal t u (.inl h)
    refine inv_step i _ _ t _ rfl hm i.nodup ?_ ?_ ?_ ?_ ?_ ?_ <;>
      simp_all [PC.adding, has]
  | ifirst t u h =>
    have h1 := i.copyNodup t u (.inr (.inl h))
    have h2 := i.copyReal t u (.inr (.inl h))
    refine inv_step i _ _ t _ rfl hm i.nodup ?_ ?_ ?_ ?_ ?_ ?_ <;>
      simp_all [PC.adding, has]
    · cases s.first with
      | none => exact h1
      | some f => exact nodup_insert f h1
    · intro p hp
      cases hf : s.first with
      | none => rw [hf] at hp; exact .inr (h2 p hp)
      | some f =>
        rw [hf] at hp
        rcases (mem_insert _ _ _).mp hp with rfl | hp
        · exact .inl (.inl rfl)
        · exact .inr (h2 p hp)
  | visit t u ord h p =>
    refine inv_step i _ _ t _ rfl hm i.nodup ?_ ?_ ?_ ?_ ?_ ?_ <;>
      simp_all [PC.adding, has]
  | otherLock t h free =>
    refine inv_step i _ _ t _ rfl hm i.nodup ?_ ?_ ?_ ?_ ?_ ?_ <;>
      simp_all [PC.adding, has]
  | otherUnlock t h =>
    refine inv_step i _ _ t _ rfl hm i.nodup ?_ ?_ ?_ ?_ ?_ ?_ <;>
      simp_all [PC.adding, has]

/-- Relative to the elements `D` present when goroutine `t` called `Iterate`: what `t` has collected. -/
def Sees (D : Ptr → Prop) (t : Nat) (s : State) : Prop :=
  (∀ p, D p → has s p) ∧ (s.thr t = .ilock ∨ s.thr t = .icopy ∨
    (∃ u, (s.thr t = .iunlock u ∨ s.thr t = .ifirst u) ∧ ∀ p, D p → p ∈ u ∨ s.first = some p) ∨
    ∃ u, s.thr t = .visit u ∧ ∀ p, D p → p ∈ u)

/-- `first` never changes once it is set. -/
theorem first_stays {s s' : State} {e} (st : Step s e s') (p : Ptr) (h : s.first = some p) :
    s'.first = some p := by
  cases st with
  | swap t f h' eq => rw [eq] at h; cases h
  | _ => exact h

theorem sees_step {D : Ptr → Prop} {t : Nat} {s s' : State} {e} (st : Step s e s')
    (hs : Sees D t s) (hne : ∀ fs, e ≠ some (.visited t fs)) : Sees D t s' := by
  obtain ⟨h1, h2⟩ := hs
  refine ⟨fun p hp => has_mono st p (h1 p hp), ?_⟩
  have keep : s'.thr t = s.thr t → s'.thr t = .ilock ∨ s'.thr t = .icopy ∨
      (∃ u, (s'.thr t = .iunlock u ∨ s'.thr t = .ifirst u) ∧ ∀ p, D p → p ∈ u ∨ s'.first = some p) ∨
      ∃ u, s'.thr t = .visit u ∧ ∀ p, D p → p ∈ u := by
    intro he
    rw [he]
    rcases h2 with h | h | ⟨u, h, hu⟩ | h
    · exact .inl h
    · exact .inr (.inl h)
    · refine .inr (.inr (.inl ⟨u, h, fun p hp => ?_⟩))
      rcases hu p hp with h' | h'
      · exact .inl h'
      · exact .inr (first_stays st p h')
    · exact .inr (.inr (.inr h))
  cases st with
  | ilock t' h free =>
    by_cases ht : t = t'
    · subst ht; exact .inr (.inl (by simp))
    · exact keep (upd_other _ _ ht)
  | icopy t' h =>
    by_cases ht : t = t'
    · subst ht
      refine .inr (.inr (.inl ⟨s.rest, .inl (by simp), fun p hp => ?_⟩))
      exact (h1 p hp).symm
    · exact keep (upd_other _ _ ht)
  | iunlock t' u h =>
    by_cases ht : t = t'
    · subst ht
      rw [h] at h2
      simp at h2
      exact .inr (.inr (.inl ⟨u, .inr (by simp), h2⟩))
    · exact keep (upd_other _ _ ht)
  | ifirst t' u h =>
    by_cases ht : t = t'
    · subst ht
      rw [h] at h2
      simp at h2
      refine .inr (.inr (.inr ⟨_, by simp; rfl, fun p hp => ?_⟩))
      rcases h2 p hp with h' | h'
      · cases s.first with
        | none => exact h'
        | some f => exact (mem_insert _ _ _).mpr (.inr h')
      · rw [h']; exact (mem_insert _ _ _).mpr (.inl rfl)
    · exact keep (upd_other _ _ ht)
  | visit t' u ord h p =>
    by_cases ht : t = t'
    · subst ht; exact absurd rfl (hne _)
    · exact keep (upd_other _ _ ht)
  | add t' f h => exact keep (upd_other _ _ (by rintro rfl; simp [h] at h2))
  | isFirst t' f h eq => exact keep (upd_other _ _ (by rintro rfl; simp [h] at h2))
  | notFirst t' f h ne => exact keep (upd_other _ _ (by rintro rfl; simp [h] at h2))
  | swap t' f h eq => exact keep (upd_other _ _ (by rintro rfl; simp [h] at h2))
  | noSwap t' f h ne => exact keep (upd_other _ _ (by rintro rfl; simp [h] at h2))
  | lock t' f h free => exact keep (upd_other _ _ (by rintro rfl; simp [h] at h2))
  | ins t' f h => exact keep (upd_other _ _ (by rintro rfl; simp [h] at h2))
  | unlock t' f h => exact keep (upd_other _ _ (by rintro rfl; simp [h] at h2))
  | ret t' f h => exact keep (upd_other _ _ (by rintro rfl; simp [h] at h2))
  | iterate t' h => exact keep (upd_other _ _ (by rintro rfl; simp [h] at h2))
  | otherLock t' h free => exact keep (upd_other _ _ (by rintro rfl; simp [h] at h2))
  | otherUnlock t' h => exact keep (upd_other _ _ (by rintro rfl; simp [h] at h2))

/-- **C20.** Any number of goroutines adding parents (nil counts as a parent) and enumerating them,
in any schedule.  An enumeration by goroutine `t`, called after the events `a` and returning `fs`
after the further events `b`: visits no parent twice; visits every parent whose `Add` had
returned before the enumeration was called; and visits nothing that no `Add` was called with. -/
theorem C20_parents {tr s} (h : Exec Step init tr s) (t : Nat) (fs : List (Option Nat))
    (a b c : List Event) (htr : tr = a ++ .iterate t :: b ++ .visited t fs :: c)
    (hb : ∀ fs', .visited t fs' ∉ b) :
    fs.Nodup ∧ (∀ t' f, .added t' f ∈ a → f ∈ fs) ∧
    ∀ f ∈ fs, ∃ t', .add t' f ∈ a ++ b := by
  obtain ⟨s1, s2, e1, st, -⟩ := h.split (a ++ .iterate t :: b) (.visited t fs) c htr
  obtain ⟨r1, r2, f1, ft, f2⟩ := e1.split a (.iterate t) b rfl
  have i1 := inv_reach e1
  have hsee : Sees (has r1) t s1 := by
    have key := Exec.induct (step := Step) (s₀ := r2)
      (fun tr s => (∀ fs', .visited t fs' ∉ tr) → Sees (has r1) t s) ?_ ?_ f2
    · exact key hb
    · intro _
      refine ⟨fun p hp => has_mono ft p hp, ?_⟩
      cases ft with
      | iterate _ _ => left; simp
    · intro tr s e s' ih st' hn
      refine sees_step st' (ih (fun fs' hh => hn fs' (by simp [hh]))) ?_
      intro fs' he
      subst he
      exact hn fs' (by simp)
  cases st with
  | visit _ u ord hv p =>
    refine ⟨?_, ?_, ?_⟩
    · have : ord.Nodup := p.nodup_iff.mpr (i1.copyNodup t u (.inr (.inr hv)))
      exact List.Nodup.map (fun _ _ => fromPtr_inj) this
    · intro t' f hf
      have hhas := (inv_reach f1).added t' f hf
      rcases hsee.2 with h | h | ⟨u', h, -⟩ | ⟨u', h, hu⟩
      · rw [hv] at h; cases h
      · rw [hv] at h; cases h
      · rw [hv] at h; simp at h
      · rw [hv] at h
        cases h
        have := p.mem_iff.mpr (hu _ hhas)
        exact List.mem_map.mpr ⟨_, this, from_to f⟩
    · intro f hf
      obtain ⟨p', hp', rfl⟩ := List.mem_map.mp hf
      obtain ⟨t', ht'⟩ := i1.copyReal t u (.inr (.inr hv)) p' (p.mem_iff.mp hp')
      refine ⟨t', ?_⟩
      simpa using ht'

/-- An execution meeting the hypotheses: two goroutines add different parents at the same time
(both load an empty `first`; one of them wins the swap), a third adds nil, then one enumerates. -/
example : ∃ tr s a b c fs, Exec Step init tr s ∧
    tr = a ++ .iterate 0 :: b ++ .visited 0 fs :: c ∧ (∀ fs', .visited 0 fs' ∉ b) ∧
    fs = [some 5, none, some 4] := by
  have e := Exec.start (step := Step) (s₀ := init)
  have e := Exec.step _ e (.add _ 0 (some 4) rfl)
  have e := Exec.step _ e (.add _ 1 (some 5) rfl)
  have e := Exec.step _ e (.add _ 2 none rfl)
  have e := Exec.step _ e (.notFirst _ 0 _ rfl (by decide))
  have e := Exec.step _ e (.notFirst _ 1 _ rfl (by decide))
  have e := Exec.step _ e (.notFirst _ 2 _ rfl (by decide))
  have e := Exec.step _ e (.swap _ 1 _ rfl rfl)
  have e := Exec.step _ e (.noSwap _ 0 _ rfl (by decide))
  have e := Exec.step _ e (.noSwap _ 2 _ rfl (by decide))
  have e := Exec.step _ e (.lock _ 0 _ rfl rfl)
  have e := Exec.step _ e (.ins _ 0 _ rfl)
  have e := Exec.step _ e (.unlock _ 0 _ rfl)
  have e := Exec.step _ e (.lock _ 2 _ rfl rfl)
  have e := Exec.step _ e (.ins _ 2 _ rfl)
  have e := Exec.step _ e (.unlock _ 2 _ rfl)
  have e := Exec.step _ e (.ret _ 0 _ rfl)
  have e := Exec.step _ e (.ret _ 1 _ rfl)
  have e := Exec.step _ e (.ret _ 2 _ rfl)
  have e := Exec.step _ e (.iterate _ 0 rfl)
  have e := Exec.step _ e (.ilock _ 0 rfl rfl)
  have e := Exec.step _ e (.icopy _ 0 rfl)
  have e := Exec.step _ e (.iunlock _ 0 _ rfl)
  have e := Exec.step _ e (.ifirst _ 0 _ rfl)
  have e := Exec.step _ e (.visit _ 0 _ _ rfl (List.Perm.refl _))
  exact ⟨_, _, [.add 0 (some 4), .add 1 (some 5), .add 2 none, .added 0 (some 4), .added 1 (some 5),
    .added 2 none], [], [], _, e, rfl, by simp, rfl⟩

end Monkit.FuncSet
