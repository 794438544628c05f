import Verif.Proofs.TagsConc

/-! # C101: the string of a shared tag set -/

namespace Monkit.TagsConc
open Go Spec

theorem idle_after_ret {may : Half → Prop} {s s' : State} {t : Nat} {w : Words} (st : Step may s (some (.ret t w)) s') :
    s'.thr = upd s.thr t .idle := by
  cases st <;> rfl

theorem idle_before_call {may : Half → Prop} {s s' : State} {t : Nat} (st : Step may s (some (.call t)) s') :
    s.thr t = .idle ∧ s' = { s with thr := upd s.thr t .check } := by
  cases st with
  | call _ h => exact ⟨h, rfl⟩

/-- C101, as far as it is true, whichever word is written first: once one call of `String` has returned the right string, every
call made after that return returns it, whatever other calls are in progress. -/
theorem C101_later_partial (may : Half → Prop) (all : Map Str Str) (ok : Map.Ok all) (tr a b c : List Event) (s : State)
    (u t : Nat) (w w' : Words) (h : Exec (Step may) (init all) tr s) (htr : tr = a ++ .ret u w :: b ++ .call t :: c)
    (hw : Right all w) (hr : .ret t w' ∈ c) : Right all w' := by
  rw [List.append_assoc, List.cons_append] at htr
  obtain ⟨s1, s2, e1, st1, e2⟩ := h.split a _ _ htr
  have f := filled_of_ret ok e1 st1 (right_text ok hw)
  obtain ⟨s3, s4, e3, st3, e4⟩ := e2.split b _ c rfl
  have h2 := Exec.step _ e1 st1
  have i2 := inv_exec ok h2
  have a2 : s2.all = all := all_exec h2
  have a3 : s3.all = s2.all := all_exec e3
  have ok2 : Map.Ok s2.all := by rw [a2]; exact ok
  have st2 : Settled (fun _ => False) (words (textOf s2.all)) s2 := by
    rw [a2]
    exact ⟨f, i2.store, i2.rest, by simp, by simp⟩
  have st3' := (settled_exec ok2 st2 e3).1
  obtain ⟨hi, hs4⟩ := idle_before_call st3
  have ok3 : Map.Ok s3.all := by rw [a3]; exact ok2
  have set3 : Settled (· = t) (words (textOf s3.all)) s3 := by
    rw [a3]
    refine ⟨st3'.str, st3'.store, st3'.rest, ?_, ?_⟩
    · rintro _ p rfl h; rw [hi] at h; cases h
    · rintro _ p rfl h; rw [hi] at h; cases h
  obtain ⟨set4, -⟩ := settled_step ok3 set3 st3
  have a4 := all_step st3
  rw [← a4] at set4 ok3
  have := (settled_exec ok3 set4 e4).2 t w' hr rfl
  rw [this, a4, a3, a2]
  exact right_words ok

/-- C101, as far as it is true, whichever word is written first: if the first call of `String` has returned before another one is
made, every call returns the right string. -/
theorem C101_first_alone_partial (may : Half → Prop) (all : Map Str Str) (ok : Map.Ok all) (tr b c : List Event) (s : State)
    (t u : Nat) (w w' : Words) (h : Exec (Step may) (init all) tr s) (htr : tr = .call t :: b ++ .ret t w :: c)
    (hb : ∀ e ∈ b, (∀ v, e ≠ .call v) ∧ ∀ x, e ≠ .ret t x) (hr : .ret u w' ∈ tr) : Right all w' := by
  rw [List.cons_append] at htr
  obtain ⟨s1, s2, e1, st1, e2⟩ := h.split [] _ _ htr
  have hq : s1 = init all := by
    have : ∀ {tr s}, Exec (Step may) (init all) tr s → tr = [] → s = init all := by
      intro tr s h
      induction h with
      | start => intro _; rfl
      | step e h st ih =>
        intro he
        simp at he
        have := ih he.1
        cases e with
        | some e => simp at he
        | none =>
          subst this
          cases st <;> simp_all [init]
    exact this e1 rfl
  subst hq
  obtain ⟨s3, s4, e3, st3, e4⟩ := e2.split b _ c rfl
  obtain ⟨-, hs2⟩ := idle_before_call st1
  have h2 := Exec.step _ e1 st1
  have al : ∀ {b' s3}, Exec (Step may) s2 b' s3 → (∀ e ∈ b', (∀ v, e ≠ .call v) ∧ ∀ x, e ≠ .ret t x) →
      Alone (words (textOf all)) t s3 := by
    intro b' s3 h
    induction h with
    | start =>
      intro _
      subst hs2
      constructor <;> simp only [init, upd_apply] <;> grind
    | step e h st ih =>
      intro hb
      have i := inv_exec ok (h2.append h)
      have ea : _ = all := all_exec (h2.append h)
      have ih := ih (fun e he => hb e (List.mem_append_left _ he))
      rw [← ea] at i ih ⊢
      exact alone_step i ih st
        (fun v hv => (hb (.call v) (List.mem_append_right _ (by simp [hv]))).1 v rfl)
        (fun x hx => (hb (.ret t x) (List.mem_append_right _ (by simp [hx]))).2 x rfl)
  have a3 := al e3 hb
  have h3 := h2.append e3
  have i3 := inv_exec ok h3
  have ea3 : s3.all = all := all_exec h3
  have fin : w = words (textOf all) ∧ s4.str = words (textOf all) ∧ ∀ v, s4.thr v = .idle := by
    have others : ∀ v, s4.thr v = .idle := by
      intro v
      rw [idle_after_ret st3, upd_apply]
      split
      · rfl
      · next hv => exact a3.others v hv
    cases st3 with
    | retLen _ p hs =>
      obtain ⟨h1, h2⟩ := a3.ptr p hs
      exact ⟨by rw [h1, h2], h1, others⟩
    | retPtr _ n hs =>
      obtain ⟨h1, h2⟩ := a3.len n hs
      exact ⟨by rw [h1, h2], h1, others⟩
  obtain ⟨f1, f2, f3⟩ := fin
  have ea4 : s4.all = all := by rw [all_step st3, ea3]
  have ok4 : Map.Ok s4.all := by rw [ea4]; exact ok
  have set4 : Settled (fun _ => True) (words (textOf s4.all)) s4 := by
    rw [ea4]
    refine ⟨f2, ?_, ?_, ?_, ?_⟩ <;> intros <;> simp_all
  have rest := (settled_exec ok4 set4 e4).2
  rw [ea4] at rest
  rw [htr] at hr
  have hw' : w' = words (textOf all) := by
    rcases List.mem_cons.mp hr with hr | hr
    · cases hr
    · rcases List.mem_append.mp hr with hm | hr
      · -- a return of another goroutine before: there is none
        obtain ⟨b1, b2, hb12⟩ := List.append_of_mem hm
        obtain ⟨q1, q2, g1, gst, -⟩ := e3.split b1 _ b2 hb12
        have aq := al g1 (fun e he => hb e (by rw [hb12]; exact List.mem_append_left _ he))
        have hu : u ≠ t := by rintro rfl; exact (hb _ hm).2 w' rfl
        have := aq.others u hu
        cases gst with
        | retLen _ p hs => rw [this] at hs; cases hs
        | retPtr _ n hs => rw [this] at hs; cases hs
      · rcases List.mem_cons.mp hr with hr | hr
        · cases hr; exact f1
        · exact rest u w' hr trivial
  rw [hw']
  exact right_words ok

/-- C101, as far as it is true: where the pointer is always written before the length, every call returns the right string,
however the calls overlap. -/
theorem C101_pointer_first_partial (all : Map Str Str) (ok : Map.Ok all) (tr : List Event) (s : State) (t : Nat) (w : Words)
    (h : Exec (Step (· = .ptr)) (init all) tr s) (hr : .ret t w ∈ tr) : Right all w := by
  have key : ∀ {tr s}, Exec (Step (· = .ptr)) (init all) tr s → PtrFirst (words (textOf all)) s ∧
      ∀ t w, .ret t w ∈ tr → w = words (textOf all) := by
    intro tr s h
    induction h with
    | start => exact ⟨by constructor <;> simp [init], by simp⟩
    | step e h st ih =>
      obtain ⟨ih1, ih2⟩ := ih
      have i := inv_exec ok h
      have ea : _ = all := all_exec h
      rw [← ea] at i ih1 ih2 ⊢
      obtain ⟨g1, g2⟩ := ptrFirst_step i ih1 st
      refine ⟨g1, ?_⟩
      intro t w hm
      rcases List.mem_append.mp hm with hm | hm
      · exact ih2 t w hm
      · cases e with
        | none => simp at hm
        | some e => simp at hm; subst hm; exact g2 t w rfl
  rw [(key h).2 t w hr]
  exact right_words ok

/-- Two calls, the second during the first: the run of the violation. -/
theorem run_torn (all : Map Str Str) (ord : List (Str × Str)) (hp : ord.Perm all) (hn : Tags.writeTags ord ≠ []) :
    ∃ s, Exec (Step (· = .len)) (init all) [.call 0, .call 1, .ret 1 ⟨none, (Tags.writeTags ord).length⟩] s := by
  have hl : (words (Tags.writeTags ord)).len ≠ 0 := by simp [words, hn]
  have e0 := Exec.start (step := Step (· = Half.len)) (s₀ := init all)
  have e1 := Exec.step _ e0 (.call _ 0 rfl)
  have e2 := Exec.step _ e1 (.miss _ 0 rfl rfl)
  have e3 := Exec.step _ e2 (.build _ 0 ord rfl hp)
  have e4 := Exec.step _ e3 (.store _ 0 _ .len rfl rfl)
  have e5 := Exec.step _ e4 (.call _ 1 rfl)
  have e6 := Exec.step _ e5 (.hit _ 1 rfl hl)
  have e7 := Exec.step _ e6 (.loadPtr _ 1 rfl)
  have e8 := Exec.step _ e7 (.retLen _ 1 _ rfl)
  exact ⟨_, e8⟩

/-- C101 is false in general: where the length may be written first, any tag set with a tag and two goroutines that ask for its
string at the same time: one of them gets a string with a length and no bytes; reading it is a memory fault. -/
theorem C101_violated (all : Map Str Str) (ok : Map.Ok all) (ne : all ≠ []) : ∃ tr s w,
    Exec (Step (· = .len)) (init all) tr s ∧ .ret 1 w ∈ tr ∧ text w = none ∧ ¬ Right all w := by
  have hn : Tags.writeTags all ≠ [] := by
    rw [writeTags_textOf ok (List.Perm.refl all)]
    refine Tags.tagsText_ne_nil ?_
    intro h
    have := (sortBy_perm Tags.leKey all).length_eq
    rw [h] at this
    exact ne (List.length_eq_zero_iff.mp this.symm)
  obtain ⟨s, h⟩ := run_torn all all (List.Perm.refl all) hn
  have ht : text ⟨none, (Tags.writeTags all).length⟩ = none := by simp [text, hn]
  refine ⟨_, _, _, h, by simp, ht, ?_⟩
  rintro ⟨_, -, h2⟩
  rw [ht] at h2; cases h2

/-- The first call alone, then two that overlap; the string of `{b: 2, a: 1}`. -/
theorem run_ok : ∃ s, Exec (Step (· = .len)) (init [(b!"b", b!"2"), (b!"a", b!"1")])
    [.call 0, .ret 0 ⟨some b!"a=1,b=2", 7⟩, .call 1, .call 2, .ret 2 ⟨some b!"a=1,b=2", 7⟩, .ret 1 ⟨some b!"a=1,b=2", 7⟩] s := by
  have e0 := Exec.start (step := Step (· = Half.len)) (s₀ := init [(b!"b", b!"2"), (b!"a", b!"1")])
  have e1 := Exec.step _ e0 (.call _ 0 rfl)
  have e2 := Exec.step _ e1 (.miss _ 0 rfl rfl)
  have e3 := Exec.step _ e2 (.build _ 0 _ rfl (List.Perm.refl _))
  have e4 := Exec.step _ e3 (.store _ 0 _ .len rfl rfl)
  have e5 := Exec.step _ e4 (.rest _ 0 _ _ rfl)
  have e6 := Exec.step _ e5 (.loadPtr _ 0 rfl)
  have e7 := Exec.step _ e6 (.retLen _ 0 _ rfl)
  have e8 := Exec.step _ e7 (.call _ 1 rfl)
  have e9 := Exec.step _ e8 (.hit _ 1 rfl (by decide +kernel))
  have e10 := Exec.step _ e9 (.call _ 2 rfl)
  have e11 := Exec.step _ e10 (.hit _ 2 rfl (by decide +kernel))
  have e12 := Exec.step _ e11 (.loadLen _ 2 rfl)
  have e13 := Exec.step _ e12 (.loadPtr _ 1 rfl)
  have e14 := Exec.step _ e13 (.retPtr _ 2 _ rfl)
  have e15 := Exec.step _ e14 (.retLen _ 1 _ rfl)
  have key : ∀ {tr tr' : List Event} {s}, Exec (Step (· = Half.len)) (init [(b!"b", b!"2"), (b!"a", b!"1")]) tr s → tr = tr' →
      ∃ s, Exec (Step (· = Half.len)) (init [(b!"b", b!"2"), (b!"a", b!"1")]) tr' s := fun h e => ⟨_, e ▸ h⟩
  exact key e15 (by decide +kernel)

/-- The hypotheses of `C101_first_alone_partial` and `C101_later_partial` are met. -/
example : ∀ w, .ret 1 w ∈ [Event.call 0, .ret 0 ⟨some b!"a=1,b=2", 7⟩, .call 1, .call 2, .ret 2 ⟨some b!"a=1,b=2", 7⟩,
      .ret 1 ⟨some b!"a=1,b=2", 7⟩] → Right [(b!"b", b!"2"), (b!"a", b!"1")] w := by
  intro w hw
  obtain ⟨s, h⟩ := run_ok
  exact C101_first_alone_partial _ _ (by unfold Map.Ok; decide +kernel) _ [] _ s 0 1 _ w h rfl (by simp) hw

example : Right [(b!"b", b!"2"), (b!"a", b!"1")] ⟨some b!"a=1,b=2", 7⟩ := by
  obtain ⟨s, h⟩ := run_ok
  have ok : Map.Ok [(b!"b", b!"2"), (b!"a", b!"1")] := by unfold Map.Ok; decide +kernel
  exact C101_later_partial _ _ ok _ [.call 0] [] [.call 2, .ret 2 ⟨some b!"a=1,b=2", 7⟩, .ret 1 ⟨some b!"a=1,b=2", 7⟩] s 0 1
    ⟨some b!"a=1,b=2", 7⟩ _ h rfl
    (C101_first_alone_partial _ _ ok _ [] _ s 0 0 _ _ h rfl (by simp) (by simp)) (by simp)

/-- The hypotheses of `C101_pointer_first_partial` are met by two calls of which each fills the cache. -/
example : ∃ s, Exec (Step (· = .ptr)) (init [(b!"a", b!"1")])
    [.call 0, .call 1, .ret 1 ⟨some b!"a=1", 3⟩, .ret 0 ⟨some b!"a=1", 3⟩] s := by
  have e0 := Exec.start (step := Step (· = Half.ptr)) (s₀ := init [(b!"a", b!"1")])
  have e1 := Exec.step _ e0 (.call _ 0 rfl)
  have e2 := Exec.step _ e1 (.miss _ 0 rfl rfl)
  have e3 := Exec.step _ e2 (.build _ 0 _ rfl (List.Perm.refl _))
  have e4 := Exec.step _ e3 (.store _ 0 _ .ptr rfl rfl)
  have e5 := Exec.step _ e4 (.call _ 1 rfl)
  have e6 := Exec.step _ e5 (.miss _ 1 rfl rfl)
  have e7 := Exec.step _ e6 (.build _ 1 _ rfl (List.Perm.refl _))
  have e8 := Exec.step _ e7 (.store _ 1 _ .ptr rfl rfl)
  have e9 := Exec.step _ e8 (.rest _ 1 _ _ rfl)
  have e10 := Exec.step _ e9 (.loadPtr _ 1 rfl)
  have e11 := Exec.step _ e10 (.retLen _ 1 _ rfl)
  have e12 := Exec.step _ e11 (.rest _ 0 _ _ rfl)
  have e13 := Exec.step _ e12 (.loadLen _ 0 rfl)
  have e14 := Exec.step _ e13 (.retPtr _ 0 _ rfl)
  have key : ∀ {tr tr' : List Event} {s}, Exec (Step (· = Half.ptr)) (init [(b!"a", b!"1")]) tr s → tr = tr' →
      ∃ s, Exec (Step (· = Half.ptr)) (init [(b!"a", b!"1")]) tr' s := fun h e => ⟨_, e ▸ h⟩
  exact key e14 (by decide +kernel)

end Monkit.TagsConc
