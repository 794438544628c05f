import Verif.Spec.TagsConc
import Verif.Proofs.Tags

namespace Monkit.TagsConc
open Go Spec

theorem text_words (s : Str) : text (words s) = some s := by
  unfold text words
  by_cases h : s = []
  · simp [h]
  · simp [h]

/-- What every state satisfies: the words are those of the right string or still zero. -/
structure Inv (V : Words) (s : State) : Prop where
  ptr : s.str.ptr = none ∨ s.str.ptr = V.ptr
  len : s.str.len = 0 ∨ s.str.len = V.len
  store : ∀ t v, s.thr t = .store v → v = V
  rest : ∀ t h v, s.thr t = .rest h v → v = V
  restLen : ∀ t v, s.thr t = .rest .len v → s.str.ptr = V.ptr
  restPtr : ∀ t v, s.thr t = .rest .ptr v → s.str.len = V.len

theorem upd_apply {α : Type} (f : Nat → α) (t : Nat) (v : α) (t' : Nat) : upd f t v t' = if t' = t then v else f t' := rfl

theorem all_step {may : Half → Prop} {s s' : State} {e : Option Event} (st : Step may s e s') : s'.all = s.all := by
  cases st <;> rfl

/-- The string of the tag set. -/
def textOf (all : Map Str Str) : Str := Tags.Spec.tagsText (sortBy Tags.leKey all)

theorem writeTags_textOf {all : Map Str Str} (ok : Map.Ok all) {ord : List (Str × Str)} (p : ord.Perm all) :
    Tags.writeTags ord = textOf all :=
  Tags.writeTags_eq ok p (Tags.lists_sortBy ok (List.Perm.refl all))

theorem right_words {all : Map Str Str} (ok : Map.Ok all) : Right all (words (textOf all)) :=
  ⟨_, Tags.lists_sortBy ok (List.Perm.refl all), text_words _⟩

theorem right_text {all : Map Str Str} (ok : Map.Ok all) {w : Words} (h : Right all w) : text w = some (textOf all) := by
  obtain ⟨t, h1, h2⟩ := h
  rw [h2, Tags.lists_unique h1 (Tags.lists_sortBy ok (List.Perm.refl all))]; rfl

theorem inv_init (V : Words) (all : Map Str Str) : Inv V (init all) := by
  constructor <;> simp [init]

theorem inv_step {may : Half → Prop} {s s' : State} {e : Option Event} (ok : Map.Ok s.all) (i : Inv (words (textOf s.all)) s)
    (st : Step may s e s') : Inv (words (textOf s.all)) s' := by
  obtain ⟨i1, i2, i3, i4, i5, i6⟩ := i
  cases st
  case build t ord h hp =>
    have e := writeTags_textOf ok hp
    constructor <;> simp only [upd_apply] <;> grind
  case store t v h hs hm =>
    have := i3 t v hs; subst this
    cases h <;> constructor <;> simp only [upd_apply, Half.store, Half.other] <;> grind
  case rest t v h hs =>
    have := i4 t h v hs; subst this
    cases h <;> constructor <;> simp only [upd_apply, Half.store] <;> grind
  all_goals (constructor <;> simp only [upd_apply] <;> grind)

/-- The words are those of the right string, and so is what the goroutines in `A` have read. -/
structure Settled (A : Nat → Prop) (V : Words) (s : State) : Prop where
  str : s.str = V
  store : ∀ t v, s.thr t = .store v → v = V
  rest : ∀ t h v, s.thr t = .rest h v → v = V
  ptr : ∀ t p, A t → s.thr t = .gotPtr p → p = V.ptr
  len : ∀ t n, A t → s.thr t = .gotLen n → n = V.len

theorem store_self (h : Half) (v : Words) : h.store v v = v := by cases h <;> rfl

theorem settled_step {may : Half → Prop} {A : Nat → Prop} {s s' : State} {e : Option Event} (ok : Map.Ok s.all)
    (i : Settled A (words (textOf s.all)) s) (st : Step may s e s') : Settled A (words (textOf s.all)) s' ∧
      ∀ t w, e = some (.ret t w) → A t → w = words (textOf s.all) := by
  obtain ⟨i1, i3, i4, i5, i6⟩ := i
  cases st
  case build t ord h hp =>
    have e := writeTags_textOf ok hp
    refine ⟨?_, by simp⟩
    constructor <;> simp only [upd_apply] <;> grind
  case store t v h hs hm =>
    have := i3 t v hs; subst this
    refine ⟨?_, by simp⟩
    have := store_self h (words (textOf s.all))
    constructor <;> simp only [upd_apply] <;> grind
  case rest t v h hs =>
    have := i4 t h v hs; subst this
    refine ⟨?_, by simp⟩
    have := store_self h (words (textOf s.all))
    constructor <;> simp only [upd_apply] <;> grind
  case retLen t p hs =>
    refine ⟨by constructor <;> simp only [upd_apply] <;> grind, ?_⟩
    intro u w he ha
    simp only [Option.some.injEq, Event.ret.injEq] at he
    obtain ⟨rfl, rfl⟩ := he
    rw [i5 t p ha hs, i1]
  case retPtr t n hs =>
    refine ⟨by constructor <;> simp only [upd_apply] <;> grind, ?_⟩
    intro u w he ha
    simp only [Option.some.injEq, Event.ret.injEq] at he
    obtain ⟨rfl, rfl⟩ := he
    rw [i6 t n ha hs, i1]
  all_goals (refine ⟨?_, by simp⟩; constructor <;> simp only [upd_apply] <;> grind)

theorem all_exec {may : Half → Prop} {s₀ s : State} {tr : List Event} (h : Exec (Step may) s₀ tr s) : s.all = s₀.all := by
  induction h with
  | start => rfl
  | step e _ st ih => rw [all_step st, ih]

theorem inv_exec {may : Half → Prop} {all : Map Str Str} (ok : Map.Ok all) {s : State} {tr : List Event}
    (h : Exec (Step may) (init all) tr s) : Inv (words (textOf all)) s := by
  induction h with
  | start => exact inv_init _ _
  | step e h st ih =>
    have ea : _ = all := all_exec h
    rw [← ea] at ih ok ⊢
    exact inv_step ok ih st

theorem settled_exec {may : Half → Prop} {A : Nat → Prop} {s₀ s : State} {tr : List Event} (ok : Map.Ok s₀.all)
    (i : Settled A (words (textOf s₀.all)) s₀) (h : Exec (Step may) s₀ tr s) :
    Settled A (words (textOf s₀.all)) s ∧ ∀ t w, .ret t w ∈ tr → A t → w = words (textOf s₀.all) := by
  induction h with
  | start => exact ⟨i, by simp⟩
  | step e h st ih =>
    obtain ⟨ih1, ih2⟩ := ih
    have ea := all_exec h
    rw [← ea] at ok ih1 ih2 ⊢
    obtain ⟨g1, g2⟩ := settled_step ok ih1 st
    refine ⟨g1, ?_⟩
    intro t w hm ha
    rcases List.mem_append.mp hm with hm | hm
    · exact ih2 t w hm ha
    · cases e with
      | none => simp at hm
      | some e => simp at hm; subst hm; exact g2 t w rfl ha

/-- A right answer shows that both words are in place. -/
theorem text_eq {V : Str} {w : Words} (hp : w.ptr = none ∨ w.ptr = (words V).ptr) (hl : w.len = 0 ∨ w.len = (words V).len)
    (h : text w = some V) : w = words V := by
  obtain ⟨p, n⟩ := w
  unfold text at h
  by_cases hV : V = []
  · subst hV
    simp [words] at *
    exact ⟨hp, hl⟩
  · have e : words V = ⟨some V, V.length⟩ := by simp [words, hV]
    rw [e] at hp hl ⊢
    simp only at hp hl
    rcases hl with rfl | rfl
    · simp at h; exact absurd h hV
    · rcases hp with rfl | rfl
      · simp at h; exact absurd h hV
      · rfl

/-- What goroutines have read. -/
structure Got (V : Words) (s : State) : Prop where
  ptr : ∀ t p, s.thr t = .gotPtr p → p = none ∨ p = V.ptr
  len : ∀ t n, s.thr t = .gotLen n → n = 0 ∨ n = V.len
  ptr' : ∀ t, s.thr t = .gotPtr V.ptr → V.ptr ≠ none → s.str.ptr = V.ptr
  len' : ∀ t, s.thr t = .gotLen V.len → V.len ≠ 0 → s.str.len = V.len

theorem got_step {may : Half → Prop} {s s' : State} {e : Option Event} (i : Inv (words (textOf s.all)) s)
    (g : Got (words (textOf s.all)) s) (st : Step may s e s') : Got (words (textOf s.all)) s' := by
  obtain ⟨i1, i2, i3, i4, i5, i6⟩ := i
  obtain ⟨g1, g2, g3, g4⟩ := g
  cases st
  case store t v h hs hm =>
    have := i3 t v hs; subst this
    cases h <;> constructor <;> simp only [upd_apply, Half.store, Half.other] <;> grind
  case rest t v h hs =>
    have := i4 t h v hs; subst this
    cases h <;> constructor <;> simp only [upd_apply, Half.store] <;> grind
  all_goals (constructor <;> simp only [upd_apply] <;> grind)

theorem got_exec {may : Half → Prop} {all : Map Str Str} (ok : Map.Ok all) {s : State} {tr : List Event}
    (h : Exec (Step may) (init all) tr s) : Got (words (textOf all)) s := by
  induction h with
  | start => constructor <;> simp [init]
  | step e h st ih =>
    have i := inv_exec ok h
    have ea : _ = all := all_exec h
    rw [← ea] at ih i ⊢
    exact got_step i ih st

/-- After a right answer the cache is filled. -/
theorem filled_of_ret {may : Half → Prop} {all : Map Str Str} (ok : Map.Ok all) {s s' : State} {tr : List Event} {t : Nat}
    {w : Words} (h : Exec (Step may) (init all) tr s) (st : Step may s (some (.ret t w)) s') (hw : text w = some (textOf all)) :
    s'.str = words (textOf all) := by
  have i := inv_exec ok h
  have g := got_exec ok h
  by_cases hV : textOf all = []
  · have i1 := i.ptr
    have i2 := i.len
    rw [hV] at i1 i2 ⊢
    have : s.str = words [] := by
      have : s.str = ⟨s.str.ptr, s.str.len⟩ := rfl
      rw [this]; simp [words] at i1 i2 ⊢; exact ⟨i1, i2⟩
    cases st <;> exact this
  · have hp : (words (textOf all)).ptr ≠ none := by simp [words, hV]
    have hl : (words (textOf all)).len ≠ 0 := by simp [words, hV]
    cases st with
    | retLen _ p hs =>
      have e := text_eq (w := ⟨p, s.str.len⟩) (g.ptr t p hs) i.len hw
      have e1 : p = (words (textOf all)).ptr := congrArg Words.ptr e
      have e2 : s.str.len = (words (textOf all)).len := (congrArg Words.len e : (Words.mk p s.str.len).len = _)
      have e3 := g.ptr' t (by rw [hs, e1]) hp
      show Words.mk s.str.ptr s.str.len = _
      rw [e2, e3]
    | retPtr _ n hs =>
      have e := text_eq (w := ⟨s.str.ptr, n⟩) i.ptr (g.len t n hs) hw
      have e1 : n = (words (textOf all)).len := congrArg Words.len e
      have e2 : s.str.ptr = (words (textOf all)).ptr := (congrArg Words.ptr e : (Words.mk s.str.ptr n).ptr = _)
      have e3 := g.len' t (by rw [hs, e1]) hl
      show Words.mk s.str.ptr s.str.len = _
      rw [e2, e3]

/-- While one goroutine is alone in its first call. -/
structure Alone (V : Words) (t : Nat) (s : State) : Prop where
  others : ∀ u, u ≠ t → s.thr u = .idle
  check : s.thr t = .check → s.str = ⟨none, 0⟩
  build : s.thr t = .build → s.str = ⟨none, 0⟩
  load : s.thr t = .load → s.str = V
  ptr : ∀ p, s.thr t = .gotPtr p → s.str = V ∧ p = V.ptr
  len : ∀ n, s.thr t = .gotLen n → s.str = V ∧ n = V.len
  busy : s.thr t ≠ .idle

theorem alone_step {may : Half → Prop} {s s' : State} {e : Option Event} {t : Nat} (i : Inv (words (textOf s.all)) s)
    (a : Alone (words (textOf s.all)) t s) (st : Step may s e s') (hc : ∀ u, e ≠ some (.call u))
    (hr : ∀ w, e ≠ some (.ret t w)) : Alone (words (textOf s.all)) t s' := by
  obtain ⟨i1, i2, i3, i4, i5, i6⟩ := i
  obtain ⟨a1, a2, a3, a4, a5, a6, a7⟩ := a
  cases st
  case call u h => exact absurd rfl (hc u)
  case store u v h hs hm =>
    have := i3 u v hs; subst this
    have : u = t := by by_contra hu; rw [a1 u hu] at hs; cases hs
    subst this
    constructor <;> simp only [upd_apply] <;> grind
  case rest u v h hs =>
    have := i4 u h v hs; subst this
    have : u = t := by by_contra hu; rw [a1 u hu] at hs; cases hs
    subst this
    have key : h.store (words (textOf s.all)) s.str = words (textOf s.all) := by
      cases h with
      | ptr => have := i6 u _ hs; simp only [Half.store, this]
      | len => have := i5 u _ hs; simp only [Half.store, this]
    constructor <;> simp only [upd_apply] <;> grind
  case retLen u p hs =>
    have : u ≠ t := by rintro rfl; exact hr _ rfl
    rw [a1 u this] at hs; cases hs
  case retPtr u n hs =>
    have : u ≠ t := by rintro rfl; exact hr _ rfl
    rw [a1 u this] at hs; cases hs
  case hit u h h2 =>
    have : u = t := by by_contra hu; have := a1 u hu; grind
    subst this
    constructor <;> simp only [upd_apply] <;> grind
  case miss u h h2 =>
    have : u = t := by by_contra hu; have := a1 u hu; grind
    subst this
    constructor <;> simp only [upd_apply] <;> grind
  case build u ord h h2 =>
    have : u = t := by by_contra hu; have := a1 u hu; grind
    subst this
    constructor <;> simp only [upd_apply] <;> grind
  case loadPtr u h =>
    have : u = t := by by_contra hu; have := a1 u hu; grind
    subst this
    constructor <;> simp only [upd_apply] <;> grind
  case loadLen u h =>
    have : u = t := by by_contra hu; have := a1 u hu; grind
    subst this
    constructor <;> simp only [upd_apply] <;> grind

/-- With the pointer written first, a length says that there is a pointer. -/
structure PtrFirst (V : Words) (s : State) : Prop where
  len : s.str.len ≠ 0 → s.str.ptr = V.ptr
  rest : ∀ t h v, s.thr t = .rest h v → h = .len
  load : ∀ t, s.thr t = .load → s.str = V
  ptr : ∀ t p, s.thr t = .gotPtr p → s.str = V ∧ p = V.ptr
  gotLen : ∀ t n, s.thr t = .gotLen n → s.str = V ∧ n = V.len

theorem ptrFirst_step {s s' : State} {e : Option Event} (i : Inv (words (textOf s.all)) s)
    (f : PtrFirst (words (textOf s.all)) s) (st : Step (· = .ptr) s e s') : PtrFirst (words (textOf s.all)) s' ∧
      ∀ t w, e = some (.ret t w) → w = words (textOf s.all) := by
  obtain ⟨i1, i2, i3, i4, i5, i6⟩ := i
  obtain ⟨f1, f2, f3, f4, f5⟩ := f
  have ext : ∀ w : Words, w.ptr = (words (textOf s.all)).ptr → w.len = (words (textOf s.all)).len →
      w = words (textOf s.all) := by
    rintro ⟨p, n⟩ h1 h2; simp only at h1 h2; rw [h1, h2]
  cases st
  case store t v h hs hm =>
    have := i3 t v hs; subst this
    subst hm
    refine ⟨?_, by simp⟩
    have key : s.str = words (textOf s.all) → Half.store .ptr (words (textOf s.all)) s.str = words (textOf s.all) := by
      intro h; rw [h]; rfl
    constructor <;> simp only [upd_apply, Half.other]
    · intro _; rfl
    all_goals grind
  case rest t v h hs =>
    have := i4 t h v hs; subst this
    have := f2 t h _ hs; subst this
    have := i5 t _ hs
    refine ⟨?_, by simp⟩
    have key : Half.store .len (words (textOf s.all)) s.str = words (textOf s.all) := by
      simp only [Half.store, this]
    constructor <;> simp only [upd_apply, key] <;> grind
  case retLen t p hs =>
    refine ⟨by constructor <;> simp only [upd_apply] <;> grind, ?_⟩
    intro u w he
    simp only [Option.some.injEq, Event.ret.injEq] at he
    obtain ⟨rfl, rfl⟩ := he
    rw [(f4 t p hs).2, (f4 t p hs).1]
  case retPtr t n hs =>
    refine ⟨by constructor <;> simp only [upd_apply] <;> grind, ?_⟩
    intro u w he
    simp only [Option.some.injEq, Event.ret.injEq] at he
    obtain ⟨rfl, rfl⟩ := he
    rw [(f5 t n hs).2, (f5 t n hs).1]
  all_goals (refine ⟨?_, by simp⟩; constructor <;> simp only [upd_apply] <;> grind)

end Monkit.TagsConc
