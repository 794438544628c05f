import Verif.Proofs.Annotations

/-!
# C72: annotations of a span

Executions are arbitrary schedules of any number of goroutines annotating one span and listing its annotations.
-/

namespace Monkit.Annotations
open Go Monkit.Spec.Annotations

/-- The moment a goroutine's last call got the mutex is unique. -/
theorem since_unique {t : Nat} {op op' : Op} {p m p' m' : List Event} (h : ∀ e ∈ m, by_ t e = false)
    (h' : ∀ e ∈ m', by_ t e = false) (he : p ++ Event.acquire t op :: m = p' ++ Event.acquire t op' :: m') :
    p = p' ∧ op = op' := by
  rw [List.append_eq_append_iff] at he
  rcases he with ⟨x, hx1, hx2⟩ | ⟨x, hx1, hx2⟩
  · cases x with
    | nil => simp at hx1 hx2; exact ⟨hx1.symm, hx2.1⟩
    | cons y ys =>
      simp at hx2
      exact absurd (h (.acquire t op') (by rw [hx2.2]; simp)) (by simp [by_])
  · cases x with
    | nil => simp at hx1 hx2; exact ⟨hx1, hx2.1.symm⟩
    | cons y ys =>
      simp at hx2
      exact absurd (h' (.acquire t op) (by rw [hx2.2]; simp)) (by simp [by_])

theorem own_since {t : Nat} {op : Op} {p tr : List Event} (h : Since t op p tr) :
    ∃ l, own t tr = l ++ [.call t op, .acquire t op] := by
  obtain ⟨⟨m, rfl, hm⟩, l, hl⟩ := h
  refine ⟨l, ?_⟩
  rw [own_append, hl]
  have : own t (Event.acquire t op :: m) = [.acquire t op] := by
    have := own_none t m hm
    simp only [own] at this ⊢
    simp [List.filter_cons, by_, this]
  rw [this]; simp

/-- **C72.** Every call that returns was called and got the mutex exactly once in between: an `Annotate` that has returned has
added its annotation, an `Annotations` that has returned chose one moment during the call. -/
theorem C72_calls (p q : List Event) (t : Nat) (e : Event) (s : State) (h : Exec Step init (p ++ e :: q) s) :
    (e = .done t → ∃ l x, own t p = l ++ [.call t (.annotate x), .acquire t (.annotate x)]) ∧
    ∀ a n, e = .list t a n → ∃ l, own t p = l ++ [.call t .annotations, .acquire t .annotations] := by
  obtain ⟨s1, s2, h1, st, _⟩ := h.split p _ q rfl
  have hi := (inv_exec h1).pend t
  constructor
  · rintro rfl
    cases st with
    | unlock _ hp =>
      rw [hp] at hi
      obtain ⟨p', x, hs⟩ := hi
      obtain ⟨l, hl⟩ := own_since hs
      exact ⟨l, x, hl⟩
  · rintro a n rfl
    cases st with
    | ret _ hd acc extra hp all =>
      rw [hp] at hi
      obtain ⟨p', hs, _⟩ := hi
      exact own_since hs

/-- What stays true of a slice once `Annotations` has handed it out. -/
structure Owned (a : Nat) (base : List Annotation) (tr : List Event) (s : State) : Prop where
  given : s.given a = true
  ann : 0 < s.ann.cap → s.ann.arr ≠ a
  fresh : a < s.next
  long : base.length ≤ (s.heap a).length
  got : ∀ i < base.length, (s.heap a)[i]? = (edited a i tr).orElse fun _ => base[i]?

theorem owned_step (a : Nat) (base : List Annotation) (tr : List Event) (s : State) (e : Option Event) (s' : State)
    (h : Owned a base tr s) (st : Step s e s') : Owned a base (tr ++ e.toList) s' := by
  obtain ⟨hg, hann, hf, hlong, hr⟩ := h
  have hgot : ∀ e i, (∀ x, e ≠ Event.uset a i x) →
      (edited a i (tr ++ [e])).orElse (fun _ => base[i]?) = (edited a i tr).orElse fun _ => base[i]? := by
    intro e i he
    rw [edited_snoc]
    cases e with
    | uset a' i' x =>
      have : ¬ (a' = a ∧ i' = i) := by rintro ⟨rfl, rfl⟩; exact he _ rfl
      simp [this]
    | _ => rfl
  cases st with
  | call => exact ⟨hg, hann, hf, hlong, fun i hi => by rw [Option.toList_some, hgot _ _ (by simp)]; exact hr i hi⟩
  | lock => exact ⟨hg, hann, hf, hlong, fun i hi => by rw [Option.toList_some, hgot _ _ (by simp)]; exact hr i hi⟩
  | append t x hp room =>
    have : a ≠ s.ann.arr := fun e => hann (by omega) e.symm
    exact ⟨hg, hann, hf, by simp only [upd_other _ _ this]; exact hlong, fun i hi => by
      simp only [upd_other _ _ this]; simpa using hr i hi⟩
  | grow t x extra hp full =>
    have : a ≠ s.next := Nat.ne_of_lt hf
    exact ⟨hg, fun _ e => this e.symm, by simp; omega, by simp only [upd_other _ _ this]; exact hlong, fun i hi => by
      simp only [upd_other _ _ this]; simpa using hr i hi⟩
  | unlock => exact ⟨hg, hann, hf, hlong, fun i hi => by rw [Option.toList_some, hgot _ _ (by simp)]; exact hr i hi⟩
  | load => exact ⟨hg, hann, hf, hlong, by simpa using hr⟩
  | release => exact ⟨hg, hann, hf, hlong, by simpa using hr⟩
  | copy => exact ⟨hg, hann, hf, hlong, by simpa using hr⟩
  | ret t hd acc extra hp all =>
    have : a ≠ s.next := Nat.ne_of_lt hf
    exact ⟨by simp only [upd_other _ _ this]; exact hg, hann, by simp; omega, by simp only [upd_other _ _ this]; exact hlong,
      fun i hi => by rw [Option.toList_some, hgot _ _ (by simp)]; simp only [upd_other _ _ this]; exact hr i hi⟩
  | uset b i x hb =>
    by_cases e : b = a
    · subst e
      refine ⟨hg, hann, hf, by simpa using hlong, fun j hj => ?_⟩
      rw [Option.toList_some, edited_snoc]
      simp only [upd_same, List.getElem?_set, true_and]
      by_cases e : i = j
      · subst e; simp; omega
      · simp only [e, if_false]; exact hr j hj
    · have e' : a ≠ b := fun h => e h.symm
      exact ⟨hg, hann, hf, by simp only [upd_other _ _ e']; exact hlong, fun j hj => by
        rw [Option.toList_some, hgot _ _ (by simp [e])]; simp only [upd_other _ _ e']; exact hr j hj⟩
  | uget => exact ⟨hg, hann, hf, hlong, fun i hi => by rw [Option.toList_some, hgot _ _ (by simp)]; exact hr i hi⟩

/-- **C72.** `Annotations` returns exactly the annotations added before it got the mutex, oldest first, however many others are
being added while it copies.  The slice belongs to the caller: what is read from it later is that list, except where callers
stored something else into it. -/
theorem C72_snapshot (p m q : List Event) (t a n i : Nat) (r : Option Annotation) (s : State)
    (h : Exec Step init (p ++ .acquire t .annotations :: m ++ .list t a n :: q ++ [.uget a i r]) s)
    (hm : ∀ e ∈ m, by_ t e = false) :
    n = (added p).length ∧ (i < n → r = (edited a i q).orElse fun _ => (added p)[i]?) := by
  obtain ⟨s1, s2, h1, st, h2⟩ := h.split (p ++ .acquire t .annotations :: m) (.list t a n) (q ++ [.uget a i r]) (by simp)
  have hi := inv_exec h1
  have hbase : Owned a (added p) [] s2 ∧ n = (added p).length := by
    cases st with
    | ret _ hd acc extra hp all =>
      have hpd := hi.pend t
      rw [hp] at hpd
      obtain ⟨p', ⟨⟨m', e, hm'⟩, _⟩, hs, hacc, _⟩ := hpd
      obtain ⟨rfl, _⟩ := since_unique hm hm' e
      have hacc' : acc = added p := by rw [hacc, all, hs.1, List.take_length]
      refine ⟨⟨by simp, fun hc => Nat.ne_of_lt (hi.hdr.2 hc).1, by simp, by simp [hacc'], fun i hi => ?_⟩, by rw [hacc']⟩
      simp only [upd_same, edited, List.foldl_nil]
      rw [hacc', List.getElem?_append_left hi]
      rfl
  obtain ⟨s3, s4, h3, st', _⟩ := h2.split q _ [] rfl
  have ho := h3.induct (Owned a (added p)) hbase.1 (owned_step a (added p))
  refine ⟨hbase.2, fun hin => ?_⟩
  cases st' with
  | uget _ _ _ => exact ho.got i (by rw [← hbase.2]; exact hin)

/-- **C72.** While nobody is in the middle of adding one, the span holds exactly the annotations added so far. -/
theorem C72_all_kept (tr : List Event) (s : State) (h : Exec Step init tr s) (quiet : ∀ t, s.thr t = .idle) :
    (s.heap s.ann.arr).take s.ann.len = added tr :=
  (inv_exec h).idle fun t x e => by rw [quiet t] at e; cases e

/-- The hypotheses are met: a second annotation goes into the same array while the first is being copied. -/
example : ∃ s, Exec Step init ([.call 0 (.annotate ⟨b!"a", b!"1"⟩), .acquire 0 (.annotate ⟨b!"a", b!"1"⟩), .done 0, .call 1 .annotations] ++
      .acquire 1 .annotations :: [.call 0 (.annotate ⟨b!"b", b!"2"⟩), .acquire 0 (.annotate ⟨b!"b", b!"2"⟩), .done 0] ++
      .list 1 1 1 :: [] ++ [.uget 1 0 (some ⟨b!"a", b!"1"⟩)]) s ∧ ∀ t, s.thr t = .idle := by
  have e := Exec.start (step := Step) (s₀ := init)
  have e := Exec.step _ e (.call _ 0 (.annotate ⟨b!"a", b!"1"⟩) rfl)
  have e := Exec.step _ e (.lock _ 0 _ rfl rfl)
  have e := Exec.step _ e (.grow _ 0 _ [⟨[], []⟩] rfl rfl)
  have e := Exec.step _ e (.unlock _ 0 rfl)
  have e := Exec.step _ e (.call _ 1 .annotations rfl)
  have e := Exec.step _ e (.lock _ 1 _ rfl rfl)
  have e := Exec.step _ e (.load _ 1 rfl)
  have e := Exec.step _ e (.release _ 1 _ rfl)
  have e := Exec.step _ e (.call _ 0 (.annotate ⟨b!"b", b!"2"⟩) rfl)
  have e := Exec.step _ e (.lock _ 0 _ rfl rfl)
  have e := Exec.step _ e (.append _ 0 _ rfl (by decide))
  have e := Exec.step _ e (.copy _ 1 _ _ ⟨b!"a", b!"1"⟩ rfl (by decide) rfl)
  have e := Exec.step _ e (.unlock _ 0 rfl)
  have e := Exec.step _ e (.ret _ 1 _ _ [] rfl rfl)
  have e := Exec.step _ e (.uget _ 1 0 rfl)
  refine ⟨_, e, ?_⟩
  intro t
  by_cases h0 : t = 0 <;> by_cases h1 : t = 1 <;> simp [upd, init, *]

end Monkit.Annotations
