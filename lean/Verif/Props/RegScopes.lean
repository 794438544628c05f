import Verif.Proofs.RegScopes

/-!
# C44: the scopes of a registry
-/

namespace Monkit.RegScopes
open Go Spec

/-- **C44.** For every number of goroutines and every schedule, everything that happens is allowed by the specification. -/
theorem C44_history {tr : List Ev} {s : State} (h : Exec Step State.init tr s) {a b : List Ev} {e : Ev} (hab : tr = a ++ e :: b) :
    Legal a e := by
  obtain ⟨s1, s2, h1, h2, _⟩ := Exec.split h a e b hab
  exact step_legal (inv h1) h2

/-- `ScopeNamed` returns the same scope for the same name, and different ones for different names. -/
theorem C44_scope_named {tr : List Ev} {s : State} (h : Exec Step State.init tr s) {t t' : Nat} {n n' : Str} {x x' : Scope}
    (h1 : Ev.ret t n x ∈ tr) (h2 : Ev.ret t' n' x' ∈ tr) : x.name = n ∧ (x.id = x'.id ↔ n = n') ∧ (n = n' → x = x') := by
  have key : ∀ t n x, Ev.ret t n x ∈ tr → x ∈ created tr ∧ x.name = n := by
    intro t n x hx
    obtain ⟨a, b, hab⟩ := List.append_of_mem hx
    obtain ⟨g1, g2⟩ := C44_history h hab
    refine ⟨?_, g2⟩
    rw [hab]
    unfold created at *
    rw [List.filterMap_append, List.mem_append]
    exact Or.inl g1
  obtain ⟨m1, e1⟩ := key t n x h1
  obtain ⟨m2, e2⟩ := key t' n' x' h2
  have hi := inv h
  have same : n = n' → x = x' := by
    intro e
    have g1 := (hi.content x).1 m1
    have g2 := (hi.content x').1 m2
    rw [e1, e, ← e2, g2] at g1
    exact (Option.some.inj g1).symm
  refine ⟨e1, ⟨fun e => ?_, fun e => by rw [same e]⟩, same⟩
  -- two created scopes with one id
  by_contra hne
  have hxx : x ≠ x' := fun e => hne (by rw [← e1, ← e2, e])
  have cr : ∀ y, y ∈ created tr → ∃ t a b, tr = a ++ Ev.made t y :: b := by
    intro y hy
    unfold created at hy
    rw [List.mem_filterMap] at hy
    obtain ⟨ev, hev, hy⟩ := hy
    cases ev with
    | made t y' =>
      cases hy
      obtain ⟨a, b, hab⟩ := List.append_of_mem hev
      exact ⟨t, a, b, hab⟩
    | _ => cases hy
  obtain ⟨u, a, b, hab⟩ := cr x m1
  obtain ⟨u', a', b', hab'⟩ := cr x' m2
  -- the later of the two is new
  have split : ∀ (a b a' b' : List Ev) (y y' : Scope) (u u' : Nat), a ++ Ev.made u y :: b = a' ++ Ev.made u' y' :: b' →
      y ≠ y' → (Ev.made u y ∈ a') ∨ (Ev.made u' y' ∈ a) := by
    intro a
    induction a with
    | nil =>
      intro b a' b' y y' u u' e hyy
      cases a' with
      | nil => simp at e; exact absurd e.1.2 hyy
      | cons z a' => simp at e; exact Or.inl (by rw [e.1]; simp)
    | cons z a ih =>
      intro b a' b' y y' u u' e hyy
      cases a' with
      | nil => simp at e; exact Or.inr (by rw [e.1]; simp)
      | cons z' a' =>
        simp only [List.cons_append, List.cons.injEq] at e
        rcases ih b a' b' y y' u u' e.2 hyy with h | h
        · exact Or.inl (by simp [h])
        · exact Or.inr (by simp [h])
  have mk : ∀ (l : List Ev) (u : Nat) (y : Scope), Ev.made u y ∈ l → y ∈ created l := by
    intro l u y hl
    unfold created
    rw [List.mem_filterMap]
    exact ⟨_, hl, rfl⟩
  rcases split a b a' b' x x' u u' (hab.symm.trans hab') hxx with hh | hh
  · exact (C44_history h hab' x (mk _ _ _ hh)).2 e
  · exact (C44_history h hab x' (mk _ _ _ hh)).2 e.symm

theorem look_run (t : Nat) (a b : List Ev) (hb : Ev.copied t ∉ b) :
    look t (a ++ Ev.copied t :: b) = (created a, b.filterMap fun | .visit t' x => if t' = t then some x else none | _ => none) := by
  have e : a ++ Ev.copied t :: b = (a ++ [Ev.copied t]) ++ b := by simp
  rw [e]
  generalize hn : b.length = n
  induction n generalizing b with
  | zero =>
    have : b = [] := List.length_eq_zero_iff.1 hn
    subst this
    rw [List.append_nil, look_snoc]
    simp
  | succ n ih =>
    rcases List.eq_nil_or_concat b with rfl | ⟨b', ev, rfl⟩
    · simp at hn
    · rw [List.concat_eq_append] at *
      have hb' : Ev.copied t ∉ b' := fun h => hb (by simp [h])
      have := ih b' hb' (by simp) (by simpa using hn)
      rw [← List.append_assoc, look_snoc, this, List.filterMap_append]
      cases ev with
      | copied t' =>
        have : t' ≠ t := fun e => hb (by simp [e])
        simp [this]
      | visit t' x => by_cases hh : t' = t <;> simp [hh]
      | _ => simp

/-- `Scopes` visits, in increasing order of names and each exactly once, exactly the scopes that had been created when it looked at
the registry.  (`b` is what happens between that moment and its end.) -/
theorem C44_scopes {tr : List Ev} {s : State} (h : Exec Step State.init tr s) {a b d : List Ev} {t : Nat}
    (hab : tr = a ++ .copied t :: (b ++ .done t :: d)) (hb : Ev.copied t ∉ b) :
    let visits := b.filterMap fun | .visit t' x => if t' = t then some x else none | _ => none
    visits.Pairwise (fun x y => strLt x.name y.name = true) ∧ ∀ x, x ∈ visits ↔ x ∈ created a := by
  intro visits
  have hl : look t (a ++ .copied t :: b) = (created a, visits) := look_run t a b hb
  have sub : ∀ b1 b2, b = b1 ++ b2 → ∀ v ∈ (b1.filterMap fun | .visit t' x => if t' = t then some x else none | _ => none),
      v ∈ created a := by
    intro b1 b2 hb12 v hv
    rw [List.mem_filterMap] at hv
    obtain ⟨ev, hev, hv⟩ := hv
    cases ev with
    | visit t' y =>
      simp only at hv
      split at hv
      · rename_i ht
        cases hv
        subst ht
        obtain ⟨c1, c2, hc⟩ := List.append_of_mem hev
        have hb1 : Ev.copied t' ∉ c1 := fun hh => hb (by rw [hb12, hc]; simp [hh])
        have := C44_history h (a := a ++ .copied t' :: c1) (e := .visit t' v) (b := c2 ++ b2 ++ .done t' :: d)
          (by rw [hab, hb12, hc]; simp)
        rw [Legal, look_run _ _ _ hb1] at this
        exact this.1
      · cases hv
    | _ => cases hv
  constructor
  · have : ∀ n b1 b2, b1.length = n → b = b1 ++ b2 →
        (b1.filterMap fun | .visit t' x => if t' = t then some x else none | _ => none).Pairwise
          (fun x y => strLt x.name y.name = true) := by
      intro n
      induction n with
      | zero =>
        intro b1 b2 hn _
        have : b1 = [] := List.length_eq_zero_iff.1 hn
        subst this
        exact List.Pairwise.nil
      | succ n ih =>
        intro b1 b2 hn hb12
        rcases List.eq_nil_or_concat b1 with rfl | ⟨b', ev, rfl⟩
        · simp at hn
        · rw [List.concat_eq_append] at *
          have ih' := ih b' (ev :: b2) (by simpa using hn) (by rw [hb12]; simp)
          rw [List.filterMap_append]
          cases ev with
          | visit t' x =>
            by_cases ht : t' = t
            · subst ht
              simp only [List.filterMap_cons, if_true, List.filterMap_nil]
              refine List.pairwise_append.2 ⟨ih', List.pairwise_singleton _ _, fun v hv y hy => ?_⟩
              rw [List.mem_singleton] at hy
              subst hy
              have hb1 : Ev.copied t' ∉ b' := fun hh => hb (by rw [hb12]; simp [hh])
              have := C44_history h (a := a ++ .copied t' :: b') (e := .visit t' y) (b := b2 ++ .done t' :: d)
                (by rw [hab, hb12]; simp)
              rw [Legal, look_run _ _ _ hb1] at this
              exact this.2 v hv
            · simpa [ht] using ih'
          | _ => simpa using ih'
    exact this b.length b [] rfl (by simp)
  · intro x
    refine ⟨fun hx => sub b [] (by simp) x hx, fun hx => ?_⟩
    have := C44_history h (a := a ++ .copied t :: b) (e := .done t) (b := d) (by rw [hab]; simp)
    rw [Legal, hl] at this
    exact this x hx

/-- Non-vacuity: two goroutines; scopes "b" and "a" are made and visited in the order "a", "b". -/
example : ∃ s, Exec Step State.init
    [.call 0 b!"b", .call 1 b!"a", .made 0 ⟨0, b!"b"⟩, .ret 0 b!"b" ⟨0, b!"b"⟩, .made 1 ⟨1, b!"a"⟩, .ret 1 b!"a" ⟨1, b!"a"⟩,
     .copied 0, .visit 0 ⟨1, b!"a"⟩, .visit 0 ⟨0, b!"b"⟩, .done 0] s := by
  have h0 : Exec Step State.init [] State.init := .start
  have h1 := Exec.step _ h0 (.call _ 0 b!"b" rfl)
  have h2 := Exec.step _ h1 (.call _ 1 b!"a" rfl)
  have h3 := Exec.step _ h2 (.nLock _ 0 _ rfl rfl)
  have h4 := Exec.step _ h3 (.make _ 0 _ rfl rfl)
  have h5 := Exec.step _ h4 (.nUnlock _ 0 _ _ rfl)
  have h6 := Exec.step _ h5 (.nLock _ 1 _ rfl rfl)
  have h7 := Exec.step _ h6 (.make _ 1 _ rfl rfl)
  have h8 := Exec.step _ h7 (.nUnlock _ 1 _ _ rfl)
  have h9 := Exec.step _ h8 (.aCall _ 0 rfl)
  have h10 := Exec.step _ h9 (.aLock _ 0 rfl rfl)
  have h11 := Exec.step _ h10 (.aCopy _ 0 _ rfl (List.Perm.refl _))
  have h12 := Exec.step _ h11 (.aUnlock _ 0 _ rfl)
  have h13 := Exec.step _ h12 (.aSort _ 0 _ [⟨1, b!"a"⟩, ⟨0, b!"b"⟩] rfl (List.Perm.swap ..) (by decide +kernel))
  have h14 := Exec.step _ h13 (.aVisit _ 0 _ _ rfl)
  have h15 := Exec.step _ h14 (.aVisit _ 0 _ _ rfl)
  have h16 := Exec.step _ h15 (.aDone _ 0 rfl)
  exact ⟨_, h16⟩

end Monkit.RegScopes
