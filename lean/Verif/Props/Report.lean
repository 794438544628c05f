import Verif.Proofs.Report

/-! # C102: a report contains what was recorded before it -/

namespace Monkit.Report
open Go Spec

theorem at_exec {a : List Event} {s1 : State} (h1 : Exec Step init a s1) {t : Nat} {b : List Event} {s : State}
    (h : Exec Step s1 b s) (h0 : At s1 s1 (s1.pc t)) (hb : ∀ op r, .ret t op r ∉ b) : At s1 s (s.pc t) := by
  induction h with
  | start => exact h0
  | step e h st ih =>
    have i := inv (h1.append h)
    refine at_step i.tab i.nums (grows_exec h) (ih fun op r hh => hb op r (List.mem_append_left _ hh)) st ?_
    rintro op r rfl
    exact hb op r (List.mem_append_right _ (by simp))

/-- **C102.** Scopes and sources got by name, records in them and reports of the registry, by any number of goroutines in any
schedule: a report called after `a`, returning `l` after `b` more, has one entry for every source that somebody was given before the
call, with every record in it that had returned before the call; it has no source twice and none that nobody asked for; an entry
has only records in the source of its names, called before the report returned, each once; the scopes are in order of their
names. -/
theorem C102_report {tr : List Event} {s : State} (h : Exec Step init tr s) {a b c : List Event} {t : Nat} {l : List Line}
    (htr : tr = a ++ .call t .stats :: (b ++ .ret t .stats (.lines l) :: c)) (hb : ∀ op r, .ret t op r ∉ b) : Good a b l := by
  obtain ⟨s1, s2, e1, st1, e2⟩ := h.split a _ _ htr
  obtain ⟨s3, s4, e3, st3, -⟩ := e2.split b _ c rfl
  have h2 := Exec.step _ e1 st1
  have i1 := inv e1
  have same : Grows s1 s2 ∧ Grows s2 s1 ∧ s2.pc t = .copy := by
    cases st1 with
    | callStats _ h =>
      exact ⟨⟨fun _ _ h => h, fun _ _ _ h => h, fun _ _ h => h, fun _ h => h, fun _ h => h⟩,
        ⟨fun _ _ h => h, fun _ _ _ h => h, fun _ _ h => h, fun _ h => h, fun _ h => h⟩, upd_same _ _ _⟩
  obtain ⟨g12, -, hc⟩ := same
  have at2 : At s2 s2 (s2.pc t) := by rw [hc]; trivial
  have at3 := at_exec h2 e3 at2 hb
  have hp : s3.pc t = .ret .stats (.lines l) := by cases st3 with | ret _ _ _ h => exact h
  rw [hp] at at3
  obtain ⟨-, out, ho, o1, o2⟩ := at3
  cases ho
  have h3 := h2.append e3
  have i3 := inv h3
  have hin : ∀ e, (e ∈ a ++ [Event.call t .stats] ++ b) → e = .call t .stats ∨ e ∈ a ++ b := by
    intro e he
    simp only [List.mem_append, List.mem_singleton] at he ⊢
    rcases he with (he | he) | he
    · exact .inr (.inl he)
    · exact .inl he
    · exact .inr (.inr he)
  have line : ∀ e ∈ l, ∃ x o t u, Map.get s3.scopes e.scope = some x ∧ Map.get (s3.srcs x) e.key = some o ∧ e.hist.Nodup ∧
      (∀ r, r ∈ e.hist → r ∈ s3.hist o) ∧ .ret t (.scopeNamed e.scope) (.scope x) ∈ a ++ b ∧ .call u (.source x e.key) ∈ a ++ b := by
    intro e he
    obtain ⟨x, o, f1, f2, f3, f4⟩ := o1.lines e he
    obtain ⟨gx, u, hu⟩ := i3.calls.srcs x e.key o f2
    obtain ⟨v, n, hv⟩ := i3.calls.gotScopes x gx
    obtain ⟨x', hx', hn⟩ := i3.rets.tr v _ _ hv
    cases hx'
    have := i3.tab.scInj _ _ _ f1 hn
    subst this
    refine ⟨x, o, v, u, f1, f2, f3, f4, ?_, ?_⟩
    · rcases hin _ hv with h | h
      · cases h
      · exact h
    · rcases hin _ hu with h | h
      · cases h
      · exact h
  refine ⟨?_, o1.once, ?_, ?_, o1.sorted⟩
  · rintro n k o ⟨u, v, x, hu, hv⟩
    obtain ⟨x', hx', hn⟩ := i1.rets.tr u _ _ hu
    cases hx'
    obtain ⟨o', ho', hk⟩ := i1.rets.tr v _ _ hv
    cases ho'
    obtain ⟨e, he, e1, e2, e3⟩ := o2 n x (g12.1 _ _ hn) k o (g12.2 _ _ _ hk)
    refine ⟨e, he, e1, e2, ?_⟩
    rintro r ⟨w, hw⟩
    exact e3 r (g12.3 _ _ (i1.rets.tr w _ _ hw).2)
  · intro e he
    obtain ⟨x, o, v, u, -, -, -, -, hv, hu⟩ := line e he
    exact ⟨v, u, x, hv, hu⟩
  · intro e he
    obtain ⟨x, o, v, u, f1, f2, f3, f4, hv, hu⟩ := line e he
    refine ⟨f3, ?_⟩
    intro r hr
    obtain ⟨go, w, hw⟩ := i3.calls.hist o r (f4 r hr)
    obtain ⟨p, x', k', hp⟩ := i3.calls.gotSrcs o go
    obtain ⟨o', ho', hk⟩ := i3.rets.tr p _ _ hp
    cases ho'
    obtain ⟨rfl, rfl⟩ := i3.tab.srcInj _ _ _ _ _ f2 hk
    refine ⟨o, ⟨v, p, x, hv, ?_⟩, ⟨w, ?_⟩⟩
    · rcases hin _ hp with h | h
      · cases h
      · exact h
    · rcases hin _ hw with h | h
      · cases h
      · exact h

/-- One name, one source: what goroutines were given by the same names is the same, by different names different. -/
theorem C102_names {tr : List Event} {s : State} (h : Exec Step init tr s) {n n' k k' : Str} {o o' : Nat} (h1 : Named tr n k o)
    (h2 : Named tr n' k' o') : o = o' ↔ n = n' ∧ k = k' := by
  have i := inv h
  obtain ⟨t, u, x, a1, a2⟩ := h1
  obtain ⟨t', u', x', b1, b2⟩ := h2
  obtain ⟨_, hx, a1⟩ := i.rets.tr _ _ _ a1; cases hx
  obtain ⟨_, hx, a2⟩ := i.rets.tr _ _ _ a2; cases hx
  obtain ⟨_, hx, b1⟩ := i.rets.tr _ _ _ b1; cases hx
  obtain ⟨_, hx, b2⟩ := i.rets.tr _ _ _ b2; cases hx
  constructor
  · rintro rfl
    obtain ⟨rfl, rfl⟩ := i.tab.srcInj _ _ _ _ _ a2 b2
    exact ⟨i.tab.scInj _ _ _ a1 b1, rfl⟩
  · rintro ⟨rfl, rfl⟩
    rw [a1] at b1; cases b1
    rw [a2] at b2; cases b2
    rfl

/-- The model has no dead ends: a goroutine inside a call can always take its next step (waiting for locks is the subject of C41). -/
theorem never_stuck {tr : List Event} {s : State} (h : Exec Step init tr s) (t : Nat) (hp : s.pc t ≠ .idle) :
    ∃ e s', Step s e s' ∧ s'.pc t ≠ s.pc t := by
  have i := inv h
  cases hq : s.pc t with
  | idle => exact absurd hq hp
  | scope n =>
    cases hg : Map.get s.scopes n with
    | none => exact ⟨_, _, .scopeNew s t n hq hg, by simp⟩
    | some x => exact ⟨_, _, .scopeFound s t n x hq hg, by simp⟩
  | look x k =>
    cases hg : Map.get (s.srcs x) k with
    | none => exact ⟨_, _, .lookNone s t x k hq hg, by simp⟩
    | some o => exact ⟨_, _, .lookFound s t x k o hq hg, by simp⟩
  | make x k =>
    cases hg : Map.get (s.srcs x) k with
    | none => exact ⟨_, _, .makeNew s t x k hq hg, by simp⟩
    | some o => exact ⟨_, _, .makeFound s t x k o hq hg, by simp⟩
  | record o r => exact ⟨_, _, .record s t o r hq, by simp⟩
  | copy =>
    have hs := List.pairwise_mergeSort (le := fun a b : Str × Nat => strLe a.1 b.1) (fun a b c => strLe_trans _ _ _)
      (fun a b => strLe_total _ _) s.scopes
    refine ⟨_, _, .copy s t _ hq (List.mergeSort_perm s.scopes fun a b => strLe a.1 b.1) (hs.imp ?_), by simp⟩
    intro a b h; simpa [strLt] using h
  | scopes todo out =>
    cases todo with
    | nil => exact ⟨_, _, .finish s t out hq, by simp⟩
    | cons y todo => exact ⟨_, _, .enter s t y.1 y.2 todo out _ hq (List.Perm.refl _), by simp⟩
  | sources n cur todo out =>
    cases cur with
    | nil => exact ⟨_, _, .leave s t n todo out hq, by simp⟩
    | cons y cur =>
      refine ⟨_, _, .ask s t n y.1 y.2 cur todo out hq, ?_⟩
      simp
  | ret op res => exact ⟨_, _, .ret s t op res hq, by simp⟩

/-- A run: two scopes; goroutines 0 and 1 ask for the counter "c" of "b" at the same time and both record in it; goroutine 2
reports while goroutine 1 records. -/
theorem run : ∃ s, Exec Step init
    [.call 0 (.scopeNamed b!"b"), .ret 0 (.scopeNamed b!"b") (.scope 0),
     .call 1 (.scopeNamed b!"a"), .ret 1 (.scopeNamed b!"a") (.scope 1),
     .call 0 (.source 0 b!"c"), .call 1 (.source 0 b!"c"), .ret 1 (.source 0 b!"c") (.source 0),
     .ret 0 (.source 0 b!"c") (.source 0), .call 0 (.record 0 ⟨0, 5⟩), .ret 0 (.record 0 ⟨0, 5⟩) .done,
     .call 2 .stats, .call 1 (.record 0 ⟨1, 7⟩), .ret 1 (.record 0 ⟨1, 7⟩) .done,
     .ret 2 .stats (.lines [⟨b!"b", b!"c", [⟨0, 5⟩, ⟨1, 7⟩]⟩])] s := by
  have e0 := Exec.start (step := Step) (s₀ := init)
  have e1 := Exec.step _ e0 (.callScope _ 0 b!"b" rfl)
  have e2 := Exec.step _ e1 (.scopeNew _ 0 b!"b" rfl rfl)
  have e3 := Exec.step _ e2 (.ret _ 0 _ _ rfl)
  have e4 := Exec.step _ e3 (.callScope _ 1 b!"a" rfl)
  have e5 := Exec.step _ e4 (.scopeNew _ 1 b!"a" rfl (by decide +kernel))
  have e6 := Exec.step _ e5 (.ret _ 1 _ _ rfl)
  have e7 := Exec.step _ e6 (.callSource _ 0 0 b!"c" rfl (by decide +kernel))
  have e8 := Exec.step _ e7 (.lookNone _ 0 0 b!"c" rfl rfl)
  have e9 := Exec.step _ e8 (.callSource _ 1 0 b!"c" rfl (by decide +kernel))
  have e10 := Exec.step _ e9 (.lookNone _ 1 0 b!"c" rfl rfl)
  have e11 := Exec.step _ e10 (.makeNew _ 1 0 b!"c" rfl rfl)
  have e12 := Exec.step _ e11 (.ret _ 1 _ _ rfl)
  have e13 := Exec.step _ e12 (.makeFound _ 0 0 b!"c" 0 rfl (by decide +kernel))
  have e14 := Exec.step _ e13 (.ret _ 0 _ _ rfl)
  have e15 := Exec.step _ e14 (.callRecord _ 0 0 5 rfl (by decide +kernel))
  have e16 := Exec.step _ e15 (.record _ 0 _ _ rfl)
  have e17 := Exec.step _ e16 (.ret _ 0 _ _ rfl)
  have e18 := Exec.step _ e17 (.callStats _ 2 rfl)
  have e19 := Exec.step _ e18 (.callRecord _ 1 0 7 rfl (by decide +kernel))
  have e20 := Exec.step _ e19 (.copy _ 2 [(b!"a", 1), (b!"b", 0)] rfl (List.Perm.swap _ _ _) (by decide +kernel))
  have e21 := Exec.step _ e20 (.enter _ 2 b!"a" 1 _ _ _ rfl (List.Perm.refl _))
  have e22 := Exec.step _ e21 (.leave _ 2 _ _ _ rfl)
  have e23 := Exec.step _ e22 (.enter _ 2 b!"b" 0 _ _ _ rfl (List.Perm.refl _))
  have e24 := Exec.step _ e23 (.record _ 1 _ _ rfl)
  have e25 := Exec.step _ e24 (.ask _ 2 b!"b" b!"c" 0 [] [] [] rfl)
  have e26 := Exec.step _ e25 (.leave _ 2 _ _ _ rfl)
  have e27 := Exec.step _ e26 (.finish _ 2 _ rfl)
  have e28 := Exec.step _ e27 (.ret _ 1 _ _ rfl)
  have e29 := Exec.step _ e28 (.ret _ 2 _ _ rfl)
  have key : ∀ {tr tr' : List Event} {s}, Exec Step init tr s → tr = tr' → ∃ s, Exec Step init tr' s := fun h e => ⟨_, e ▸ h⟩
  exact key e29 (by decide +kernel)

/-- The hypotheses of `C102_report` are met, and `complete` says something. -/
example : ∃ e ∈ [(⟨b!"b", b!"c", [⟨0, 5⟩, ⟨1, 7⟩]⟩ : Line)], e.scope = b!"b" ∧ e.key = b!"c" ∧ (⟨0, 5⟩ : Rec) ∈ e.hist := by
  obtain ⟨s, h⟩ := run
  have g := C102_report h (a := [.call 0 (.scopeNamed b!"b"), .ret 0 (.scopeNamed b!"b") (.scope 0),
     .call 1 (.scopeNamed b!"a"), .ret 1 (.scopeNamed b!"a") (.scope 1),
     .call 0 (.source 0 b!"c"), .call 1 (.source 0 b!"c"), .ret 1 (.source 0 b!"c") (.source 0),
     .ret 0 (.source 0 b!"c") (.source 0), .call 0 (.record 0 ⟨0, 5⟩), .ret 0 (.record 0 ⟨0, 5⟩) .done])
     (b := [.call 1 (.record 0 ⟨1, 7⟩), .ret 1 (.record 0 ⟨1, 7⟩) .done]) (c := []) (t := 2) rfl (by simp)
  obtain ⟨e, h1, h2, h3, h4⟩ := g.complete b!"b" b!"c" 0 ⟨0, 1, 0, by simp, by simp⟩
  exact ⟨e, h1, h2, h3, h4 _ ⟨0, by simp⟩⟩

end Monkit.Report
