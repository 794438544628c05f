import Verif.Proofs.Collector2
import Verif.Proofs.CollectorSpans

/-!
# C34, C35, C36: span collectors

`Exec (Step traceOf) init tr s`: any interleaving of any number of goroutines calling `Start`, `ForceStart`, `Finish`
(for any span, any number of times) and `Stop`.
-/

namespace Monkit.Collector
open Go

/-- C34.  A collector starts at most once and closes its channel at most once; once a `Stop` has returned nothing is ever
started; the channel is closed only after `Stop` was called or the span it started on began to finish; and when a
`Finish` of that span was called after the start, the channel is closed as soon as no goroutine is any
longer inside a `Finish` of that span or inside `Stop`. -/
theorem C34_life_cycle {traceOf : Nat → Nat} {tr : List Ev} {s : State} (h : Exec (Step traceOf) init tr s) :
    (starts tr).length ≤ 1 ∧ s.closes ≤ 1 ∧
    (∀ t, Ev.stopRet t ∈ tr → ∀ tr' s', Exec (Step traceOf) s tr' s' → starts tr' = []) ∧
    (s.closes = 1 → (∃ t, Ev.stopCall t ∈ tr) ∨ ∃ x, starts tr = [x] ∧ x ∈ finishes tr) ∧
    (∀ t x, CallAfter t x x tr → (∀ u, (s.pc u).inFinish ≠ some x ∧ (s.pc u).stopping = false) →
      s.closes = 1) := by
  obtain ⟨b, i, j⟩ := inv_exec h
  refine ⟨b.atMost, b.closes, fun t ht tr' s' h' => ?_, fun hc => i.ending (b.closed hc), fun t x hc q => ?_⟩
  · have key : Base traceOf (tr ++ tr') s' ∧ starts tr' = [] := by
      refine Exec.induct (fun tr' s' => Base traceOf (tr ++ tr') s' ∧ starts tr' = []) ⟨by simpa using b, rfl⟩ ?_ h'
      intro tr1 s1 e s2 ⟨b1, a1⟩ st
      refine ⟨by rw [← List.append_assoc]; exact base_step b1 st, ?_⟩
      rw [starts_append, a1]
      have hd := b1.stopRet t (List.mem_append_left _ ht)
      cases st <;> first | rfl | skip
      · rename_i c; rw [hd] at c; cases c
      · rename_i y _; cases y <;> rfl
    exact key.2
  · have hx := starts_eq b (callAfter_starts hc)
    have done : s.check = .done → s.closes = 1 := by
      intro hd
      rcases b.done hd with h | ⟨u, hu⟩
      · exact h
      · exfalso
        cases hp : s.pc u <;> rw [hp] at hu <;> simp [PC.closing] at hu
        rename_i y
        cases y with
        | none => have := (q u).2; rw [hp] at this; cases this
        | some y =>
          have := i.rooting u y (.inr (.inr hp))
          rw [hx] at this; cases this
          exact (q u).1 (by rw [hp]; rfl)
    rcases j.fin t x hc with h | h | ⟨u, hu⟩
    · exact done h
    · cases hr : s.root with
      | none => exact absurd hr h
      | some r =>
        rcases (b.root r hr).2 with h | ⟨u, hu⟩
        · exact done h
        · exfalso
          cases hp : s.pc u <;> rw [hp] at hu <;> simp [PC.rooting] at hu
          · rename_i y
            have := i.rooting u y (.inl hp)
            rw [hx] at this; cases this
            exact (q u).1 (by rw [hp]; rfl)
          · rename_i y
            cases y with
            | none => cases hu
            | some y =>
              have := i.rooting u y (.inr (.inl hp))
              rw [hx] at this; cases this
              exact (q u).1 (by rw [hp]; rfl)
    · exfalso
      refine (q u).1 ?_
      cases hp : s.pc u <;> rw [hp] at hu <;> first | exact hu | simp [PC.finishing] at hu

theorem coll_mono {traceOf : Nat → Nat} {s s' : State} {tr : List Ev} (h : Exec (Step traceOf) s tr s') {y : Nat}
    (hy : y ∈ s.coll) : y ∈ s'.coll := by
  refine Exec.induct (fun _ x => y ∈ x.coll) hy ?_ h
  intro _ x e z hx st
  cases st <;> first | exact hx | exact List.mem_append_left _ hx

/-- C35, what is recorded: a span of the same trace whose `Finish` is called after the start and returns
before `Stop` is called and before the span collected for begins to finish. -/
theorem C35_recorded {traceOf : Nat → Nat} {tr : List Ev} {s : State} (h : Exec (Step traceOf) init tr s)
    (t x y : Nat) (a b c : List Ev) (htr : tr = a ++ .finishCall t y :: (b ++ .finishRet t y :: c))
    (hx : x ∈ starts a) (ht : traceOf y = traceOf x) (hne : y ≠ x)
    (hend : ¬ Ending x (a ++ .finishCall t y :: b)) : y ∈ s.coll := by
  obtain ⟨s1, s2, h1, h2, h3⟩ := h.split (a ++ .finishCall t y :: b) (.finishRet t y) c (by rw [htr]; simp)
  have h12 := h1.step _ h2
  obtain ⟨_, _, j⟩ := inv_exec h12
  have hidle : s2.pc t = .idle := by
    generalize he : some (Ev.finishRet t y) = e at h2
    cases h2 with
    | ret u z hz =>
      cases z with
      | none => simp [retEv] at he
      | some z =>
        simp only [retEv, Option.some.injEq, Ev.finishRet.injEq] at he
        obtain ⟨rfl, rfl⟩ := he
        exact upd_same _ _ _
    | _ => cases he <;> exact upd_same _ _ _
  rcases j.call t y x ⟨a, b ++ [.finishRet t y], by simp, hx⟩ ht.symm hne with h | h | h
  · exfalso; apply hend
    rcases h with ⟨u, hu⟩ | hu
    · exact .inl ⟨u, by simpa using hu⟩
    · right; rw [finishes_append] at hu; simpa [finishes] using hu
  · exact coll_mono h3 h
  · rw [hidle] at h; simp [PC.finishing] at h

/-- C35.  When the span `x` the collector started on has finished, provided no span's `Finish` was called twice and the recorded spans have
different ids: `Spans` returns, and whatever it returns
* begins with `x`;
* contains exactly the recorded spans that reach `x` through recorded parents, each once;
* has every span after its parent;
* all are of `x`'s trace, and their `Finish` ended (or is about to) after the start. -/
theorem C35_spans {traceOf : Nat → Nat} {tr : List Ev} {s : State} (h : Exec (Step traceOf) init tr s)
    (idOf : Nat → Int) (parentOf : Nat → Option Int) (x : Nat) (hroot : s.root = some x)
    (honce : (finishes tr).Nodup) (hid : Distinct idOf s.coll x) :
    starts tr = [x] ∧ (∃ out, SpansReturns idOf parentOf s out) ∧
    ∀ out, SpansReturns idOf parentOf s out →
      out.head? = some x ∧ out.Nodup ∧
      (∀ y, y ∈ out ↔ Desc idOf parentOf s.coll x y) ∧
      (∀ l1 y l2, out = l1 ++ y :: l2 → l1 ≠ [] → ∃ p ∈ l1, parentOf y = some (idOf p)) ∧
      (∀ y ∈ out, traceOf y = traceOf x ∧ (y = x ∨ ∃ a b, tr = a ++ b ∧ x ∈ starts a ∧
        ((∃ t, Ev.finishRet t y ∈ b) ∨ ∃ t, (s.pc t).inFinish = some y))) := by
  obtain ⟨b, i, j⟩ := inv_exec h
  have hx : starts tr = [x] := (b.root x hroot).1
  have hxc : x ∉ s.coll := by
    intro hm
    obtain ⟨_, z, hz, _, hne⟩ := i.coll x hm
    rw [hx] at hz; cases hz; exact hne rfl
  have hp : Path idOf parentOf s.coll x [x] x := .root
  refine ⟨hx, ?_, ?_⟩
  · obtain ⟨out, ho⟩ := walk_some hid hxc (fuel := s.coll.length + 1) hp (by simp)
    exact ⟨out, s.coll.length + 1, by simp only [spans, hroot]; exact ho⟩
  · rintro out ⟨fuel, hw⟩
    simp only [spans, hroot] at hw
    refine ⟨?_, walk_nodup hid hxc (i.nodup honce) hp hw, fun y => walk_mem hw y, ?_, ?_⟩
    · cases fuel with
      | zero => cases hw
      | succ f => obtain ⟨subs, _, rfl⟩ := walk_succ hw; rfl
    · intro l1 y l2 hs hne
      rcases walk_order hw l1 y l2 hs with ⟨h, _⟩ | ⟨p, hp, hc⟩
      · exact absurd h hne
      · exact ⟨p, hp, hc.2⟩
    · intro y hy
      have hd := (walk_mem hw y).mp hy
      cases hd with
      | refl => exact ⟨rfl, .inl rfl⟩
      | child _ c =>
        obtain ⟨_, z, hz, ht, _⟩ := i.coll y c.1
        rw [hx] at hz; cases hz
        refine ⟨ht.symm, .inr ?_⟩
        obtain ⟨a, bb, h1, h2, h3⟩ := j.recd y c.1
        refine ⟨a, bb, h1, ?_, ?_⟩
        · have : starts a ++ starts bb = [x] := by rw [← starts_append, ← h1]; exact hx
          cases hs : starts a with
          | nil => exact absurd hs h2
          | cons q qs => rw [hs] at this; simp at this; simp [this.1]
        · rcases h3 with ⟨t, h3⟩ | h3
          · exact .inr ⟨t, by rw [h3]; rfl⟩
          · exact .inl h3

/-- C36 for collections whose spans have pairwise different ids.  Missing: collections with equal ids, for which it is false. -/
theorem C36_spans_terminates_partial {traceOf : Nat → Nat} {tr : List Ev} {s : State}
    (h : Exec (Step traceOf) init tr s) (idOf : Nat → Int) (parentOf : Nat → Option Int)
    (hid : ∀ x, s.root = some x → Distinct idOf s.coll x) : ∃ out, SpansReturns idOf parentOf s out := by
  obtain ⟨b, i, j⟩ := inv_exec h
  cases hroot : s.root with
  | none => exact ⟨[], 0, by simp only [spans, hroot]⟩
  | some x =>
    have hx : starts tr = [x] := (b.root x hroot).1
    have hxc : x ∉ s.coll := by
      intro hm
      obtain ⟨_, z, hz, _, hne⟩ := i.coll x hm
      rw [hx] at hz; cases hz; exact hne rfl
    obtain ⟨out, ho⟩ := walk_some (hid x hroot) hxc (parentOf := parentOf) (fuel := s.coll.length + 1) .root (by simp)
    exact ⟨out, s.coll.length + 1, by simp only [spans, hroot]; exact ho⟩

/-- Span 0 is matched; spans 1, 2, 3 of its trace finish, then 0; 4 is on another trace. -/
def run : List Ev :=
  [.started 0, .finishCall 1 1, .finishRet 1 1, .finishCall 1 4, .finishRet 1 4, .finishCall 1 2, .finishRet 1 2,
   .finishCall 1 0, .finishRet 1 0]

theorem run_exec : ∃ s, Exec (Step (fun y => if y = 4 then 9 else 8)) init run s ∧
    s.root = some 0 ∧ s.coll = [1, 2] ∧ s.closes = 1 ∧ ∀ t, s.pc t = .idle := by
  have e := Exec.start (step := Step (fun y => if y = 4 then 9 else 8)) (s₀ := init)
  have e := e.step _ (.start _ 0 0 rfl)
  have e := e.step _ (.sloadNil _ 0 0 rfl rfl)
  have e := e.step _ (.smatchYes _ 0 0 rfl)
  have e := e.step _ (.scasOk _ 0 0 rfl rfl)
  have e := e.step _ (.finish _ 1 1 rfl)
  have e := e.step _ (.floadYes _ 1 1 0 rfl rfl rfl)
  have e := e.step _ (.flock _ 1 1 0 rfl rfl)
  have e := e.step _ (.frootNil _ 1 1 0 rfl rfl)
  have e := e.step _ (.fsetColl _ 1 1 0 rfl (by decide))
  have e := e.step _ (.fout _ 1 1 rfl)
  have e := e.step _ (.finish _ 1 4 rfl)
  have e := e.step _ (.floadNo _ 1 4 rfl (by intro x h; cases h; decide))
  have e := e.step _ (.finish _ 1 2 rfl)
  have e := e.step _ (.floadYes _ 1 2 0 rfl rfl rfl)
  have e := e.step _ (.flock _ 1 2 0 rfl rfl)
  have e := e.step _ (.frootNil _ 1 2 0 rfl rfl)
  have e := e.step _ (.fsetColl _ 1 2 0 rfl (by decide))
  have e := e.step _ (.fout _ 1 2 rfl)
  have e := e.step _ (.finish _ 1 0 rfl)
  have e := e.step _ (.floadYes _ 1 0 0 rfl rfl rfl)
  have e := e.step _ (.flock _ 1 0 0 rfl rfl)
  have e := e.step _ (.frootNil _ 1 0 0 rfl rfl)
  have e := e.step _ (.fsetRoot _ 1 0 0 rfl rfl)
  have e := e.step _ (.frootOut _ 1 0 rfl)
  have e := e.step _ (.swapNew _ 1 (some 0) rfl (by decide))
  have e := e.step _ (.close _ 1 (some 0) rfl)
  have e := e.step _ (.ret _ 1 (some 0) rfl)
  refine ⟨_, e, rfl, rfl, rfl, ?_⟩
  intro t
  simp only [upd, init]
  repeat' split
  all_goals rfl

/-- The hypotheses of `C34_life_cycle`, `C35_recorded` and `C35_spans` hold of that run, with span ids 10, 11, 12 and 2 a child of 1. -/
example : ∃ s, Exec (Step (fun y => if y = 4 then 9 else 8)) init run s ∧ s.root = some 0 ∧ (finishes run).Nodup ∧
    Distinct (fun y => 10 + y) s.coll 0 ∧ CallAfter 1 0 0 run ∧
    (∀ u, (s.pc u).inFinish ≠ some 0 ∧ (s.pc u).stopping = false) ∧
    spans (fun y => 10 + y) (fun y => if y = 0 then none else some (9 + y)) s 4 = some [0, 1, 2] := by
  obtain ⟨s, h, hr, hc, _, hi⟩ := run_exec
  refine ⟨s, h, hr, by decide, ?_, ⟨run.take 7, [.finishRet 1 0], by decide, by decide⟩, fun u => ?_, ?_⟩
  · rw [hc]; intro y _ z _ e; dsimp only at e; omega
  · rw [hi u]; simp [PC.inFinish, PC.stopping]
  · simp only [spans, hr, hc]; decide

/-- C36 is false of the code when two spans of the trace have the same id: here the recorded span 1 is a child of the
matched span 0 and has the same id (see C37: `NewId` can return the same id twice), and `Spans` recurses for ever. -/
theorem C36_spans_terminates_violated :
    ∃ (traceOf : Nat → Nat) (tr : List Ev) (s : State) (idOf : Nat → Int) (parentOf : Nat → Option Int),
      Exec (Step traceOf) init tr s ∧ s.root ≠ none ∧ ∀ out, ¬ SpansReturns idOf parentOf s out := by
  obtain ⟨s, h, hr, hc, _, hi⟩ := run_exec
  refine ⟨_, run, s, fun _ => 5, fun y => if y = 0 then none else if y = 2 then some 6 else some 5, h, by rw [hr]; simp, ?_⟩
  rintro out ⟨fuel, hw⟩
  simp only [spans, hr, hc] at hw
  have key : ∀ fuel x, walk (fun _ => 5) (fun y => if y = 0 then none else if y = 2 then some 6 else some 5) [1, 2] fuel x = none := by
    intro fuel
    induction fuel with
    | zero => intro x; rfl
    | succ f ih =>
      intro x
      unfold walk
      have : children (fun _ => 5) (fun y => if y = 0 then none else if y = 2 then some 6 else some 5) [1, 2] x = [1] := rfl
      rw [this, List.mapM_cons, ih 1]
      rfl
  rw [key] at hw
  cases hw

end Monkit.Collector
