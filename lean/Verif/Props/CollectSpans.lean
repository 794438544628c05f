import Verif.Proofs.CollectSpans

/-!
# C88: `CollectSpans`
-/

namespace Monkit.CollectSpans
open Go
open Collector (starts finishes)
open WatchSpans (InTree)

variable {traceOf : Nat → Nat} {idOf : Nat → Int} {parentOf : Nat → Option Int} {me x : Nat} {l : List Nat}

/-- **C88**.  When `CollectSpans` returns spans, no span having finished twice and finished spans having different ids: the result begins with the span `x`
around `work`, has no span twice, contains nothing but `x` and finished spans of `x`'s trace whose parent comes before them in the result, and contains every
span of the tree under `x` that finished in time.  It panics only if `work` does. -/
theorem C88_result {tr a b : List Ev} {s : State} {r : Res} (h : Exec (Step traceOf idOf parentOf me x) (init l) tr s)
    (hab : tr = a ++ .ret r :: b) (honce : (finishes (collOf a)).Nodup)
    (hid : ∀ y ∈ finishes (collOf a), ∀ z ∈ finishes (collOf a), idOf y = idOf z → y = z) :
    (∀ out, r = .spans out → out.head? = some x ∧ out.Nodup ∧
      (∀ l1 y l2, out = l1 ++ y :: l2 → l1 ≠ [] → traceOf y = traceOf x ∧ y ∈ finishes (collOf a) ∧ ∃ p ∈ l1, parentOf y = some (idOf p)) ∧
      ∀ y, InTree traceOf idOf parentOf x (collOf a) y → y ∈ out) ∧
    (r = .panic → Ev.panics ∈ a) := by
  obtain ⟨s1, s2, h1, st, _⟩ := h.split a _ b hab
  have hm := (of_ret st rfl).1
  have i := inv_exec h1
  have hg := i.res r (by simp [hm, Main.res])
  refine ⟨?_, ?_⟩
  · rintro out rfl
    obtain ⟨a0, b0, s0, hs, e0, hns, hx, hr⟩ := hg
    have hca : collOf a = collOf a0 ++ collOf b0 := by rw [hs]; simp [collOf]
    have c1 := i.ex
    rw [hca] at c1 honce hid ⊢
    exact (WatchSpans.collected e0 c1 hns hx hr honce hid).2.2
  · rintro rfl; exact hg

/-- **C88**.  After `CollectSpans` has returned, its collector starts no collection and records no span any more. -/
theorem C88_inert_partial {tr a b : List Ev} {s : State} {r : Res} (h : Exec (Step traceOf idOf parentOf me x) (init l) tr s) (hab : tr = a ++ .ret r :: b) :
    starts (collOf b) = [] ∧ ∀ s1 : State, Exec (Step traceOf idOf parentOf me x) (init l) (a ++ [.ret r]) s1 →
      Exec (Step traceOf idOf parentOf me x) s1 b s → s.c.root = s1.c.root ∧ s.c.coll = s1.c.coll := by
  refine ⟨?_, fun s1 h1 h2 => ?_⟩
  · obtain ⟨s1, s2, h1, st, h2⟩ := h.split a _ b hab
    obtain ⟨hm, hm', hc⟩ := of_ret st rfl
    have i := inv_exec h1
    have k2 := (Collector.C34_life_cycle i.ex).2.2.1 0 (i.stopped r hm)
    have e2 := (coll_exec' h2 hm').2
    rw [hc] at e2
    exact k2 _ _ e2
  · have i := inv_exec h1
    have hm : s1.main = .returned := i.done r (by simp)
    have hroot := i.root (by simp [hm, Main.late])
    have e2 := (coll_exec' h2 hm).2
    have : ∀ tr' c', Exec (Collector.Step traceOf) s1.c tr' c' → c'.root = some x ∧ c'.coll = s1.c.coll := by
      intro tr' c' hx
      refine (Exec.induct (fun tr' c' => Exec (Collector.Step traceOf) Collector.init (collOf (a ++ [.ret r]) ++ tr') c' ∧ c'.root = some x ∧ c'.coll = s1.c.coll)
        ⟨by simpa using i.ex, hroot, rfl⟩ ?_ hx).2
      intro tr2 c2 e c3 ⟨j1, j2, j3⟩ st
      obtain ⟨q1, q2⟩ := root_keeps (Collector.inv_exec j1).1 st j2
      exact ⟨by rw [← List.append_assoc]; exact j1.step _ st, q1, q2.trans j3⟩
    obtain ⟨q1, q2⟩ := this _ _ e2
    exact ⟨by rw [q1, hroot], q2⟩

/-- **C88**, what fails: whatever happens, when `CollectSpans` has returned its collector is still registered with the trace, one more for each call. -/
theorem C88_detached_violated {tr : List Ev} {s : State} {r : Res} (h : Exec (Step traceOf idOf parentOf me x) (init l) tr s) (hr : Ev.ret r ∈ tr) :
    s.obs = l ++ [me] := by
  have i := inv_exec h
  have := i.obs
  rw [i.done r hr] at this
  simpa using this

theorem noForce_of {p p' : Nat → Collector.PC} {t : Nat} {v : Collector.PC} (h : p' = upd p t v) (hv : ∀ y, p t = .idle ∨ p t = .smatch y → v ≠ .scas y) :
    ∀ u y, p u = .idle ∨ p u = .smatch y → p' u ≠ .scas y := by
  intro u y hu
  subst h
  rw [WatchSpans.upd_apply]
  by_cases hut : u = t
  · subst hut; rw [if_pos rfl]; exact hv y hu
  · rw [if_neg hut]; rcases hu with hu | hu <;> rw [hu] <;> simp

/-- Span 11, a child of the span 10 around `work`, finishes on another goroutine. -/
example : ∃ s a, Exec (Step (fun _ => 7) (fun y => y) (fun y => if y = 11 then some 10 else none) 5 10) (init [3]) (a ++ [.ret (.spans [10, 11])]) s ∧
    InTree (fun _ => 7) (fun y => y) (fun y => if y = 11 then some 10 else none) 10 (collOf a) 11 ∧ s.obs = [3, 5] := by
  have e := Exec.start (step := Step (fun _ => 7) (fun y => y) (fun y => if y = 11 then some 10 else none) 5 10) (s₀ := init [3])
  have e := e.step _ (.attach _ rfl)
  have e := e.step _ (.force _ rfl rfl)
  have e := e.step _ (.coll _ (some (.started 10)) _ (.scasOk _ 0 10 rfl rfl) (by simp [collOwn]) (fun _ h => by first | rfl | exact absurd h (by decide)) (noForce_of rfl (t := 0) (by simp)))
  have e := e.step _ (.forced _ rfl rfl)
  have e := e.step _ (.coll _ (some (.finishCall 2 11)) _ (.finish _ 2 11 rfl) (by simp [collOwn]) (fun _ h => by first | rfl | exact absurd h (by decide)) (noForce_of rfl (t := 2) (by simp)))
  have e := e.step _ (.coll _ (none) _ (.floadYes _ 2 11 10 rfl rfl rfl) (by simp [collOwn]) (fun _ h => by first | rfl | exact absurd h (by decide)) (noForce_of rfl (t := 2) (by simp)))
  have e := e.step _ (.coll _ (none) _ (.flock _ 2 11 10 rfl rfl) (by simp [collOwn]) (fun _ h => by first | rfl | exact absurd h (by decide)) (noForce_of rfl (t := 2) (by simp)))
  have e := e.step _ (.coll _ (none) _ (.frootNil _ 2 11 10 rfl rfl) (by simp [collOwn]) (fun _ h => by first | rfl | exact absurd h (by decide)) (noForce_of rfl (t := 2) (by simp)))
  have e := e.step _ (.coll _ (none) _ (.fsetColl _ 2 11 10 rfl (by decide)) (by simp [collOwn]) (fun _ h => by first | rfl | exact absurd h (by decide)) (noForce_of rfl (t := 2) (by simp)))
  have e := e.step _ (.coll _ (some (.finishRet 2 11)) _ (.fout _ 2 11 rfl) (by simp [collOwn]) (fun _ h => by first | rfl | exact absurd h (by decide)) (noForce_of rfl (t := 2) (by simp)))
  have e := e.step _ (.finish _ _ (.finish _ 0 10 rfl) rfl)
  have e := e.step _ (.coll _ (none) _ (.floadYes _ 0 10 10 rfl rfl rfl) (by simp [collOwn]) (fun _ h => by first | rfl | exact absurd h (by decide)) (noForce_of rfl (t := 0) (by simp)))
  have e := e.step _ (.coll _ (none) _ (.flock _ 0 10 10 rfl rfl) (by simp [collOwn]) (fun _ h => by first | rfl | exact absurd h (by decide)) (noForce_of rfl (t := 0) (by simp)))
  have e := e.step _ (.coll _ (none) _ (.frootNil _ 0 10 10 rfl rfl) (by simp [collOwn]) (fun _ h => by first | rfl | exact absurd h (by decide)) (noForce_of rfl (t := 0) (by simp)))
  have e := e.step _ (.coll _ (none) _ (.fsetRoot _ 0 10 10 rfl rfl) (by simp [collOwn]) (fun _ h => by first | rfl | exact absurd h (by decide)) (noForce_of rfl (t := 0) (by simp)))
  have e := e.step _ (.coll _ (none) _ (.frootOut _ 0 10 rfl) (by simp [collOwn]) (fun _ h => by first | rfl | exact absurd h (by decide)) (noForce_of rfl (t := 0) (by simp)))
  have e := e.step _ (.coll _ (none) _ (.swapNew _ 0 _ rfl (by decide)) (by simp [collOwn]) (fun _ h => by first | rfl | exact absurd h (by decide)) (noForce_of rfl (t := 0) (by simp)))
  have e := e.step _ (.coll _ (none) _ (.close _ 0 _ rfl) (by simp [collOwn]) (fun _ h => by first | rfl | exact absurd h (by decide)) (noForce_of rfl (t := 0) (by simp)))
  have e := e.step _ (.finished _ false _ (.ret _ 0 (some 10) rfl) rfl)
  have e := e.step _ (.spans _ [10, 11] rfl rfl ⟨3, by decide⟩)
  have e := e.step _ (.stop _ _ _ (.stop _ 0 rfl) rfl)
  have e := e.step _ (.coll _ (none) _ (.swapDone _ 0 _ rfl rfl) (by simp [collOwn]) (fun _ h => by first | rfl | exact absurd h (by decide)) (noForce_of rfl (t := 0) (by simp)))
  have e := e.step _ (.stopped _ _ _ (.ret _ 0 none rfl) rfl)
  have e := e.step _ (.ret _ _ rfl)
  exact ⟨_, _, e, .child .root rfl rfl (by decide) ⟨2, [.started 10], [], [.finishCall 0 10, .finishRet 0 10, .stopCall 0, .stopRet 0], rfl, by decide, by decide⟩, rfl⟩

end Monkit.CollectSpans
