import Verif.Proofs.WatchSpans

/-!
# C87: `WatchForSpans`
-/

namespace Monkit.WatchSpans
open Go
open Collector (starts finishes)

variable {traceOf : Nat → Nat} {accepts : Nat → Bool} {idOf : Nat → Int} {parentOf : Nat → Option Int}

/-- **C87**.  When `WatchForSpans` returns spans, no span having finished twice and finished spans having different ids: collection had started on one
span `x`, which the matcher accepts and which has finished; the result begins with `x`, has no span twice, contains nothing but `x` and finished spans of
`x`'s trace whose parent comes before them in the result, and contains every span of the tree under `x` that finished in time. -/
theorem C87_result {tr a b : List Ev} {s : State} {out : List Nat} (h : Exec (Step traceOf accepts idOf parentOf) init tr s)
    (hab : tr = a ++ .ret (.spans out) :: b) (honce : (finishes (collOf a)).Nodup)
    (hid : ∀ y ∈ finishes (collOf a), ∀ z ∈ finishes (collOf a), idOf y = idOf z → y = z) :
    ∃ x, starts (collOf a) = [x] ∧ accepts x = true ∧ x ∈ finishes (collOf a) ∧ out.head? = some x ∧ out.Nodup ∧
      (∀ l1 y l2, out = l1 ++ y :: l2 → l1 ≠ [] → traceOf y = traceOf x ∧ y ∈ finishes (collOf a) ∧ ∃ p ∈ l1, parentOf y = some (idOf p)) ∧
      ∀ y, InTree traceOf idOf parentOf x (collOf a) y → y ∈ out := by
  obtain ⟨s1, s2, h1, st, _⟩ := h.split a _ b hab
  have hm := (of_ret st rfl).1
  have i := inv_exec h1
  obtain ⟨a0, b0, s0, hs, e0, hns, ⟨x, hx⟩, hr⟩ := i.res (.spans out) (by simp [hm, Main.res])
  have hca : collOf a = collOf a0 ++ collOf b0 := by rw [hs]; simp [collOf]
  have c1 := coll_exec h1
  rw [hca] at c1 honce hid ⊢
  obtain ⟨g1, g⟩ := collected (coll_exec e0) c1 hns hx hr honce hid
  have hacc := i.starts x (by rw [hca, g1]; simp)
  exact ⟨x, g1, hacc, g⟩

/-- **C87**.  `WatchForSpans` returns an error only if the context was cancelled. -/
theorem C87_error {tr a b : List Ev} {s : State} (h : Exec (Step traceOf accepts idOf parentOf) init tr s) (hab : tr = a ++ .ret .err :: b) : Ev.ctxDone ∈ a := by
  obtain ⟨s1, s2, h1, st, _⟩ := h.split a _ b hab
  have hm := (of_ret st rfl).1
  exact (inv_exec h1).res .err (by simp [hm, Main.res])

/-- **C87**.  However `WatchForSpans` returns, its collector is attached to no trace, and will not be, and starts no collection any more. -/
theorem C87_detached {tr a b : List Ev} {s : State} {r : Res} (h : Exec (Step traceOf accepts idOf parentOf) init tr s) (hab : tr = a ++ .ret r :: b) :
    s.a.live = [] ∧ AllTraces.attachments (allOf b) = [] ∧ starts (collOf b) = [] := by
  obtain ⟨s1, s2, h1, st, h2⟩ := h.split a _ b hab
  obtain ⟨hm, hc, ha⟩ := of_ret st rfl
  have i := inv_exec h1
  have k1 := (AllTraces.C33_observe_all_traces (all_exec h1)).2.2.1 (i.detached r (by simp [hm]))
  have k2 := (Collector.C34_life_cycle (coll_exec h1)).2.2.1 0 (i.stopped r hm)
  have e1 := all_exec' h2
  have e2 := coll_exec' h2
  rw [ha] at e1
  rw [hc] at e2
  exact ⟨(k1.2 _ _ e1).2, (k1.2 _ _ e1).1, k2 _ _ e2⟩

theorem noForce_of {p p' : Nat → Collector.PC} {t : Nat} {v : Collector.PC} (h : p' = upd p t v) (hv : p t = .idle → ∀ y, v ≠ .scas y) :
    ∀ u y, p u = .idle → p' u ≠ .scas y := by
  intro u y hu
  subst h
  rw [upd_apply]
  by_cases hut : u = t
  · subst hut; rw [if_pos rfl]; exact hv hu y
  · rw [if_neg hut, hu]; simp

theorem yes_of {p p' : Nat → Collector.PC} {t : Nat} {v : Collector.PC} (h : p' = upd p t v) (hv : ∀ y, p t = .smatch y → v = .scas y → accepts y = true) :
    ∀ u y, p u = .smatch y → p' u = .scas y → accepts y = true := by
  intro u y hu hu'
  subst h
  rw [upd_apply] at hu'
  by_cases hut : u = t
  · subst hut; rw [if_pos rfl] at hu'; exact hv y hu hu'
  · rw [if_neg hut, hu] at hu'; simp at hu'

/-- Span 11, a child of the matching span 10, finishes before it. -/
theorem sample_run : ∃ s a, Exec (Step (fun _ => 7) (fun y => y == 10) (fun y => y) (fun y => if y = 11 then some 10 else none)) init (a ++ [.ret (.spans [10, 11])]) s ∧
    InTree (fun _ => 7) (fun y => y) (fun y => if y = 11 then some 10 else none) 10 (collOf a) 11 ∧ (∀ e ∈ a, e ≠ .ctxDone ∧ ∀ r, e ≠ .ret r) := by
  have e := Exec.start (step := Step (fun _ => 7) (fun y => y == 10) (fun y => y) (fun y => if y = 11 then some 10 else none)) (s₀ := init)
  have e := e.step _ (.all _ (none) _ (.callback _ 1 7 rfl) (by simp [allOwn]) (fun _ => rfl))
  have e := e.step _ (.all _ (none) _ (.lock _ 1 7 rfl rfl) (by simp [allOwn]) (fun _ => rfl))
  have e := e.step _ (.all _ (none) _ (.checkIn _ 1 7 rfl (by decide) rfl) (by simp [allOwn]) (fun _ => rfl))
  have e := e.step _ (.all _ (none) _ (.mark _ 1 7 rfl) (by simp [allOwn]) (fun _ => rfl))
  have e := e.step _ (.all _ (some (.attached 7)) _ (.attach _ 1 7 rfl) (by simp [allOwn]) (fun _ => rfl))
  have e := e.step _ (.all _ (none) _ (.append _ 1 7 0 rfl) (by simp [allOwn]) (fun _ => rfl))
  have e := e.step _ (.all _ (some (.returned 7)) _ (.unlock _ 1 7 rfl) (by simp [allOwn]) (fun _ => rfl))
  have e := e.step _ (.coll _ (none) _ (.start _ 1 10 rfl) (by simp [collOwn]) (fun _ => rfl) (noForce_of rfl (t := 1) (by simp)) (yes_of rfl (t := 1) (by simp)))
  have e := e.step _ (.coll _ (none) _ (.sloadNil _ 1 10 rfl rfl) (by simp [collOwn]) (fun _ => rfl) (noForce_of rfl (t := 1) (by simp)) (yes_of rfl (t := 1) (by simp)))
  have e := e.step _ (.coll _ (none) _ (.smatchYes _ 1 10 rfl) (by simp [collOwn]) (fun _ => rfl) (noForce_of rfl (t := 1) (by simp)) (yes_of rfl (t := 1) (by simp)))
  have e := e.step _ (.coll _ (some (.started 10)) _ (.scasOk _ 1 10 rfl rfl) (by simp [collOwn]) (fun _ => rfl) (noForce_of rfl (t := 1) (by simp)) (yes_of rfl (t := 1) (by simp)))
  have e := e.step _ (.coll _ (some (.finishCall 2 11)) _ (.finish _ 2 11 rfl) (by simp [collOwn]) (fun _ => rfl) (noForce_of rfl (t := 2) (by simp)) (yes_of rfl (t := 2) (by simp)))
  have e := e.step _ (.coll _ (none) _ (.floadYes _ 2 11 10 rfl rfl rfl) (by simp [collOwn]) (fun _ => rfl) (noForce_of rfl (t := 2) (by simp)) (yes_of rfl (t := 2) (by simp)))
  have e := e.step _ (.coll _ (none) _ (.flock _ 2 11 10 rfl rfl) (by simp [collOwn]) (fun _ => rfl) (noForce_of rfl (t := 2) (by simp)) (yes_of rfl (t := 2) (by simp)))
  have e := e.step _ (.coll _ (none) _ (.frootNil _ 2 11 10 rfl rfl) (by simp [collOwn]) (fun _ => rfl) (noForce_of rfl (t := 2) (by simp)) (yes_of rfl (t := 2) (by simp)))
  have e := e.step _ (.coll _ (none) _ (.fsetColl _ 2 11 10 rfl (by decide)) (by simp [collOwn]) (fun _ => rfl) (noForce_of rfl (t := 2) (by simp)) (yes_of rfl (t := 2) (by simp)))
  have e := e.step _ (.coll _ (some (.finishRet 2 11)) _ (.fout _ 2 11 rfl) (by simp [collOwn]) (fun _ => rfl) (noForce_of rfl (t := 2) (by simp)) (yes_of rfl (t := 2) (by simp)))
  have e := e.step _ (.coll _ (some (.finishCall 1 10)) _ (.finish _ 1 10 rfl) (by simp [collOwn]) (fun _ => rfl) (noForce_of rfl (t := 1) (by simp)) (yes_of rfl (t := 1) (by simp)))
  have e := e.step _ (.coll _ (none) _ (.floadYes _ 1 10 10 rfl rfl rfl) (by simp [collOwn]) (fun _ => rfl) (noForce_of rfl (t := 1) (by simp)) (yes_of rfl (t := 1) (by simp)))
  have e := e.step _ (.coll _ (none) _ (.flock _ 1 10 10 rfl rfl) (by simp [collOwn]) (fun _ => rfl) (noForce_of rfl (t := 1) (by simp)) (yes_of rfl (t := 1) (by simp)))
  have e := e.step _ (.coll _ (none) _ (.frootNil _ 1 10 10 rfl rfl) (by simp [collOwn]) (fun _ => rfl) (noForce_of rfl (t := 1) (by simp)) (yes_of rfl (t := 1) (by simp)))
  have e := e.step _ (.coll _ (none) _ (.fsetRoot _ 1 10 10 rfl rfl) (by simp [collOwn]) (fun _ => rfl) (noForce_of rfl (t := 1) (by simp)) (yes_of rfl (t := 1) (by simp)))
  have e := e.step _ (.coll _ (none) _ (.frootOut _ 1 10 rfl) (by simp [collOwn]) (fun _ => rfl) (noForce_of rfl (t := 1) (by simp)) (yes_of rfl (t := 1) (by simp)))
  have e := e.step _ (.coll _ (none) _ (.swapNew _ 1 _ rfl (by decide)) (by simp [collOwn]) (fun _ => rfl) (noForce_of rfl (t := 1) (by simp)) (yes_of rfl (t := 1) (by simp)))
  have e := e.step _ (.coll _ (none) _ (.close _ 1 _ rfl) (by simp [collOwn]) (fun _ => rfl) (noForce_of rfl (t := 1) (by simp)) (yes_of rfl (t := 1) (by simp)))
  have e := e.step _ (.selectDone _ rfl (by decide))
  have e := e.step _ (.spans _ [10, 11] rfl rfl ⟨3, by decide⟩)
  have e := e.step _ (.cancel _ _ _ (.cancel _ 0 rfl) rfl)
  have e := e.step _ (.all _ (none) _ (.clock _ 0 rfl rfl) (by simp [allOwn]) (fun h => absurd h (by simp)))
  have e := e.step _ (.all _ (none) _ (.cstop _ 0 rfl) (by simp [allOwn]) (fun h => absurd h (by simp)))
  have e := e.step _ (.all _ (none) _ (.canceler _ 0 0 [] rfl) (by simp [allOwn]) (fun h => absurd h (by simp)))
  have e := e.step _ (.cancelled _ _ _ (.cunlock _ 0 rfl) rfl)
  have e := e.step _ (.stop _ _ _ (.stop _ 0 rfl) rfl)
  have e := e.step _ (.coll _ none _ (.swapDone _ 0 _ rfl rfl) (by simp) (fun h => absurd h (by decide)) (noForce_of rfl (t := 0) (by simp)) (yes_of rfl (t := 0) (by simp)))
  have e := e.step _ (.stopped _ _ _ (.ret _ 0 none rfl) rfl)
  have e := e.step _ (.ret _ _ rfl)
  refine ⟨_, _, e, .child .root rfl rfl (by decide) ⟨2, [.started 10], [], [.finishCall 1 10, .stopCall 0, .stopRet 0], rfl, by decide, by decide⟩, by simp⟩

end Monkit.WatchSpans
