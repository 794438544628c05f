import Verif.Proofs.Returns
import Verif.Props.AllTraces
import Verif.Props.Collector

/-!
# C109: calls return – the package collect
-/

open Go Returns

namespace Monkit.AllTraces

/-- Positions at which the mutex is held. -/
def PC.locked : PC → Bool
  | .check _ | .mark _ | .attach _ | .append _ _ | .out _ | .cstop | .cloop _ => true
  | _ => false

/-- Steps left, there being at most `M` cancel functions. -/
def PC.left (M : Nat) : PC → Nat
  | .idle => 0
  | .want _ => 6
  | .check _ => 5
  | .mark _ => 4
  | .attach _ => 3
  | .append _ _ => 2
  | .out _ => 1
  | .cwant => M + 3
  | .cstop => M + 2
  | .cloop l => l.length + 1

/-- Cancel functions that may yet come. -/
def PC.grow : PC → Nat
  | .want _ | .check _ | .mark _ | .attach _ | .append _ _ => 1
  | _ => 0

theorem owner' {tr s} (h : Exec Step init tr s) : ∀ t, s.mtx = some t → (s.pc t).locked = true := by
  refine h.induct (fun _ s => ∀ t, s.mtx = some t → (s.pc t).locked = true) (by simp [init]) ?_
  intro tr s e s' ih st u hu
  cases st <;> simp only [upd] at * <;> grind [PC.locked]

/-- **C109** for the callbacks and the cancel function of `ObserveAllTraces`. -/
theorem C109_all_traces {tr s} (h : Exec Step init tr s) : AllReturn Step State.pc (· = .idle) s := by
  refine allReturn_size (by simp [init]) (fun s => s.cancelers.length) PC.grow PC.left ?_ ?_ ?_ ?_ h
  · intro M M' p hM
    cases p <;> simp [PC.left] <;> omega
  · intro tr s e s' h st
    cases st with
    | callback t _ hp | cancel t hp => exact ⟨t, fun u hu => upd_other _ _ hu, fun hi => absurd hp hi⟩
    | cstop t hp =>
      refine ⟨t, fun u hu => upd_other _ _ hu, fun _ _ => ?_⟩
      simp [hp, PC.grow, PC.left]
      omega
    | lock t _ hp | checkOut t _ hp | checkIn t _ hp | mark t _ hp | attach t _ hp | append t _ _ hp | unlock t _ hp | clock t hp | canceler t _ _ hp | cunlock t hp =>
      refine ⟨t, fun u hu => upd_other _ _ hu, fun _ _ => ?_⟩
      simp [hp, PC.grow, PC.left]
  · intro tr s e s' h st heq
    cases st with
    | append t _ _ hp => have := congrFun heq t; simp [hp] at this
    | _ => exact Nat.le_refl _
  · intro tr s t h ht
    have go : ∀ u, (s.pc u).locked = true → ∃ u e s', s.pc u ≠ .idle ∧ Step s e s' ∧ s'.pc u ≠ s.pc u := by
      intro u hu
      cases hp : s.pc u with
      | check T =>
        by_cases hc : T ∈ s.existing ∨ s.stopping = true
        · exact ⟨u, _, _, by simp [hp], .checkOut s u T hp hc, by simp [hp]⟩
        · rw [not_or, Bool.not_eq_true] at hc
          exact ⟨u, _, _, by simp [hp], .checkIn s u T hp hc.1 hc.2, by simp [hp]⟩
      | mark T => exact ⟨u, _, _, by simp [hp], .mark s u T hp, by simp [hp]⟩
      | attach T => exact ⟨u, _, _, by simp [hp], .attach s u T hp, by simp [hp]⟩
      | append T r => exact ⟨u, _, _, by simp [hp], .append s u T r hp, by simp [hp]⟩
      | out T => exact ⟨u, _, _, by simp [hp], .unlock s u T hp, by simp [hp]⟩
      | cstop => exact ⟨u, _, _, by simp [hp], .cstop s u hp, by simp [hp]⟩
      | cloop l =>
        cases l with
        | nil => exact ⟨u, _, _, by simp [hp], .cunlock s u hp, by simp [hp]⟩
        | cons r l => exact ⟨u, _, _, by simp [hp], .canceler s u r l hp, by simp [hp]⟩
      | _ => simp [hp, PC.locked] at hu
    by_cases hl : s.mtx = none
    · cases hp : s.pc t with
      | idle => exact absurd hp ht
      | want T => exact ⟨t, _, _, ht, .lock s t T hp hl, by simp [hp]⟩
      | cwant => exact ⟨t, _, _, ht, .clock s t hp hl, by simp [hp]⟩
      | _ => exact go t (by simp [hp, PC.locked])
    · obtain ⟨u, hu⟩ := Option.ne_none_iff_exists'.1 hl
      exact go u (owner' h u hu)

end Monkit.AllTraces

namespace Monkit.Collector

/-- Positions at which the mutex is held. -/
def PC.locked : PC → Bool
  | .froot _ _ | .fset _ _ | .fout _ | .frootOut _ => true
  | _ => false

/-- Steps left. -/
def PC.left : PC → Nat
  | .idle => 0
  | .sload _ => 3
  | .smatch _ => 2
  | .scas _ => 1
  | .fload _ => 8
  | .fwait _ _ => 7
  | .froot _ _ => 6
  | .fset _ _ => 5
  | .fout _ => 4
  | .frootOut _ => 4
  | .swap _ => 3
  | .close _ => 2
  | .ret _ => 1

theorem owner' {traceOf tr s} (h : Exec (Step traceOf) init tr s) : ∀ t, s.mtx = some t → (s.pc t).locked = true := by
  refine h.induct (fun _ s => ∀ t, s.mtx = some t → (s.pc t).locked = true) (by simp [init]) ?_
  intro tr s e s' ih st u hu
  cases st <;> simp only [upd] at * <;> grind [PC.locked]

/-- **C109** for `Start`, `ForceStart`, `Finish` and `Stop` of a span collector, a matcher that returns being given. -/
theorem C109_collector {traceOf tr s} (h : Exec (Step traceOf) init tr s) : AllReturn (Step traceOf) State.pc (· = .idle) s := by
  refine allReturn (by simp [init]) PC.left ?_ ?_ h
  · intro tr s e s' h st
    cases st with
    | start t _ hp | force t _ hp | finish t _ hp | stop t hp => exact ⟨t, fun u hu => upd_other _ _ hu, fun hi => absurd hp hi⟩
    | sloadSet t _ hp | sloadNil t _ hp | smatchNo t _ hp | smatchYes t _ hp | scasOk t _ hp | scasNo t _ hp | floadNo t _ hp | floadYes t _ _ hp
    | flock t _ _ hp | frootSet t _ _ hp | frootNil t _ _ hp | fsetRoot t _ _ hp | fsetColl t _ _ hp | fout t _ hp | frootOut t _ hp | swapDone t _ hp
    | swapNew t _ hp | close t _ hp | ret t _ hp =>
      refine ⟨t, fun u hu => upd_other _ _ hu, fun _ _ => ?_⟩
      simp [hp, PC.left]
  · intro tr s t h ht
    have go : ∀ u, (s.pc u).locked = true → ∃ u e s', s.pc u ≠ .idle ∧ Step traceOf s e s' ∧ s'.pc u ≠ s.pc u := by
      intro u hu
      cases hp : s.pc u with
      | froot y x =>
        by_cases hc : s.root = none
        · exact ⟨u, _, _, by simp [hp], .frootNil s u y x hp hc, by simp [hp]⟩
        · exact ⟨u, _, _, by simp [hp], .frootSet s u y x hp hc, by simp [hp]⟩
      | fset y x =>
        by_cases hc : x = y
        · exact ⟨u, _, _, by simp [hp], .fsetRoot s u y x hp hc, by simp [hp]⟩
        · exact ⟨u, _, _, by simp [hp], .fsetColl s u y x hp hc, by simp [hp]⟩
      | fout y => exact ⟨u, _, _, by simp [hp], .fout s u y hp, by simp [hp]⟩
      | frootOut y => exact ⟨u, _, _, by simp [hp], .frootOut s u y hp, by simp [hp]⟩
      | _ => simp [hp, PC.locked] at hu
    by_cases hl : s.mtx = none
    · cases hp : s.pc t with
      | idle => exact absurd hp ht
      | sload y =>
        by_cases hc : s.check = .unset
        · exact ⟨t, _, _, ht, .sloadNil s t y hp hc, by simp [hp]⟩
        · exact ⟨t, _, _, ht, .sloadSet s t y hp hc, by simp [hp]⟩
      | smatch y => exact ⟨t, _, _, ht, .smatchNo s t y hp, by simp [hp]⟩
      | scas y =>
        by_cases hc : s.check = .unset
        · exact ⟨t, _, _, ht, .scasOk s t y hp hc, by simp [hp]⟩
        · exact ⟨t, _, _, ht, .scasNo s t y hp hc, by simp [hp]⟩
      | fload y =>
        by_cases hc : ∀ x, s.check = .span x → traceOf x ≠ traceOf y
        · exact ⟨t, _, _, ht, .floadNo s t y hp hc, by simp [hp]⟩
        · simp only [not_forall, Classical.not_not, ne_eq] at hc
          obtain ⟨x, h1, h2⟩ := hc
          exact ⟨t, _, _, ht, .floadYes s t y x hp h1 h2, by simp [hp]⟩
      | fwait y x => exact ⟨t, _, _, ht, .flock s t y x hp hl, by simp [hp]⟩
      | swap y =>
        by_cases hc : s.check = .done
        · exact ⟨t, _, _, ht, .swapDone s t y hp hc, by simp [hp]⟩
        · exact ⟨t, _, _, ht, .swapNew s t y hp hc, by simp [hp]⟩
      | close y => exact ⟨t, _, _, ht, .close s t y hp, by simp [hp]⟩
      | ret y => exact ⟨t, _, _, ht, .ret s t y hp, by simp [hp]⟩
      | _ => exact go t (by simp [hp, PC.locked])
    · obtain ⟨u, hu⟩ := Option.ne_none_iff_exists'.1 hl
      exact go u (owner' h u hu)

end Monkit.Collector
