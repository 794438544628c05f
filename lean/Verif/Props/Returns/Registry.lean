import Verif.Proofs.Returns
import Verif.Props.RegScopes
import Verif.Props.Watchers
import Verif.Props.FuncSet
import Verif.Go.Sort

/-!
# C109: calls return – registry.go, funcset.go
-/

open Go Returns

namespace Monkit.RegScopes

/-- Positions at which the mutex is held. -/
def PC.locked : PC → Bool
  | .nLocked _ | .nUnlock _ _ | .aLocked | .aUnlock _ => true
  | _ => false

/-- Steps left, there being at most `M` scopes. -/
def PC.left (M : Nat) : PC → Nat
  | .idle => 0
  | .nLock _ => 3
  | .nLocked _ => 2
  | .nUnlock _ _ => 1
  | .aLock => M + 6
  | .aLocked => M + 5
  | .aUnlock c => c.length + 3
  | .aSort c => c.length + 2
  | .aVisit c => c.length + 1

/-- Scopes that may yet be made. -/
def PC.grow : PC → Nat
  | .nLock _ | .nLocked _ => 1
  | _ => 0

theorem owner {tr s} (h : Exec Step State.init tr s) : ∀ t, s.lock = some t → (s.pc t).locked = true := by
  refine h.induct (fun _ s => ∀ t, s.lock = some t → (s.pc t).locked = true) (by simp [State.init]) ?_
  intro tr s e s' ih st u hu
  cases st <;> simp only [upd] at * <;> grind [PC.locked]

/-- **C109** for `ScopeNamed` and `Scopes`. -/
theorem C109_scopes {tr s} (h : Exec Step State.init tr s) : AllReturn Step State.pc (· = .idle) s := by
  refine allReturn_size (by simp [State.init]) (fun s => s.scopes.length) PC.grow PC.left ?_ ?_ ?_ ?_ h
  · intro M M' p hM
    cases p <;> simp [PC.left] <;> omega
  · intro tr s e s' h st
    cases st with
    | make t n hp hg =>
      refine ⟨t, fun u hu => upd_other _ _ hu, fun _ _ => ?_⟩
      simp [hp, PC.grow, PC.left, Map.length_set, hg]
    | aCopy t c hp hc =>
      refine ⟨t, fun u hu => upd_other _ _ hu, fun _ _ => ?_⟩
      have := hc.length_eq
      simp at this
      simp [hp, PC.grow, PC.left]
      omega
    | aSort t c d hp hc _ =>
      refine ⟨t, fun u hu => upd_other _ _ hu, fun _ _ => ?_⟩
      simp [hp, PC.grow, PC.left, hc.length_eq]
    | call t n hp | aCall t hp => exact ⟨t, fun u hu => upd_other _ _ hu, fun hi => absurd hp hi⟩
    | nLock t _ hp _ | found t _ _ hp _ | nUnlock t _ _ hp | aLock t hp _ | aUnlock t _ hp | aVisit t _ _ hp | aDone t hp =>
      refine ⟨t, fun u hu => upd_other _ _ hu, fun _ _ => ?_⟩
      simp [hp, PC.grow, PC.left]
  · intro tr s e s' h st heq
    cases st with
    | make t n hp _ => have := congrFun heq t; simp [hp] at this
    | _ => exact Nat.le_refl _
  · intro tr s t h ht
    -- whoever has the mutex can go on
    have go : ∀ u, (s.pc u).locked = true → ∃ u e s', s.pc u ≠ .idle ∧ Step s e s' ∧ s'.pc u ≠ s.pc u := by
      intro u hu
      cases hp : s.pc u with
      | nLocked n =>
        cases hg : Map.get s.scopes n with
        | none => exact ⟨u, _, _, by simp [hp], .make s u n hp hg, by simp [hp]⟩
        | some x => exact ⟨u, _, _, by simp [hp], .found s u n x hp hg, by simp [hp]⟩
      | nUnlock n x => exact ⟨u, _, _, by simp [hp], .nUnlock s u n x hp, by simp [hp]⟩
      | aLocked => exact ⟨u, _, _, by simp [hp], .aCopy s u _ hp (List.Perm.refl _), by simp [hp]⟩
      | aUnlock c => exact ⟨u, _, _, by simp [hp], .aUnlock s u c hp, by simp [hp]⟩
      | _ => simp [hp, PC.locked] at hu
    by_cases hl : s.lock = none
    · cases hp : s.pc t with
      | idle => exact absurd hp ht
      | nLock n => exact ⟨t, _, _, ht, .nLock s t n hp hl, by simp [hp]⟩
      | aLock => exact ⟨t, _, _, ht, .aLock s t hp hl, by simp [hp]⟩
      | aSort c =>
        refine ⟨t, _, _, ht, .aSort s t c (sortBy (fun a b => strLe a.name b.name) c) hp (sortBy_perm _ _) ?_, by simp [hp]⟩
        refine (sortBy_sorted (le := fun a b : Scope => strLe a.name b.name) (fun a b c => strLe_trans _ _ _) (fun a b => strLe_total _ _) c).imp ?_
        intro a b hab
        simp [strLt, hab]
      | aVisit c =>
        cases c with
        | nil => exact ⟨t, _, _, ht, .aDone s t hp, by simp [hp]⟩
        | cons x c => exact ⟨t, _, _, ht, .aVisit s t x c hp, by simp [hp]⟩
      | _ => exact go t (by simp [hp, PC.locked])
    · obtain ⟨u, hu⟩ := Option.ne_none_iff_exists'.1 hl
      exact go u (owner h u hu)

end Monkit.RegScopes

namespace Monkit.FuncSet

/-- Positions at which the mutex is held. -/
def PC.locked : PC → Bool
  | .ins _ | .unlock _ | .icopy | .iunlock _ | .busy => true
  | _ => false

/-- Steps left. -/
def PC.left : PC → Nat
  | .idle => 0
  | .load _ => 6
  | .cas _ => 5
  | .lock _ => 4
  | .ins _ => 3
  | .unlock _ => 2
  | .ret _ => 1
  | .ilock => 5
  | .icopy => 4
  | .iunlock _ => 3
  | .ifirst _ => 2
  | .visit _ => 1
  | .busy => 1

theorem owner {tr s} (h : Exec Step init tr s) : s.held = true → ∃ t, (s.thr t).locked = true := by
  refine h.induct (fun _ s => s.held = true → ∃ t, (s.thr t).locked = true) (by simp [init]) ?_
  intro tr s e s' ih st
  cases st <;> exact owner_upd ih (by simp_all [PC.locked])

/-- **C109** for `Add` and `Iterate` of the set of parents, which every monitored call and every report of a function uses. -/
theorem C109_parents {tr s} (h : Exec Step init tr s) : AllReturn Step State.thr (· = .idle) s := by
  refine allReturn (by simp [init]) PC.left ?_ ?_ h
  · intro tr s e s' h st
    cases st with
    | add t _ hp | iterate t hp | otherLock t hp => exact ⟨t, fun u hu => upd_other _ _ hu, fun hi => absurd hp hi⟩
    | isFirst t _ hp | notFirst t _ hp | swap t _ hp | noSwap t _ hp | lock t _ hp | ins t _ hp | unlock t _ hp | ret t _ hp | ilock t hp | icopy t hp
    | iunlock t _ hp | ifirst t _ hp | visit t _ _ hp | otherUnlock t hp =>
      refine ⟨t, fun u hu => upd_other _ _ hu, fun _ _ => ?_⟩
      simp [hp, PC.left]
  · intro tr s t h ht
    have go : ∀ u, (s.thr u).locked = true → ∃ u e s', s.thr u ≠ .idle ∧ Step s e s' ∧ s'.thr u ≠ s.thr u := by
      intro u hu
      cases hp : s.thr u with
      | ins f => exact ⟨u, _, _, by simp [hp], .ins s u f hp, by simp [hp]⟩
      | unlock f => exact ⟨u, _, _, by simp [hp], .unlock s u f hp, by simp [hp]⟩
      | icopy => exact ⟨u, _, _, by simp [hp], .icopy s u hp, by simp [hp]⟩
      | iunlock l => exact ⟨u, _, _, by simp [hp], .iunlock s u l hp, by simp [hp]⟩
      | busy => exact ⟨u, _, _, by simp [hp], .otherUnlock s u hp, by simp [hp]⟩
      | _ => simp [hp, PC.locked] at hu
    by_cases hl : s.held = true
    · obtain ⟨u, hu⟩ := owner h hl
      exact go u hu
    · rw [Bool.not_eq_true] at hl
      cases hp : s.thr t with
      | idle => exact absurd hp ht
      | load f =>
        by_cases hf : s.first = some (toPtr f)
        · exact ⟨t, _, _, ht, .isFirst s t f hp hf, by simp [hp]⟩
        · exact ⟨t, _, _, ht, .notFirst s t f hp hf, by simp [hp]⟩
      | cas f =>
        by_cases hf : s.first = none
        · exact ⟨t, _, _, ht, .swap s t f hp hf, by simp [hp]⟩
        · exact ⟨t, _, _, ht, .noSwap s t f hp hf, by simp [hp]⟩
      | lock f => exact ⟨t, _, _, ht, .lock s t f hp hl, by simp [hp]⟩
      | ret f => exact ⟨t, _, _, ht, .ret s t f hp, by simp [hp]⟩
      | ilock => exact ⟨t, _, _, ht, .ilock s t hp hl, by simp [hp]⟩
      | ifirst l => exact ⟨t, _, _, ht, .ifirst s t l hp, by simp [hp]⟩
      | visit l => exact ⟨t, _, _, ht, .visit s t l l hp (List.Perm.refl _), by simp [hp]⟩
      | _ => exact go t (by simp [hp, PC.locked])

end Monkit.FuncSet

namespace Monkit.Watchers

/-- Positions at which the mutex is held. -/
def PC.locked : PC → Bool
  | .oset | .opub _ | .odone _ | .cset _ | .cpub _ | .cdone _ => true
  | _ => false

/-- Steps left, there being at most `M` watchers. -/
def PC.left (M : Nat) : PC → Nat
  | .idle => 0
  | .owait | .cwait _ => 4
  | .oset | .cset _ => 3
  | .opub _ | .cpub _ => 2
  | .odone _ | .cdone _ => 1
  | .look => M + 2
  | .calls l => l.length + 1

/-- Watchers that may yet come. -/
def PC.grow : PC → Nat
  | .owait | .oset => 1
  | _ => 0

theorem owner {tr s} (h : Exec Step init tr s) : ∀ t, s.mtx = some t → (s.pc t).locked = true := by
  refine h.induct (fun _ s => ∀ t, s.mtx = some t → (s.pc t).locked = true) (by simp [init]) ?_
  intro tr s e s' ih st u hu
  cases st <;> simp only [upd] at * <;> grind [PC.locked]

theorem few {tr s} (h : Exec Step init tr s) : s.watchers.length ≤ s.counter ∧ s.pub.length ≤ s.counter := by
  refine h.induct (fun _ s => s.watchers.length ≤ s.counter ∧ s.pub.length ≤ s.counter) (by simp [init]) ?_
  intro tr s e s' ih st
  cases st with
  | oset t hp => simp only [List.length_cons]; omega
  | opub t id ord hp ho => simp only [ho.length_eq]; exact ⟨ih.1, ih.1⟩
  | cset t id hp => exact ⟨Nat.le_trans (List.length_filter_le _ _) ih.1, ih.2⟩
  | cpub t id ord hp ho => simp only [ho.length_eq]; exact ⟨ih.1, ih.1⟩
  | _ => exact ih

/-- **C109** for `ObserveTraces`, its cancel functions, and the announcement of new traces. -/
theorem C109_watchers {tr s} (h : Exec Step init tr s) : AllReturn Step State.pc (· = .idle) s := by
  refine allReturn_size (by simp [init]) State.counter PC.grow PC.left ?_ ?_ ?_ ?_ h
  · intro M M' p hM
    cases p <;> simp [PC.left] <;> omega
  · intro tr s e s' h st
    cases st with
    | observe t hp | cancel t _ hp | begin t hp => exact ⟨t, fun u hu => upd_other _ _ hu, fun hi => absurd hp hi⟩
    | load t hp =>
      refine ⟨t, fun u hu => upd_other _ _ hu, fun _ _ => ?_⟩
      have := (few h).2
      simp [hp, PC.grow, PC.left]
      omega
    | olock t hp | oset t hp | opub t _ _ hp | ounlock t _ hp | clock t _ hp | cset t _ hp | cpub t _ _ hp | cunlock t _ hp | call t _ _ hp | finish t hp =>
      refine ⟨t, fun u hu => upd_other _ _ hu, fun _ _ => ?_⟩
      simp [hp, PC.grow, PC.left]
  · intro tr s e s' h st heq
    cases st with
    | oset t hp => have := congrFun heq t; simp [hp] at this
    | _ => exact Nat.le_refl _
  · intro tr s t h ht
    have go : ∀ u, (s.pc u).locked = true → ∃ u e s', s.pc u ≠ .idle ∧ Step s e s' ∧ s'.pc u ≠ s.pc u := by
      intro u hu
      cases hp : s.pc u with
      | oset => exact ⟨u, _, _, by simp [hp], .oset s u hp, by simp [hp]⟩
      | opub id => exact ⟨u, _, _, by simp [hp], .opub s u id _ hp (List.Perm.refl _), by simp [hp]⟩
      | odone id => exact ⟨u, _, _, by simp [hp], .ounlock s u id hp, by simp [hp]⟩
      | cset id => exact ⟨u, _, _, by simp [hp], .cset s u id hp, by simp [hp]⟩
      | cpub id => exact ⟨u, _, _, by simp [hp], .cpub s u id _ hp (List.Perm.refl _), by simp [hp]⟩
      | cdone id => exact ⟨u, _, _, by simp [hp], .cunlock s u id hp, by simp [hp]⟩
      | _ => simp [hp, PC.locked] at hu
    by_cases hl : s.mtx = none
    · cases hp : s.pc t with
      | idle => exact absurd hp ht
      | owait => exact ⟨t, _, _, ht, .olock s t hp hl, by simp [hp]⟩
      | cwait id => exact ⟨t, _, _, ht, .clock s t id hp hl, by simp [hp]⟩
      | look => exact ⟨t, _, _, ht, .load s t hp, by simp [hp]⟩
      | calls c =>
        cases c with
        | nil => exact ⟨t, _, _, ht, .finish s t hp, by simp [hp]⟩
        | cons x c => exact ⟨t, _, _, ht, .call s t x c hp, by simp [hp]⟩
      | _ => exact go t (by simp [hp, PC.locked])
    · obtain ⟨u, hu⟩ := Option.ne_none_iff_exists'.1 hl
      exact go u (owner h u hu)

end Monkit.Watchers
