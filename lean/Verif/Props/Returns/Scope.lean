import Verif.Proofs.Returns
import Verif.Props.Scope
import Verif.Props.Report
import Verif.Props.TaskFunc
import Verif.Go.Sort

/-!
# C109: calls return – scopes, reports, tasks
-/

open Go Returns

namespace Monkit.Scope

/-- Steps left. -/
def PC.left : PC → Nat
  | .idle => 0
  | .rlock _ => 8
  | .reading _ => 7
  | .read _ _ => 6
  | .wlock _ => 5
  | .locked _ => 4
  | .absent _ => 3
  | .unlock _ _ => 2
  | .got _ _ => 1
  | .gLock _ => 4
  | .gLocked _ => 3
  | .gFree _ => 2
  | .gUnlock _ _ => 1
  | .cLock _ => 3
  | .cLocked _ => 2
  | .cUnlock _ => 1
  | .sLock => 6
  | .sLocked => 5
  | .sUnlock => 4
  | .sLock2 => 3
  | .sLocked2 => 2
  | .sUnlock2 => 1

/-- **C109** for the accessors of a scope, `Gauge`, `Chain`, and what `Stats` does with the scope itself. -/
theorem C109_scope {tr s} (h : Exec Step State.init tr s) : AllReturn Step State.pc (· = .idle) s := by
  refine allReturn (by simp [State.init]) PC.left ?_ (fun tr s t h ht => C41_no_deadlock h ht) h
  intro tr s e s' h st
  cases st with
  | call t _ hp | gCall t _ hp | cCall t _ hp | sCall t hp => exact ⟨t, fun u hu => upd_other _ _ hu, fun hi => absurd hp hi⟩
  | again t c hp =>
    refine ⟨t, fun u hu => upd_other _ _ hu, fun _ _ => ?_⟩
    cases hg : Map.get s.sources c.key <;> simp [hp, hg, PC.left]
  | rlock t _ hp | read t _ hp | runlockSome t _ _ hp | runlockNone t _ hp | wlock t _ hp | make t _ hp | unlock t _ _ hp | ret t _ _ hp | panic t _ _ hp
  | gLock t _ hp | gOk t _ hp | gBad t _ _ hp | gSet t _ hp | gUnlock t _ _ hp | cLock t _ hp | cAppend t _ hp | cUnlock t _ hp | sLock t hp | sCopy t _ hp
  | sUnlock t hp | sLock2 t hp | sCopy2 t hp | sUnlock2 t hp =>
    refine ⟨t, fun u hu => upd_other _ _ hu, fun _ _ => ?_⟩
    simp [hp, PC.left]

/-- Non-vacuity: goroutine 0 has the lock, goroutine 1 has looked in vain and waits for it. -/
example : ∃ tr s, Exec Step State.init tr s ∧ s.pc 0 = .locked ⟨.counter, b!"a", []⟩ ∧ s.pc 1 = .wlock ⟨.counter, b!"a", []⟩ := by
  have e := Exec.start (step := Step) (s₀ := State.init)
  have e := e.step _ (.call _ 0 ⟨.counter, b!"a", []⟩ rfl (by simp))
  have e := e.step _ (.call _ 1 ⟨.counter, b!"a", []⟩ rfl (by simp))
  have e := e.step _ (.rlock _ 0 _ rfl rfl)
  have e := e.step _ (.rlock _ 1 _ rfl rfl)
  have e := e.step _ (.read _ 0 _ rfl)
  have e := e.step _ (.read _ 1 _ rfl)
  have e := e.step _ (.runlockNone _ 0 _ rfl)
  have e := e.step _ (.runlockNone _ 1 _ rfl)
  have e := e.step _ (.wlock _ 0 _ rfl rfl rfl)
  exact ⟨_, _, e, rfl, rfl⟩

end Monkit.Scope

namespace Monkit.Report

/-- Steps left, there being at most `M` scopes, and in each at most `M` sources. -/
def Pc.left (M : Nat) : Pc → Nat
  | .idle => 0
  | .scope _ => 2
  | .look _ _ => 3
  | .make _ _ => 2
  | .record _ _ => 2
  | .copy => M * (M + 2) + 3
  | .scopes todo _ => todo.length * (M + 2) + 2
  | .sources _ cur todo _ => cur.length + todo.length * (M + 2) + 3
  | .ret _ _ => 1

/-- Scopes and sources that may yet be made. -/
def Pc.grow : Pc → Nat
  | .scope _ | .look _ _ | .make _ _ => 1
  | _ => 0

theorem few {tr s} (h : Exec Step init tr s) : s.scopes.length ≤ s.nextScope ∧ ∀ x, (s.srcs x).length ≤ s.nextSrc := by
  refine h.induct (fun _ s => s.scopes.length ≤ s.nextScope ∧ ∀ x, (s.srcs x).length ≤ s.nextSrc) (by simp [init]) ?_
  intro tr s e s' ih st
  cases st with
  | scopeNew t n hp hg =>
    refine ⟨?_, ih.2⟩
    have := ih.1
    simp only [Map.length_set, hg]
    simpa using this
  | makeNew t x k hp hg =>
    refine ⟨ih.1, fun y => ?_⟩
    have := ih.2 y
    by_cases hy : y = x
    · subst hy
      simp only [upd_same, Map.length_set, hg]
      simpa using this
    · dsimp only
      rw [upd_other _ _ hy]
      omega
  | _ => exact ih

/-- **C109** for getting scopes and sources, recording, and reporting a whole registry. -/
theorem C109_report {tr s} (h : Exec Step init tr s) : AllReturn Step State.pc (· = .idle) s := by
  refine allReturn_size (by simp [init]) (fun s => s.nextScope + s.nextSrc) Pc.grow Pc.left ?_ ?_ ?_ ?_ h
  · intro M M' p hM
    cases p with
    | copy => have := Nat.mul_le_mul hM (Nat.add_le_add_right hM 2); simp only [Pc.left]; omega
    | scopes todo out => have := Nat.mul_le_mul_left todo.length (Nat.add_le_add_right hM 2); simp only [Pc.left]; omega
    | sources n cur todo out => have := Nat.mul_le_mul_left todo.length (Nat.add_le_add_right hM 2); simp only [Pc.left]; omega
    | _ => simp [Pc.left]
  · intro tr s e s' h st
    cases st with
    | callScope t _ hp | callSource t _ _ hp | callRecord t _ _ hp | callStats t hp => exact ⟨t, fun u hu => upd_other _ _ hu, fun hi => absurd hp hi⟩
    | copy t d hp hd =>
      refine ⟨t, fun u hu => upd_other _ _ hu, fun _ _ => ?_⟩
      have h1 := (few h).1
      have h2 := hd.length_eq
      simp only [hp, upd_same, Pc.grow, Pc.left, Nat.le_refl, true_and]
      intro M hM
      have := Nat.mul_le_mul_right (M + 2) (show d.length ≤ M by omega)
      omega
    | enter t n x todo out cur hp hc =>
      refine ⟨t, fun u hu => upd_other _ _ hu, fun _ _ => ?_⟩
      have h1 := (few h).2 x
      have h2 := hc.length_eq
      simp only [hp, upd_same, Pc.grow, Pc.left, Nat.le_refl, true_and, List.length_cons, Nat.succ_mul]
      intro M hM
      omega
    | scopeFound t _ _ hp | scopeNew t _ hp | lookFound t _ _ _ hp | lookNone t _ _ hp | makeFound t _ _ _ hp | makeNew t _ _ hp | record t _ _ hp
    | ask t _ _ _ _ _ _ hp | leave t _ _ _ hp | finish t _ hp | ret t _ _ hp =>
      refine ⟨t, fun u hu => upd_other _ _ hu, fun _ _ => ?_⟩
      simp only [hp, upd_same, Pc.grow, Pc.left, List.length_cons, List.length_nil]
      refine ⟨by omega, fun M _ => by omega⟩
  · intro tr s e s' h st heq
    cases st with
    | scopeNew t _ hp => have := congrFun heq t; simp [hp] at this
    | makeNew t _ _ hp => have := congrFun heq t; simp [hp] at this
    | _ => exact Nat.le_refl _
  · intro tr s t h ht
    refine ⟨t, ?_⟩
    cases hp : s.pc t with
    | idle => exact absurd hp ht
    | scope n =>
      cases hg : Map.get s.scopes n with
      | none => exact ⟨_, _, by simp, .scopeNew s t n hp hg, by simp⟩
      | some x => exact ⟨_, _, by simp, .scopeFound s t n x hp hg, by simp⟩
    | look x k =>
      cases hg : Map.get (s.srcs x) k with
      | none => exact ⟨_, _, by simp, .lookNone s t x k hp hg, by simp⟩
      | some o => exact ⟨_, _, by simp, .lookFound s t x k o hp hg, by simp⟩
    | make x k =>
      cases hg : Map.get (s.srcs x) k with
      | none => exact ⟨_, _, by simp, .makeNew s t x k hp hg, by simp⟩
      | some o => exact ⟨_, _, by simp, .makeFound s t x k o hp hg, by simp⟩
    | record o r => exact ⟨_, _, by simp, .record s t o r hp, by simp⟩
    | copy =>
      refine ⟨_, _, by simp, .copy s t (sortBy (fun a b => strLe a.1 b.1) s.scopes) hp (sortBy_perm _ _) ?_, by simp⟩
      refine (sortBy_sorted (le := fun a b : Str × Nat => strLe a.1 b.1) (fun a b c => strLe_trans _ _ _) (fun a b => strLe_total _ _) s.scopes).imp ?_
      intro a b hab
      simp [strLt, hab]
    | scopes todo out =>
      cases todo with
      | nil => exact ⟨_, _, by simp, .finish s t out hp, by simp⟩
      | cons x todo => exact ⟨_, _, by simp, .enter s t x.1 x.2 todo out _ hp (List.Perm.refl _), by simp⟩
    | sources n cur todo out =>
      cases cur with
      | nil => exact ⟨_, _, by simp, .leave s t n todo out hp, by simp⟩
      | cons x cur => exact ⟨_, _, by simp, .ask s t n x.1 x.2 cur todo out hp, by simp⟩
    | ret op res => exact ⟨_, _, by simp, .ret s t op res hp, by simp⟩

end Monkit.Report

namespace Monkit.TaskFunc

/-- Steps left. -/
def PC.left : PC → Nat
  | .idle => 0
  | .once => 3
  | .finding => 2
  | .start => 1

theorem runs {tr s} (h : Exec Step init tr s) : ∀ i, s.once = .running i → s.thr i = .finding := by
  refine h.induct (fun _ s => ∀ i, s.once = .running i → s.thr i = .finding) (by simp [init]) ?_
  intro tr s e s' ih st u hu
  cases st <;> (try simp only [upd] at *) <;> grind

/-- **C109** for what a Task of a scope does before it starts its span, and for its method `Func`. -/
theorem C109_task {tr s} (h : Exec Step init tr s) : AllReturn Step State.thr (· = .idle) s := by
  refine allReturn (by simp [init]) PC.left ?_ ?_ h
  · intro tr s e s' h st
    cases st with
    | call t _ _ hp => exact ⟨t, fun u hu => upd_other _ _ hu, fun hi => absurd hp hi⟩
    | func t _ hp => exact ⟨0, fun u hu => rfl, fun _ hm => absurd rfl hm⟩
    | funcPanic t hp => exact ⟨0, fun u hu => rfl, fun _ hm => absurd rfl hm⟩
    | onceFirst t hp | onceDone t hp | found t _ hp | notFound t hp | span t _ hp | spanPanic t hp =>
      refine ⟨t, fun u hu => upd_other _ _ hu, fun _ _ => ?_⟩
      simp [hp, PC.left]
  · intro tr s t h ht
    cases hp : s.thr t with
    | idle => exact absurd hp ht
    | once =>
      cases ho : s.once with
      | fresh => exact ⟨t, _, _, ht, .onceFirst s t hp ho, by simp [hp]⟩
      | running i =>
        have hi := runs h i ho
        exact ⟨i, _, _, by simp [hi], .notFound s i hi, by simp [hi]⟩
      | complete => exact ⟨t, _, _, ht, .onceDone s t hp ho, by simp [hp]⟩
    | finding => exact ⟨t, _, _, ht, .notFound s t hp, by simp [hp]⟩
    | start =>
      cases hf : s.f with
      | none => exact ⟨t, _, _, ht, .spanPanic s t hp hf, by simp [hp]⟩
      | some g => exact ⟨t, _, _, ht, .span s t g hp hf, by simp [hp]⟩

end Monkit.TaskFunc
