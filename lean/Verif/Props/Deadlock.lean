import Verif.Proofs.Races
import Verif.Proofs.Deadlock

/-!
# C128: deadlocks

`Go.Race.WaitsFor s i j`: goroutine `i` cannot go on before `j` does.  `Progresses methods s i`: `i` can go on, or waits for one that progresses.
The messages about names that are taken are among the functions here.
-/

namespace Monkit.Races
open Go Go.Race

/-- **C128** (whatever functions of the library any number of goroutines have called: each can go on, or waits, perhaps through others, for one that can). -/
theorem C128_progress {s : State K V} (h : Reach (clashCounter :: clashFunc :: library) s) {i : Nat} (hi : (s.thr i).todo ≠ []) : Progresses (clashCounter :: clashFunc :: library) s i :=
  no_deadlock disc (fun _ => .free) rank_le ordered h hi

/-- **C128** (so no goroutines ever wait for each other in a circle). -/
theorem C128_circle {s : State K V} (h : Reach (clashCounter :: clashFunc :: library) s) (S : Nat → Prop) (hS : ∀ i, S i → (s.thr i).todo ≠ [] ∧ (∃ j, WaitsFor s i j) ∧ ∀ j, WaitsFor s i j → S j) (i : Nat) : ¬ S i := by
  intro hi
  have hp := C128_progress h (hS i hi).1
  induction hp with
  | now i hc =>
    obtain ⟨j, hj⟩ := (hS i hi).2.1
    exact hc.1 j hj
  | later i j hw _ ih => exact ih ((hS i hi).2.2 j hw)

/-- They do wait: one goroutine makes a meter and waits for the ticker's lock with the lock of the scope held, another makes a meter in another scope and has the ticker's lock, and a third waits for the first. -/
example : ∃ s, Reach (clashCounter :: clashFunc :: library) s ∧ WaitsFor s 2 0 ∧ WaitsFor s 0 1 ∧ CanGo (clashCounter :: clashFunc :: library) s 1 := by
  have e : Exec (Step (clashCounter :: clashFunc :: library)) init [] init := .start
  have e := e.step _ (.call 1 newSource (fun r => if r = 0 then 1 else 0) (by decide +kernel) rfl)
  have e := e.step _ (.seq 1 _ _ _ rfl)
  have e := e.step _ (.rlock 1 _ _ _ rfl _ rfl rfl)
  have e := e.step _ (.seq 1 _ _ _ rfl)
  have e := e.step _ (.read 1 _ _ _ rfl)
  have e := e.step _ (.seq 1 _ _ _ rfl)
  have e := e.step _ (.runlock 1 _ _ _ rfl _ rfl)
  have e := e.step _ (.left 1 _ _ _ rfl)
  have e := e.step _ (.seq 1 _ _ _ rfl)
  have e := e.step _ (.lock 1 .scope 0 _ rfl _ rfl rfl (fun j => by rcases j with _ | _ | j <;> rfl) rfl)
  have e := e.step _ (.seq 1 _ _ _ rfl)
  have e := e.step _ (.read 1 _ _ _ rfl)
  have e := e.step _ (.seq 1 _ _ _ rfl)
  have e := e.step _ (.left 1 _ _ _ rfl)
  have e := e.step _ (.seq 1 _ _ _ rfl)
  have e := e.step _ (.left 1 _ _ _ rfl)
  have e := e.step _ (.left 1 _ _ _ rfl)
  have e := e.step _ (.seq 1 _ _ _ rfl)
  have e := e.step _ (.lock 1 .ticker 1 _ rfl _ rfl rfl (fun j => rfl) rfl)
  have e := e.step _ (.seq 1 _ _ _ rfl)
  have e := e.step _ (.call 0 newSource (fun _ => 0) (by decide +kernel) rfl)
  have e := e.step _ (.seq 0 _ _ _ rfl)
  have e := e.step _ (.rlock 0 _ _ _ rfl _ rfl rfl)
  have e := e.step _ (.seq 0 _ _ _ rfl)
  have e := e.step _ (.read 0 _ _ _ rfl)
  have e := e.step _ (.seq 0 _ _ _ rfl)
  have e := e.step _ (.runlock 0 _ _ _ rfl _ rfl)
  have e := e.step _ (.left 0 _ _ _ rfl)
  have e := e.step _ (.seq 0 _ _ _ rfl)
  have e := e.step _ (.lock 0 .scope 0 _ rfl _ rfl rfl (fun j => by rcases j with _ | _ | j <;> rfl) rfl)
  have e := e.step _ (.seq 0 _ _ _ rfl)
  have e := e.step _ (.read 0 _ _ _ rfl)
  have e := e.step _ (.seq 0 _ _ _ rfl)
  have e := e.step _ (.left 0 _ _ _ rfl)
  have e := e.step _ (.seq 0 _ _ _ rfl)
  have e := e.step _ (.left 0 _ _ _ rfl)
  have e := e.step _ (.left 0 _ _ _ rfl)
  have e := e.step _ (.seq 0 _ _ _ rfl)
  have e := e.step _ (.call 2 scopeChain (fun _ => 0) (by decide +kernel) rfl)
  have e := e.step _ (.seq 2 _ _ _ rfl)
  refine ⟨_, ⟨_, e⟩, .inl rfl, .inl rfl, fun _ h => h, _, .read 1 _ _ _ rfl, ?_, ?_⟩
  · intro h
    have := congrArg (fun t => t.todo.length) h
    revert this
    decide +kernel
  · intro i hi
    simp [State.goto, upd, hi]

end Monkit.Races
