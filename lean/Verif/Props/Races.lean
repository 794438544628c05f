import Verif.Model.Races
import Verif.Proofs.Races

/-!
# C127: data races

A data race is that two goroutines are about to access the same variable, not both only reading and not both atomically (`Go.Race.RacingOn`).
`Reach library s` ranges over all programs: any number of goroutines, each calling any functions of the library one after the other on any objects.
-/

namespace Monkit.Races
open Go Go.Race

/-- **C127** (only three kinds of variables can be raced on: the function of a task, the cached text of a set of tags, and the garbage collector's times).  Missing for the full claim are exactly these
three (`C127_task_violated`, `C127_tags_violated`, `C127_runtime_violated`). -/
theorem C127_only_partial {s : State K V} (h : Reach library s) {v : V} (hr : RacingOn s v) : v = .taskFunc ∨ v = .tagStr ∨ v = .gcDist := by
  exact free_only v (no_race disc cls checked h hr)

/-- **C127** (programs that leave these out have no data race at all). -/
theorem C127_none {methods : List C} (hm : ∀ m ∈ methods, m ∈ library ∧ m ≠ taskGetFunc ∧ m ≠ tagString 0 ∧ m ≠ deltaCall ∧ m ≠ runtimeStats)
    {s : State K V} (h : Reach methods s) (v : V) : ¬ RacingOn s v := by
  intro hr
  exact not_free v (no_race disc cls' (fun m h => checked' m (hm m h).1 (hm m h).2.1 (hm m h).2.2.1 (hm m h).2.2.2.1 (hm m h).2.2.2.2) h hr)

/-- The hypotheses are met where it matters: two goroutines increment the same counter, and the first is about to write it, with the lock held, while the second waits. -/
example : ∃ s, Reach library s ∧ s.next 0 = some (.write, .counterVal, 7) ∧ (s.thr 1).todo.head? = some (.lock .counter 0) ∧ (s.thr 1).obj 0 = 7 := by
  have e : Exec (Step library) init [] init := .start
  have e := e.step _ (.call 0 counterInc (fun _ => 7) (by decide +kernel) rfl)
  have e := e.step _ (.call 1 counterInc (fun _ => 7) (by decide +kernel) rfl)
  have e := e.step _ (.seq 1 _ _ _ rfl)
  have e := e.step _ (.seq 0 _ _ _ rfl)
  have e := e.step _ (.lock 0 .counter 0 _ rfl _ rfl rfl (fun _ => rfl) rfl)
  have e := e.step _ (.seq 0 _ _ _ rfl)
  have e := e.step _ (.read 0 _ _ _ rfl)
  have e := e.step _ (.seq 0 _ _ _ rfl)
  have e := e.step _ (.seq 0 _ _ _ rfl)
  exact ⟨_, ⟨_, e⟩, rfl, rfl, rfl⟩

/-- **C127** is false of the code: `Func()` of a task reads the task's function while the first call of the task sets it. -/
theorem C127_task_violated : ∃ s, Reach library s ∧ RacingOn s .taskFunc := by
  have e : Exec (Step library) init [] init := .start
  have e := e.step _ (.call 1 taskGetFunc (fun _ => 0) (by decide +kernel) rfl)
  have e := e.step _ (.call 0 taskCall (fun _ => 0) (by decide +kernel) rfl)
  have e := e.step _ (.seq 0 _ _ _ rfl)
  have e := e.step _ (.onceFirst 0 _ _ _ _ rfl _ rfl rfl (fun _ => rfl) rfl)
  have e := e.step _ (.seq 0 _ _ _ rfl)
  have e := e.step _ (.seq 0 _ _ _ rfl)
  have e := e.step _ (.rlock 0 _ _ _ rfl _ rfl rfl)
  have e := e.step _ (.seq 0 _ _ _ rfl)
  have e := e.step _ (.read 0 _ _ _ rfl)
  have e := e.step _ (.seq 0 _ _ _ rfl)
  have e := e.step _ (.runlock 0 _ _ _ rfl _ rfl)
  have e := e.step _ (.right 0 _ _ _ rfl)
  have e := e.step _ (.skip 0 _ rfl)
  exact ⟨_, ⟨_, e⟩, 0, 1, 0, .write, .read, by decide, rfl, rfl, by decide⟩

/-- **C127** is false of the code: `String` of a set of tags stores the text without a lock. -/
theorem C127_tags_violated : ∃ s, Reach library s ∧ RacingOn s .tagStr := by
  have e : Exec (Step library) init [] init := .start
  have e := e.step _ (.call 1 (tagString 0) (fun _ => 0) (by decide +kernel) rfl)
  have e := e.step _ (.seq 1 _ _ _ rfl)
  have e := e.step _ (.call 0 (tagString 0) (fun _ => 0) (by decide +kernel) rfl)
  have e := e.step _ (.seq 0 _ _ _ rfl)
  have e := e.step _ (.read 0 _ _ _ rfl)
  have e := e.step _ (.seq 0 _ _ _ rfl)
  have e := e.step _ (.left 0 _ _ _ rfl)
  have e := e.step _ (.seq 0 _ _ _ rfl)
  have e := e.step _ (.leave 0 _ _ rfl)
  exact ⟨_, ⟨_, e⟩, 0, 1, 0, .write, .read, by decide, rfl, rfl, by decide⟩

/-- **C127** is false of the code: two reports at the same time change the distribution of garbage collections without a lock. -/
theorem C127_runtime_violated : ∃ s, Reach library s ∧ RacingOn s .gcDist := by
  have e : Exec (Step library) init [] init := .start
  have e := e.step _ (.call 1 runtimeStats (fun _ => 0) (by decide +kernel) rfl)
  have e := e.step _ (.seq 1 _ _ _ rfl)
  have e := e.step _ (.left 1 _ _ _ rfl)
  have e := e.step _ (.seq 1 _ _ _ rfl)
  have e := e.step _ (.call 0 runtimeStats (fun _ => 0) (by decide +kernel) rfl)
  have e := e.step _ (.seq 0 _ _ _ rfl)
  have e := e.step _ (.left 0 _ _ _ rfl)
  have e := e.step _ (.seq 0 _ _ _ rfl)
  have e := e.step _ (.read 0 _ _ _ rfl)
  exact ⟨_, ⟨_, e⟩, 0, 1, 0, .write, .read, by decide, rfl, rfl, by decide⟩

/-- **C127** is false of the code if a name is used for two kinds of sources: the message about it reads the fields of the counter that has the name, without its lock. -/
theorem C127_clash_violated : ∃ s, Reach (clashCounter :: library) s ∧ RacingOn s .counterVal := by
  have e : Exec (Step (clashCounter :: library)) init [] init := .start
  have e := e.step _ (.call 1 clashCounter (fun _ => 0) (by decide +kernel) rfl)
  have e := e.step _ (.seq 1 _ _ _ rfl)
  have e := e.step _ (.seq 1 _ _ _ rfl)
  have e := e.step _ (.rlock 1 _ _ _ rfl _ rfl rfl)
  have e := e.step _ (.seq 1 _ _ _ rfl)
  have e := e.step _ (.read 1 _ _ _ rfl)
  have e := e.step _ (.seq 1 _ _ _ rfl)
  have e := e.step _ (.runlock 1 _ _ _ rfl _ rfl)
  have e := e.step _ (.right 1 _ _ _ rfl)
  have e := e.step _ (.skip 1 _ rfl)
  have e := e.step _ (.seq 1 _ _ _ rfl)
  have e := e.step _ (.call 0 counterReset (fun _ => 0) (by decide +kernel) rfl)
  have e := e.step _ (.seq 0 _ _ _ rfl)
  have e := e.step _ (.lock 0 .counter 0 _ rfl _ rfl rfl (fun _ => rfl) rfl)
  have e := e.step _ (.seq 0 _ _ _ rfl)
  have e := e.step _ (.read 0 _ _ _ rfl)
  have e := e.step _ (.seq 0 _ _ _ rfl)
  have e := e.step _ (.read 0 _ _ _ rfl)
  have e := e.step _ (.seq 0 _ _ _ rfl)
  have e := e.step _ (.read 0 _ _ _ rfl)
  have e := e.step _ (.seq 0 _ _ _ rfl)
  exact ⟨_, ⟨_, e⟩, 0, 1, 0, .write, .read, by decide, rfl, rfl, by decide⟩

end Monkit.Races
