import Verif.Proofs.Mutex
import Verif.Model.CounterConc
import Verif.Props.Counter

/-!
# C03: concurrent use of lock-protected objects
-/

namespace Go.Mutex
variable {S L Op Ret : Type}

/-- **C03 (generic).** Whatever the methods of a mutex-protected object do between `Lock` and
`Unlock`, however many goroutines call them and however their individual accesses interleave, the
trace of calls, lock acquisitions and returns is one of the atomic object: every call takes effect
indivisibly when it acquires the lock and returns what it would return running alone at that
moment.  When nobody holds the lock, the shared state is the atomic object's state. -/
theorem C03_mutex_linearizable (o : Obj S L Op Ret) (s₀ : S) (tr : List (Event Op Ret))
    (c : Config S L Op) (h : Exec o s₀ tr c) :
    ∃ s p, Atomic o.exec s₀ tr s p ∧ (c.held = false → c.sh = s) ∧
      ∀ t, c.thr t = .idle → p t = .idle := by
  obtain ⟨s, p, hA, hs⟩ := simulation h
  exact ⟨s, p, hA, fun hf => (hs.free hf).1, hs.idle⟩

/-- **C03 (generic).** At most one goroutine is between `Lock` and `Unlock`. -/
theorem C03_mutual_exclusion (o : Obj S L Op Ret) (s₀ : S) (tr : List (Event Op Ret))
    (c : Config S L Op) (h : Exec o s₀ tr c) (t t' : Nat) (op op' : Op) (r r') (l l' : L)
    (h1 : c.thr t = .inside op r l) (h2 : c.thr t' = .inside op' r' l') : t = t' := by
  obtain ⟨s, p, _, hs⟩ := simulation h
  cases hh : c.held
  · exact absurd h1 ((hs.free hh).2 _ _ _ _)
  · obtain ⟨t₀, _, _, _, _, h3, _⟩ := hs.busy hh
    rw [h3 _ _ _ _ h1, h3 _ _ _ _ h2]

/-- **C03 (generic).** No deadlock: while any call is unfinished, an unfinished call can move. -/
theorem C03_no_deadlock (o : Obj S L Op Ret) (s₀ : S) (tr : List (Event Op Ret))
    (c : Config S L Op) (h : Exec o s₀ tr c) (hb : ∃ t, c.thr t ≠ .idle) :
    ∃ e c', Step o c e c' ∧ ∀ t op, e ≠ some (.call t op) :=
  progress h hb

/-- **C03 (generic).** When no call is in progress there is one order `lin` of all calls, agreeing
with each goroutine's own order of calls and returns, such that executing the calls one after another
in that order returns exactly what the goroutines were returned and leaves the object in exactly
the state it is in.  No update is lost. -/
theorem C03_no_lost_update (o : Obj S L Op Ret) (s₀ : S) (tr : List (Event Op Ret))
    (c : Config S L Op) (h : Exec o s₀ tr c) (quiet : ∀ t, c.thr t = .idle) :
    ∃ lin : List (Nat × Op × Ret),
      seqRun o.exec s₀ (lin.map (·.2.1)) = (c.sh, lin.map (·.2.2)) ∧
      ∀ t, callsOf t tr = (lin.filter (·.1 = t)).map (·.2.1) ∧
           retsOf t tr = (lin.filter (·.1 = t)).map (·.2.2) := by
  obtain ⟨s, p, hA, hs⟩ := simulation h
  obtain ⟨lin, h1, h2⟩ := atomic_lin hA
  have hf : c.held = false := by
    cases hh : c.held
    · rfl
    · obtain ⟨t, _, _, _, h3, _⟩ := hs.busy hh
      rw [quiet t] at h3; cases h3
  refine ⟨lin, ?_, fun t => ?_⟩
  · rw [h1, (hs.free hf).1]
  · have := h2 t
    rw [hs.idle t (quiet t)] at this
    have he : ∀ l : List (Nat × Op × Ret), sub t l = (l.filter (·.1 = t)).map (·.2) := by
      intro l
      induction l with
      | nil => rfl
      | cons x xs ih =>
        simp only [sub] at ih
        by_cases hx : x.1 = t <;> simp [sub, hx, ih]
    simpa [he, Function.comp_def] using this

end Go.Mutex

namespace Monkit.Counter
open Go.Mutex Monkit.Spec

/-- Running the accesses of `set` alone is the sequential `set`. -/
theorem setBody_eq (c : Counter) (l : Locals) :
    (setBody.foldl (fun x f => f x) (c, l)).1 = c.set l.b ∧
    (setBody.foldl (fun x f => f x) (c, l)).2.a = l.a := by
  obtain ⟨val, low, high, ne, key⟩ := c
  obtain ⟨a, b, c, cond, ne', key'⟩ := l
  cases ne
  · exact ⟨rfl, rfl⟩
  · by_cases h1 : b < low <;> by_cases h2 : high < b <;> simp [setBody, set, h1, h2]

/-- Running a method's accesses alone is the sequential model's call. -/
theorem exec_eq_step (c : Counter) (op : Op) : obj.exec c op = c.step op := by
  cases op with
  | set v =>
    have h := setBody_eq c ⟨c.val, v, 0, false, false, ⟨[], []⟩⟩
    simp only [Obj.exec, obj, body, List.foldl_append, List.foldl_cons, List.foldl_nil, result,
      step, Set]
    rw [h.1, h.2]
  | inc d =>
    have h := setBody_eq c ⟨0, c.val + d, 0, false, false, ⟨[], []⟩⟩
    simp only [Obj.exec, obj, body, List.foldl_append, List.foldl_cons, List.foldl_nil, result,
      step, Inc]
    rw [h.1]
  | dec d =>
    have h := setBody_eq c ⟨0, c.val + -d, 0, false, false, ⟨[], []⟩⟩
    simp only [Obj.exec, obj, body, List.foldl_append, List.foldl_cons, List.foldl_nil, result,
      step, Dec, Inc]
    rw [h.1]
  | _ => rfl

theorem seqRun_eq_run (c : Counter) (ops : List Op) : seqRun obj.exec c ops = c.run ops := by
  induction ops generalizing c with
  | nil => rfl
  | cons o os ih => simp [seqRun, run, ih, exec_eq_step]

/-- **C03 (Counter).** Any number of goroutines using a counter, in any schedule of their
individual field accesses, ending with no call in progress: there is one order `lin` of all
calls, agreeing with each goroutine's own order of calls and returns, such that executing the calls
one after another in that order returns exactly what the goroutines were returned and leaves the
counter in exactly the state it is in.  No update is lost. -/
theorem C03_counter_no_lost_update (k : Key) (tr : List (Event Op Res)) (c : Config Counter Locals Op)
    (h : Exec obj (new k) tr c) (quiet : ∀ t, c.thr t = .idle) :
    ∃ lin : List (Nat × Op × Res),
      (new k).run (lin.map (·.2.1)) = (c.sh, lin.map (·.2.2)) ∧
      ∀ t, callsOf t tr = (lin.filter (·.1 = t)).map (·.2.1) ∧
           retsOf t tr = (lin.filter (·.1 = t)).map (·.2.2) := by
  obtain ⟨lin, h1, h2⟩ := C03_no_lost_update obj (new k) tr c h quiet
  exact ⟨lin, by rw [← seqRun_eq_run, h1], h2⟩

/-- The hypotheses are met: two goroutines increment the counter, the second one waiting while the
first is inside its critical section. -/
example : ∃ tr c, Exec obj (new ⟨b!"c", []⟩) tr c ∧ (∀ t, c.thr t = .idle) ∧
    callsOf 0 tr = [Op.inc 1] ∧ callsOf 1 tr = [Op.inc 2] ∧ c.sh.val = 3 := by
  have e1 := Exec.step _ (Exec.start (o := obj) (s₀ := new ⟨b!"c", []⟩)) (.call _ 0 (.inc 1) rfl)
  have e2 := Exec.step _ e1 (.lock _ 0 (.inc 1) rfl rfl)
  have e3 := Exec.step _ e2 (.call _ 1 (.inc 2) rfl)
  have f1 := Exec.step _ e3 (.access _ 0 (.inc 1) _ _ _ rfl)
  have f2 := Exec.step _ f1 (.access _ 0 (.inc 1) _ _ _ rfl)
  have f3 := Exec.step _ f2 (.access _ 0 (.inc 1) _ _ _ rfl)
  have f4 := Exec.step _ f3 (.access _ 0 (.inc 1) _ _ _ rfl)
  have f5 := Exec.step _ f4 (.access _ 0 (.inc 1) _ _ _ rfl)
  have f6 := Exec.step _ f5 (.access _ 0 (.inc 1) _ _ _ rfl)
  have f7 := Exec.step _ f6 (.access _ 0 (.inc 1) _ _ _ rfl)
  have f8 := Exec.step _ f7 (.access _ 0 (.inc 1) _ _ _ rfl)
  have f9 := Exec.step _ f8 (.access _ 0 (.inc 1) _ _ _ rfl)
  have f10 := Exec.step _ f9 (.access _ 0 (.inc 1) _ _ _ rfl)
  have f11 := Exec.step _ f10 (.unlock _ 0 (.inc 1) _ rfl)
  have e4 := Exec.step _ f11 (.lock _ 1 (.inc 2) rfl rfl)
  have g1 := Exec.step _ e4 (.access _ 1 (.inc 2) _ _ _ rfl)
  have g2 := Exec.step _ g1 (.access _ 1 (.inc 2) _ _ _ rfl)
  have g3 := Exec.step _ g2 (.access _ 1 (.inc 2) _ _ _ rfl)
  have g4 := Exec.step _ g3 (.access _ 1 (.inc 2) _ _ _ rfl)
  have g5 := Exec.step _ g4 (.access _ 1 (.inc 2) _ _ _ rfl)
  have g6 := Exec.step _ g5 (.access _ 1 (.inc 2) _ _ _ rfl)
  have g7 := Exec.step _ g6 (.access _ 1 (.inc 2) _ _ _ rfl)
  have g8 := Exec.step _ g7 (.access _ 1 (.inc 2) _ _ _ rfl)
  have g9 := Exec.step _ g8 (.access _ 1 (.inc 2) _ _ _ rfl)
  have g10 := Exec.step _ g9 (.access _ 1 (.inc 2) _ _ _ rfl)
  have g11 := Exec.step _ g10 (.unlock _ 1 (.inc 2) _ rfl)
  refine ⟨_, _, g11, ?_, rfl, rfl, rfl⟩
  intro t
  by_cases h0 : t = 0 <;> by_cases h1 : t = 1 <;> simp [upd, Config.init, h0, h1]

end Monkit.Counter
