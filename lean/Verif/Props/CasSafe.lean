import Verif.Model.CasSafe
import Verif.Props.CounterConc

/-!
# C83: the App Engine build has the same atomic pointers
-/

namespace Monkit.CasSafe
open Go.Mutex

/-- The contract of sync/atomic: each operation reads and writes one variable, indivisibly. -/
def atomicOp (m : Mem) : Op → Mem × Res
  | .load a => (m, .ptr (m a))
  | .store a new => (fun b => if b = a then new else m b, .unit)
  | .cas a old new => if m a = old then (fun b => if b = a then new else m b, .bool true) else (m, .bool false)
  | .swap a new => (fun b => if b = a then new else m b, .ptr (m a))

theorem exec_eq (m : Mem) (op : Op) : obj.exec m op = atomicOp m op := by
  cases op with
  | cas a old new =>
    simp only [Obj.exec, obj, body, List.foldl_cons, List.foldl_nil, atomicOp]
    split <;> rfl
  | _ => rfl

/-- **C83.** The operations that lock a global mutex are as good as the atomic ones: in every schedule of any number of goroutines, the calls and
returns are those of variables on which `Load`, `Store`, `CompareAndSwap` and `Swap` take effect indivisibly between call and return; and the mutex is
never left locked. -/
theorem C83_atomic (m₀ : Mem) (tr : List (Event Op Res)) (c : Config Mem Locals Op) (h : Exec obj m₀ tr c) :
    (∃ m p, Atomic atomicOp m₀ tr m p ∧ (c.held = false → c.sh = m) ∧ ∀ t, c.thr t = .idle → p t = .idle) ∧
    ((∃ t, c.thr t ≠ .idle) → ∃ e c', Step obj c e c' ∧ ∀ t op, e ≠ some (.call t op)) := by
  constructor
  · obtain ⟨s, p, h1, h2, h3⟩ := C03_mutex_linearizable obj m₀ tr c h
    have : obj.exec = atomicOp := by funext m op; exact exec_eq m op
    exact ⟨s, p, by rw [← this]; exact h1, h2, h3⟩
  · exact C03_no_deadlock obj m₀ tr c h

/-- **C83.** Of any number of goroutines that try to replace a variable's initial value, exactly one succeeds if all have returned and at least one
tried with that value. -/
theorem C83_one_winner (m₀ : Mem) (a old : Nat) (tr : List (Event Op Res)) (c : Config Mem Locals Op) (h : Exec obj m₀ tr c)
    (quiet : ∀ t, c.thr t = .idle) (hold : m₀ a = old)
    (hall : ∀ t op, op ∈ callsOf t tr → ∃ new, op = .cas a old new ∧ new ≠ old) (hsome : ∃ t, callsOf t tr ≠ []) :
    ∃ (t₀ i : Nat), (retsOf t₀ tr)[i]? = some (.bool true) ∧
      (∀ (t j : Nat), (retsOf t tr)[j]? = some (.bool true) → t = t₀ ∧ j = i) ∧
      ∃ new, (callsOf t₀ tr)[i]? = some (.cas a old new) ∧ c.sh a = new := by
  obtain ⟨lin, h1, h2⟩ := C03_no_lost_update obj m₀ tr c h quiet
  have hop : ∀ x ∈ lin, ∃ new, x.2.1 = .cas a old new ∧ new ≠ old := by
    intro x hx
    refine hall x.1 x.2.1 ?_
    rw [(h2 x.1).1]
    exact List.mem_map.2 ⟨x, by simp [hx], rfl⟩
  have later : ∀ (l : List (Nat × Op × Res)) (m : Mem), m a ≠ old → (∀ x ∈ l, ∃ new, x.2.1 = .cas a old new ∧ new ≠ old) →
      seqRun obj.exec m (l.map (·.2.1)) = (m, l.map fun _ => .bool false) := by
    intro l
    induction l with
    | nil => intro m _ _; rfl
    | cons x xs ih =>
      intro m hm hx
      obtain ⟨new, e, _⟩ := hx x (by simp)
      have e1 : obj.exec m x.2.1 = (m, .bool false) := by rw [exec_eq, e]; simp [atomicOp, hm]
      simp only [List.map_cons, seqRun, e1, ih m hm fun y hy => hx y (by simp [hy])]
  cases lin with
  | nil =>
    obtain ⟨t, ht⟩ := hsome
    rw [(h2 t).1] at ht
    exact absurd rfl ht
  | cons x xs =>
    obtain ⟨new, e, hne⟩ := hop x (by simp)
    have e1 : obj.exec m₀ x.2.1 = (fun b => if b = a then new else m₀ b, .bool true) := by rw [exec_eq, e]; simp [atomicOp, hold]
    have e2 := later xs (fun b => if b = a then new else m₀ b) (by simpa using hne) fun y hy => hop y (by simp [hy])
    simp only [List.map_cons, seqRun, e1, e2, Prod.mk.injEq, List.cons.injEq] at h1
    obtain ⟨hsh, hx, hxs⟩ := h1
    have hfalse : ∀ y ∈ xs, y.2.2 = .bool false := by
      intro y hy
      have : ∀ l : List (Nat × Op × Res), (l.map fun _ => Res.bool false) = l.map (·.2.2) → ∀ y ∈ l, y.2.2 = .bool false := by
        intro l
        induction l with
        | nil => simp
        | cons z zs ih =>
          intro hl y hy
          simp only [List.map_cons, List.cons.injEq] at hl
          rcases List.mem_cons.1 hy with rfl | hy
          · exact hl.1.symm
          · exact ih hl.2 y hy
      exact this xs hxs y hy
    refine ⟨x.1, 0, ?_, ?_, new, ?_, ?_⟩
    · rw [(h2 x.1).2]; simp [← hx]
    · intro t j hj
      rw [(h2 t).2] at hj
      by_cases ht : x.1 = t
      · refine ⟨ht.symm, ?_⟩
        rw [List.filter_cons_of_pos (by simpa using ht), List.map_cons] at hj
        cases j with
        | zero => rfl
        | succ j =>
          rw [List.getElem?_cons_succ] at hj
          have hm := List.mem_of_getElem? hj
          obtain ⟨y, hy, he⟩ := List.mem_map.1 hm
          rw [hfalse y ((List.mem_filter.1 hy).1)] at he
          cases he
      · rw [List.filter_cons_of_neg (by simpa using ht)] at hj
        have hm := List.mem_of_getElem? hj
        obtain ⟨y, hy, he⟩ := List.mem_map.1 hm
        rw [hfalse y ((List.mem_filter.1 hy).1)] at he
        cases he
    · rw [(h2 x.1).1]; simp [e]
    · rw [← hsh]; simp

/-- The hypotheses are met: two goroutines race to replace nil. -/
example : ∃ (tr : List (Event Op Res)) (c : Config Mem Locals Op), Exec obj (fun _ => 0) tr c ∧ (∀ t, c.thr t = .idle) ∧ callsOf 0 tr = [.cas 5 0 1] ∧ callsOf 1 tr = [.cas 5 0 2] ∧
    (∀ t op, op ∈ callsOf t tr → ∃ new, op = .cas 5 0 new ∧ new ≠ 0) := by
  have e := Exec.start (o := obj) (s₀ := fun _ => 0)
  have e := Exec.step _ e (.call _ 0 (.cas 5 0 1) rfl)
  have e := Exec.step _ e (.call _ 1 (.cas 5 0 2) rfl)
  have e := Exec.step _ e (.lock _ 1 _ rfl rfl)
  have e := Exec.step _ e (.access _ 1 _ _ _ _ rfl)
  have e := Exec.step _ e (.access _ 1 _ _ _ _ rfl)
  have e := Exec.step _ e (.unlock _ 1 _ _ rfl)
  have e := Exec.step _ e (.lock _ 0 _ rfl rfl)
  have e := Exec.step _ e (.access _ 0 _ _ _ _ rfl)
  have e := Exec.step _ e (.access _ 0 _ _ _ _ rfl)
  have e := Exec.step _ e (.unlock _ 0 _ _ rfl)
  refine ⟨_, _, e, ?_, rfl, rfl, ?_⟩
  · intro t
    by_cases h0 : t = 0 <;> by_cases h1 : t = 1 <;> simp [upd, Config.init, *]
  · intro t op h
    simp [callsOf] at h
    grind

end Monkit.CasSafe
