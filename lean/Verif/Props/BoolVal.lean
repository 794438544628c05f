import Verif.Proofs.BoolVal

/-!
# C16: BoolVal under concurrency

Executions are arbitrary schedules of the individual atomic operations of any number of goroutines.
-/

namespace Monkit.BoolVal
open Go Monkit.Spec.BoolVal

theorem ofNat_toInt {n : Nat} (h : n < 2 ^ 63) : (Int64.ofNat n).toInt = n :=
  Int64.toInt_ofNat_of_lt h

/-- **C16.** Whenever a `Stats` call that was asked for after `pre` reports: disposition is true minus
false; each reported count is at least the number of observations of that value that had returned
before the call began and at most the number that have begun by now; and the reported recent value
is the one last stored at some moment during the call. -/
theorem C16_report_bounds (t : Nat) (pre mid : List Event) (disp fls tru : Int64) (rec' : Int32)
    (s : State) (hm : ∀ e ∈ mid, who e ≠ t)
    (h : Exec Step init (pre ++ .ask t :: mid ++ [.report t disp fls rec' tru]) s)
    (hlen : (pre ++ Event.ask t :: mid).length < 2 ^ 63) :
    disp.toInt = tru.toInt - fls.toInt ∧
    (finished true pre : Int) ≤ tru.toInt ∧ tru.toInt ≤ begun true (pre ++ mid) ∧
    (finished false pre : Int) ≤ fls.toInt ∧ fls.toInt ≤ begun false (pre ++ mid) ∧
    ∃ m1 m2, mid = m1 ++ m2 ∧ rec' = lastStored (pre ++ m1) := by
  -- find the step that emitted the report
  have key : ∀ (tr : List Event) (s : State), Exec Step init tr s →
      tr = pre ++ .ask t :: mid ++ [.report t disp fls rec' tru] →
      ∃ s0 a b, Exec Step init (pre ++ .ask t :: mid) s0 ∧ s0.thr t = .rep a b rec' ∧
        disp = a - b ∧ fls = b ∧ tru = a := by
    intro tr s h
    induction h with
    | start => intro h; simp at h
    | @step tr s s' e hex st ih =>
      intro he
      cases e with
      | none => exact ih (by simpa using he)
      | some e =>
        obtain ⟨h1, h2⟩ := List.append_inj' he rfl
        simp only [Option.toList, List.cons.injEq, and_true] at h2
        subst h1 h2
        cases st with
        | report t a b r hp => exact ⟨s, _, _, hex, hp, rfl, rfl, rfl⟩
  obtain ⟨s0, a, b, h0, hp, rfl, rfl, rfl⟩ := key _ s h rfl
  have hi := (inv_exec h0).stats t
  rw [hp] at hi
  obtain ⟨pre', mid', ⟨hsplit, hmid'⟩, ⟨n, hn1, hn2, hn3⟩, ⟨m, hm1, hm2, hm3⟩, c1, c2, hc1, hc2⟩ := hi
  -- the split of the trace is unique
  have huniq : ∀ (p1 m1 p2 m2 : List Event), (∀ e ∈ m1, who e ≠ t) → (∀ e ∈ m2, who e ≠ t) →
      p1 ++ Event.ask t :: m1 = p2 ++ Event.ask t :: m2 → p1 = p2 ∧ m1 = m2 := by
    intro p1 m1 p2 m2 g1 g2 he
    rw [List.append_eq_append_iff] at he
    rcases he with ⟨x, hx1, hx2⟩ | ⟨x, hx1, hx2⟩
    · cases x with
      | nil => simp at hx1 hx2; exact ⟨hx1.symm, hx2⟩
      | cons y ys =>
        simp at hx2
        exact absurd (rfl : who (Event.ask t) = t) (g1 _ (by rw [hx2.2]; simp))
    · cases x with
      | nil => simp at hx1 hx2; exact ⟨hx1, hx2.symm⟩
      | cons y ys =>
        simp at hx2
        exact absurd (rfl : who (Event.ask t) = t) (g2 _ (by rw [hx2.2]; simp))
  obtain ⟨rfl, rfl⟩ := huniq _ _ _ _ hm hmid' hsplit
  have hb : ∀ v, begun v (pre ++ Event.ask t :: mid) = begun v (pre ++ mid) := by
    intro v; simp [begun]
  have hlen' : ∀ v, begun v (pre ++ Event.ask t :: mid) ≤ (pre ++ Event.ask t :: mid).length :=
    fun v => List.countP_le_length
  have l1 := hlen' true
  have l2 := hlen' false
  have e1 : (Int64.ofNat n).toInt = n := ofNat_toInt (by omega)
  have e2 : (Int64.ofNat m).toInt = m := ofNat_toInt (by omega)
  rw [hb] at hn3 hm3 l1 l2
  refine ⟨?_, ?_, ?_, ?_, ?_, ?_⟩
  · rw [hn1, hm1, Int64.toInt_sub, e1, e2, Int.bmod_eq_of_le] <;> omega
  · rw [hn1, e1]; omega
  · rw [hn1, e1]; omega
  · rw [hm1, e2]; omega
  · rw [hm1, e2]; omega
  · -- c1 begins with the `ask`, which stores nothing
    rw [List.append_assoc] at hc1
    have hc1 := List.append_cancel_left hc1
    cases c1 with
    | nil => exact ⟨[], mid, rfl, hc2⟩
    | cons y ys =>
      simp at hc1
      refine ⟨ys, c2, hc1.2, hc2.trans ?_⟩
      rw [← hc1.1]
      simp [lastStored]

/-- **C16.** When no call is in progress, the counts are exactly the numbers of true and false
observations made, and recent is the value whose store came last. -/
theorem C16_final_counts (tr : List Event) (s : State) (h : Exec Step init tr s)
    (quiet : ∀ t, s.thr t = .idle) (hlen : tr.length < 2 ^ 63) :
    s.trues.toInt = begun true tr ∧ s.falses.toInt = begun false tr ∧
    begun true tr = finished true tr ∧ begun false tr = finished false tr ∧
    s.recent = lastStored tr := by
  have hi := inv_exec h
  have key : ∀ v, (cnt v s).toInt = begun v tr ∧ begun v tr = finished v tr := by
    intro v
    obtain ⟨a, n1, n2, h1, c1, c2, h4, h5⟩ := hi.counts v
    have z1 := c1.eq_zero (fun t => by rw [quiet t]; rfl)
    have z2 := c2.eq_zero (fun t => by rw [quiet t]; rfl)
    have : begun v tr ≤ tr.length := List.countP_le_length
    rw [h1, ofNat_toInt (by omega)]
    omega
  exact ⟨(key true).1, (key false).1, (key true).2, (key false).2, hi.recent⟩

/-- **C16.** Every `Observe(v)` that has returned stored `v` as the recent value exactly once, after it was called and before it
returned: up to its return, what its goroutine did last is the call and this store. -/
theorem C16_stored_once (tr p q : List Event) (s : State) (t : Nat) (v : Bool) (h : Exec Step init tr s)
    (e : tr = p ++ .finish t v :: q) : ∃ l, own t p = l ++ [.begin t v, .stored t v] := by
  obtain ⟨s1, s2, h1, st, _⟩ := h.split p _ q e
  have := life_exec h1 t
  cases st with
  | finish _ _ hp => rw [hp] at this; exact this

/-- **C16.** Nothing else stores: a store is made by a goroutine in the middle of an `Observe` of that value. -/
theorem C16_only_observe_stores (tr p q : List Event) (s : State) (t : Nat) (v : Bool) (h : Exec Step init tr s)
    (e : tr = p ++ .stored t v :: q) : ∃ l, own t p = l ++ [.begin t v] := by
  obtain ⟨s1, s2, h1, st, _⟩ := h.split p _ q e
  have := life_exec h1 t
  cases st with
  | storeTrue _ hp => rw [hp] at this; exact this
  | storeFalse _ hp => rw [hp] at this; exact this

/-- The hypotheses are met: an `Observe(false)` runs in the middle of a `Stats` call. -/
example : ∃ s, Exec Step init ([.begin 0 true, .stored 0 true, .finish 0 true] ++ .ask 1 ::
      [.begin 2 false, .stored 2 false, .finish 2 false] ++ [.report 1 0 1 0 1]) s ∧
    (∀ t, s.thr t = .idle) := by
  have e := Exec.start (step := Step) (s₀ := init)
  have e := Exec.step _ e (.begin _ 0 true rfl)
  have e := Exec.step _ e (.addTrue _ 0 rfl)
  have e := Exec.step _ e (.storeTrue _ 0 rfl)
  have e := Exec.step _ e (.finish _ 0 true rfl)
  have e := Exec.step _ e (.ask _ 1 rfl)
  have e := Exec.step _ e (.load1 _ 1 rfl)
  have e := Exec.step _ e (.begin _ 2 false rfl)
  have e := Exec.step _ e (.addFalse _ 2 rfl)
  have e := Exec.step _ e (.storeFalse _ 2 rfl)
  have e := Exec.step _ e (.load2 _ 1 1 rfl)
  have e := Exec.step _ e (.load3 _ 1 1 1 rfl)
  have e := Exec.step _ e (.finish _ 2 false rfl)
  have e := Exec.step _ e (.report _ 1 1 1 0 rfl)
  refine ⟨_, e, ?_⟩
  intro t
  by_cases h0 : t = 0 <;> by_cases h1 : t = 1 <;> by_cases h2 : t = 2 <;> simp [upd, init, *]

end Monkit.BoolVal
