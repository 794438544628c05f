import Verif.Proofs.Delta
import Verif.Proofs.Float
import Mathlib.Data.List.Perm.Basic
import Mathlib.Tactic.Abel

/-!
# C46: the delta transformer
-/

namespace Monkit.Delta
open Go Spec Go.Float

variable {V : Type}

/-- **C46.** For every stream of values, what comes out of a new transformer is every value, unchanged and in order, each total that is
not the first of its series being followed by its difference from the total before it in that series. -/
theorem C46_stream (sub : V → V → V) (wf : Key → Str → Str) (xs : List (Stat V)) :
    stream sub wf [] xs = (outs sub wf [] xs).map (·.2) :=
  stream_spec sub wf [] [] xs fun _ => rfl

/-- Without the deltas it is the stream that went in. -/
theorem C46_passes_through (sub : V → V → V) (wf : Key → Str → Str) (xs : List (Stat V)) :
    ((outs sub wf [] xs).filter (fun y => !y.1)).map (·.2) = xs := by
  suffices h : ∀ before, ((outs sub wf before xs).filter (fun y => !y.1)).map (·.2) = xs from h []
  induction xs with
  | nil => intro _; rfl
  | cons x xs ih =>
    intro before
    rw [outs, List.filter_append, List.map_append, ih]
    have : ((piece sub wf before x).filter (fun y => !y.1)).map (·.2) = [x] := by
      unfold piece
      split
      · split <;> simp
      · simp
    rw [this]
    rfl

/-- **C46**, the deltas of each series add up to its last total minus its first one, whatever the other series do. -/
theorem C46_telescopes [AddCommGroup V] (wf : Key → Str → Str) (xs : List (Stat V)) (n : Str) :
    (deltas wf n (outs (fun a b => a - b) wf [] xs)).sum = span (totals wf n xs) := by
  suffices h : ∀ before, span (totals wf n before) + (deltas wf n (outs (fun a b => a - b) wf before xs)).sum =
      span (totals wf n (before ++ xs)) by simpa [totals, span] using h []
  induction xs with
  | nil => intro before; simp [outs, deltas]
  | cons x xs ih =>
    intro before
    have e : ∀ l l' : List (Bool × Stat V), deltas wf n (l ++ l') = deltas wf n l ++ deltas wf n l' := by
      intro l l'; simp [deltas]
    rw [outs, e, List.sum_append, ← add_assoc, deltas_piece, ih]
    simp

/-- **C46**, series do not affect each other: what comes out for one series is the same without the values of the others. -/
theorem C46_series_independent (sub : V → V → V) (wf : Key → Str → Str) (xs : List (Stat V)) (n : Str) :
    deltas wf n (outs sub wf [] xs) = deltas wf n (outs sub wf [] (xs.filter (isTotal wf n))) := by
  suffices h : ∀ before before', totals wf n before = totals wf n before' →
      deltas wf n (outs sub wf before xs) = deltas wf n (outs sub wf before' (xs.filter (isTotal wf n))) from h [] [] rfl
  induction xs with
  | nil => intro _ _ _; rfl
  | cons x xs ih =>
    intro before before' hb
    have e : ∀ l l' : List (Bool × Stat V), deltas wf n (l ++ l') = deltas wf n l ++ deltas wf n l' := by
      intro l l'; simp [deltas]
    by_cases hx : isTotal wf n x = true
    · rw [List.filter_cons_of_pos hx, outs, outs, e, e]
      obtain ⟨h1, h2⟩ : x.2.1 = b!"total" ∧ wf x.1 x.2.1 = n := by simpa [isTotal] using hx
      rw [ih (before ++ [x]) (before' ++ [x]) (by rw [totals_snoc, totals_snoc, hb])]
      congr 1
      unfold piece
      rw [if_pos h1, if_pos h1, h2, hb]
    · rw [List.filter_cons_of_neg hx, outs, e]
      rw [ih (before ++ [x]) before' (by rw [totals_snoc, if_neg hx, List.append_nil, hb])]
      have : deltas wf n (piece sub wf before x) = [] := by
        unfold piece
        by_cases h1 : x.2.1 = b!"total"
        · have h2 : wf x.1 b!"total" ≠ n := fun h2 => hx (by simpa [isTotal] using ⟨h1, h1 ▸ h2⟩)
          rw [if_pos h1]
          cases (totals wf (wf x.1 x.2.1) before).getLast? with
          | none => simp [deltas]
          | some old => simp [deltas, h2]
        · rw [if_neg h1]; simp [deltas]
      rw [this, List.nil_append]

/-- float64 subtraction of whole numbers up to 2^52 in size is exact, so for counters and meters the deltas do add up as in
`C46_telescopes`. -/
theorem C46_float_exact (a b : ℤ) (ha : |a| ≤ 2 ^ 52) (hb : |b| ≤ 2 ^ 52) : rn 53 ((a : ℚ) - b) = (a : ℚ) - b := by
  refine rn_of_rep (by norm_num) ?_
  have h : |a - b| ≤ 2 ^ 53 := by
    have := abs_sub a b
    calc |a - b| ≤ |a| + |b| := abs_sub a b
      _ ≤ 2 ^ 52 + 2 ^ 52 := add_le_add ha hb
      _ = 2 ^ 53 := by norm_num
  have := rep_of_le (p := 53) (m := a - b) (e := 0) (by exact_mod_cast h) (by norm_num)
  simpa using this

/-- Non-vacuity: two series interleaved. -/
example : stream (fun a b : Int => a - b) (fun k _ => k.measurement) []
    [(⟨b!"a", []⟩, b!"total", 5), (⟨b!"b", []⟩, b!"total", 100), (⟨b!"a", []⟩, b!"rate", 1), (⟨b!"a", []⟩, b!"total", 7),
     (⟨b!"b", []⟩, b!"total", 90)] =
    [(⟨b!"a", []⟩, b!"total", 5), (⟨b!"b", []⟩, b!"total", 100), (⟨b!"a", []⟩, b!"rate", 1), (⟨b!"a", []⟩, b!"total", 7),
     (⟨b!"a", []⟩, b!"delta", 2), (⟨b!"b", []⟩, b!"total", 90), (⟨b!"b", []⟩, b!"delta", -10)] := by
  decide +kernel

/-! ### Any number of goroutines sharing one transformer -/

/-- **C46**, any number of goroutines: through each goroutine that is not inside a call came exactly its values, in order, each total
followed by a delta if its exchange found one. -/
theorem C46_concurrent_outputs {sub : V → V → V} {wf : Key → Str → Str} {tr : List (Ev V)} {s : State V}
    (h : Exec (Step sub wf) State.init tr s) (t : Nat) (hp : s.pc t = .idle) : outsOf t tr = expected sub t tr := by
  have := (inv h).out t
  rw [hp] at this
  simpa [PC.rest] using this

/-- And what an exchange finds is the total of the exchange before it in the same series. -/
theorem C46_concurrent_exchange {sub : V → V → V} {wf : Key → Str → Str} {tr : List (Ev V)} {s : State V}
    (h : Exec (Step sub wf) State.init tr s) {a b : List (Ev V)} {t : Nat} {x : Stat V} {o : Option V}
    (hab : tr = a ++ .swap t x o :: b) : x.2.1 = b!"total" ∧ o = (totals wf (wf x.1 x.2.1) (swaps a)).getLast? := by
  obtain ⟨s1, s2, h1, h2, _⟩ := Exec.split h a _ b hab
  have hi := inv h1
  cases h2 with
  | swap t x hp => exact ⟨hi.isTot _ _ (Or.inr hp), hi.table _⟩

/-- When nobody is inside a call, the deltas that came out are those that were due. -/
theorem deltasOut_perm {sub : V → V → V} {wf : Key → Str → Str} {tr : List (Ev V)} {s : State V}
    (h : Exec (Step sub wf) State.init tr s) (hq : ∀ t, s.pc t = .idle) : (deltasOut tr).Perm (due sub tr) := by
  classical
  refine perm_of_filters _ _ fun t => ?_
  have ho := C46_concurrent_outputs h t (hq t)
  have e1 : (deltasOut tr).filter (fun y => y.1 = t) = ((outsOf t tr).filter (·.1)).map (fun y => (t, y.2)) := by
    clear ho h
    induction tr with
    | nil => rfl
    | cons ev tr ih =>
      cases ev with
      | out t' x => by_cases hh : t' = t <;> simpa [deltasOut, outsOf, hh] using ih
      | outDelta t' x => by_cases hh : t' = t <;> simpa [deltasOut, outsOf, hh] using ih
      | _ => simpa [deltasOut, outsOf] using ih
  have e2 : (due sub tr).filter (fun y => y.1 = t) = ((expected sub t tr).filter (·.1)).map (fun y => (t, y.2)) := by
    clear ho h e1
    induction tr with
    | nil => rfl
    | cons ev tr ih =>
      cases ev with
      | call t' x => by_cases hh : t' = t ∧ x.2.1 ≠ b!"total" <;> simpa [due, expected, hh] using ih
      | swap t' x o =>
        cases o with
        | none => by_cases hh : t' = t <;> simpa [due, expected, hh] using ih
        | some old => by_cases hh : t' = t <;> simpa [due, expected, hh] using ih
      | _ => simpa [due, expected] using ih
  rw [e1, e2, ho]

/-- **C46**, any number of goroutines: when nobody is inside a call, the deltas of a series that came out add up to its last total
minus its first one, in the order of the exchanges. -/
theorem C46_concurrent_telescopes [AddCommGroup V] {wf : Key → Str → Str} {tr : List (Ev V)} {s : State V}
    (h : Exec (Step (fun a b => a - b) wf) State.init tr s) (hq : ∀ t, s.pc t = .idle) (n : Str) :
    (((deltasOut tr).filter fun y => wf y.2.1 b!"total" = n).map (·.2.2.2)).sum = span (totals wf n (swaps tr)) := by
  rw [((deltasOut_perm h hq).filter _ |>.map _).sum_eq]
  clear hq
  -- exchange by exchange
  have key : ∀ m (a b : List (Ev V)), a.length = m → tr = a ++ b →
      (((due (fun a b => a - b) a).filter fun y => wf y.2.1 b!"total" = n).map (·.2.2.2)).sum = span (totals wf n (swaps a)) := by
    intro m
    induction m with
    | zero =>
      intro a b hm _
      rw [List.length_eq_zero_iff.1 hm]
      rfl
    | succ m ih =>
      intro a b hm hab
      rcases List.eq_nil_or_concat a with rfl | ⟨a', ev, rfl⟩
      · simp at hm
      · rw [List.concat_eq_append] at *
        have ih' := ih a' (ev :: b) (by simpa using hm) (by rw [hab]; simp)
        have ed : due (fun a b => a - b) (a' ++ [ev]) = due (fun a b => a - b) a' ++ due (fun a b => a - b) [ev] := by
          unfold due; rw [List.filterMap_append]
        have es : swaps (a' ++ [ev]) = swaps a' ++ swaps [ev] := by
          unfold swaps; rw [List.filterMap_append]
        rw [ed, es, List.filter_append, List.map_append, List.sum_append, ih']
        cases ev with
        | swap t x o =>
          obtain ⟨ht, ho⟩ := C46_concurrent_exchange h (a := a') (b := b) (t := t) (x := x) (o := o) (by rw [hab]; simp)
          have : swaps [Ev.swap t x o] = [x] := rfl
          rw [this, totals_snoc]
          by_cases hn : wf x.1 x.2.1 = n
          · rw [if_pos (by simpa [isTotal] using ⟨ht, hn⟩), span_snoc, ho, hn]
            have hn' : wf x.1 b!"total" = n := ht ▸ hn
            cases (totals wf n (swaps a')).getLast? with
            | none => simp [due]
            | some old => simp [due, hn']
          · rw [if_neg (by simpa [isTotal] using fun _ => hn)]
            have hn' : wf x.1 b!"total" ≠ n := ht ▸ hn
            cases o with
            | none => simp [due]
            | some old => simp [due, hn']
        | _ => simp [due, swaps]
  exact key tr.length tr [] rfl (by simp)

/-- Non-vacuity: two goroutines, interleaved; both are done at the end. -/
example : ∃ s : State Int, Exec (Step (fun a b => a - b) (fun k _ => k.measurement)) State.init
    [.call 0 (⟨b!"a", []⟩, b!"total", 5), .call 1 (⟨b!"a", []⟩, b!"total", 7), .swap 1 (⟨b!"a", []⟩, b!"total", 7) none,
     .swap 0 (⟨b!"a", []⟩, b!"total", 5) (some 7), .out 0 (⟨b!"a", []⟩, b!"total", 5), .out 1 (⟨b!"a", []⟩, b!"total", 7),
     .outDelta 0 (⟨b!"a", []⟩, b!"delta", -2), .ret 0, .ret 1] s ∧ ∀ t, s.pc t = .idle := by
  have h0 : Exec (Step (fun a b => a - b) (fun k _ => k.measurement)) State.init [] (State.init : State Int) := .start
  have h1 := Exec.step _ h0 (.callTotal _ 0 (⟨b!"a", []⟩, b!"total", 5) rfl rfl)
  have h2 := Exec.step _ h1 (.callTotal _ 1 (⟨b!"a", []⟩, b!"total", 7) rfl rfl)
  have h3 := Exec.step _ h2 (.lock _ 1 _ rfl rfl)
  have h4 := Exec.step _ h3 (.swap _ 1 _ rfl)
  have h5 := Exec.step _ h4 (.unlock _ 1 _ _ rfl)
  have h6 := Exec.step _ h5 (.lock _ 0 _ rfl rfl)
  have h7 := Exec.step _ h6 (.swap _ 0 _ rfl)
  have h8 := Exec.step _ h7 (.unlock _ 0 _ _ rfl)
  have h9 := Exec.step _ h8 (.total _ 0 _ _ rfl)
  have h10 := Exec.step _ h9 (.total _ 1 _ _ rfl)
  have h11 := Exec.step _ h10 (.delta _ 0 _ 7 rfl)
  have h12 := Exec.step _ h11 (.ret _ 0 _ rfl)
  have h13 := Exec.step _ h12 (.ret _ 1 _ rfl)
  refine ⟨_, h13, fun t => ?_⟩
  simp only [upd_apply]
  by_cases e1 : t = 1
  · simp [e1]
  · by_cases e0 : t = 0
    · simp [e0]
    · simp [e0, e1, State.init]

end Monkit.Delta
