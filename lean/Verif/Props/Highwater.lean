import Verif.Spec.Highwater
import Mathlib.Data.List.Induction
import Mathlib.Tactic.Tauto
import Mathlib.Tactic.ByContra

/-!
# C18, C19: `Current` and `Highwater`
-/

namespace Monkit.Highwater
open Go Monkit.Spec

/-- The observation counts as an instance. -/
def PC.isIn : PC → Bool
  | .load _ | .cas _ _ | .running | .sub => true
  | _ => false

theorem instances_snoc (tr : List Event) (e : Event) :
    instances (tr ++ [e]) = match e with
      | .add _ => instances tr + 1
      | .sub _ => instances tr - 1
      | .zero _ => 0
      | _ => instances tr := by
  cases e <;> simp [instances]

theorem instances_bound (tr : List Event) :
    -(tr.length : Int) ≤ instances tr ∧ instances tr ≤ tr.length := by
  induction tr using List.reverseRecOn with
  | nil => simp [instances]
  | append_singleton tr e ih =>
    rw [instances_snoc, List.length_append, List.length_singleton]
    cases e <;> simp only [] <;> omega

theorem current_eq {tr s} (h : Exec Step init tr s) : s.current = Int64.ofInt (instances tr) := by
  refine Exec.induct (fun tr s => s.current = Int64.ofInt (instances tr)) rfl ?_ h
  intro tr s e s' ih st
  cases st
  case add t h =>
    show s.current + 1 = _
    rw [Option.toList_some, instances_snoc, ih, Int64.ofInt_add]; rfl
  case sub t h =>
    show s.current + (-1) = _
    rw [Option.toList_some, instances_snoc, ih, Int.sub_eq_add_neg, Int64.ofInt_add]; rfl
  case zeroCurrent t h => rw [Option.toList_some, instances_snoc]; rfl
  all_goals first
    | rw [Option.toList_some, instances_snoc]; exact ih
    | rw [Option.toList_none, List.append_nil]; exact ih

/-- **C18 (Current, any schedule, with or without Reset).** `Current()` is the number of instances
that have begun and not ended since the last `Reset`. -/
theorem C18_current_count {tr s} (h : Exec Step init tr s) (hlen : tr.length < 2 ^ 63) :
    s.current.toInt = instances tr := by
  rw [current_eq h]
  have := instances_bound tr
  apply Int64.toInt_ofInt_of_le <;> omega

/-- What holds in every state reached without `Reset`. -/
structure Inv (tr : List Event) (s : State) : Prop where
  noreset : ∀ t, s.thr t ≠ .reset1 ∧ s.thr t ≠ .reset2
  census : ∃ n : Nat, Census s.thr PC.isIn n ∧ instances tr = n
  peak : ∃ m : Nat, IsPeak tr m ∧ s.highwater.toInt ≤ m ∧
    (s.highwater.toInt = m ∨ ∃ t, ∃ cur : Int64, cur.toInt = m ∧ (s.thr t = .load cur ∨
      ∃ hw : Int64, s.thr t = .cas cur hw))
  cas : ∀ t cur hw, s.thr t = .cas cur hw → hw.toInt ≤ s.highwater.toInt
  curs : ∀ t cur, (s.thr t = .load cur ∨ ∃ hw, s.thr t = .cas cur hw) →
    ∃ a b, tr = a ++ .add t :: b ∧ cur.toInt = instances (a ++ [.add t])
  started : ∀ t cur, .started t cur ∈ tr → cur.toInt ≤ s.highwater.toInt ∧
    ∃ a b, tr = a ++ .add t :: b ∧ cur.toInt = instances (a ++ [.add t])

theorem peak_mono_none {tr : List Event} {e : Event} {m : Int} (h : IsPeak tr m)
    (he : instances (tr ++ [e]) ≤ m) : IsPeak (tr ++ [e]) m := by
  obtain ⟨⟨a, b, h1, h2⟩, h3⟩ := h
  refine ⟨⟨a, b ++ [e], by rw [h1, List.append_assoc], h2⟩, ?_⟩
  intro a' b' hab
  rcases List.eq_nil_or_concat b' with rfl | ⟨b'', x, rfl⟩
  · rw [List.append_nil] at hab; rw [← hab]; exact he
  · rw [List.concat_eq_append, ← List.append_assoc] at hab
    exact h3 a' b'' (List.append_inj' hab rfl).1

theorem peak_new {tr : List Event} {e : Event} {m : Int} (h : IsPeak tr m)
    (he : m ≤ instances (tr ++ [e])) : IsPeak (tr ++ [e]) (instances (tr ++ [e])) := by
  refine ⟨⟨tr ++ [e], [], by simp, rfl⟩, ?_⟩
  intro a' b' hab
  rcases List.eq_nil_or_concat b' with rfl | ⟨b'', x, rfl⟩
  · rw [List.append_nil] at hab; rw [← hab]; exact Int.le_refl _
  · rw [List.concat_eq_append, ← List.append_assoc] at hab
    exact Int.le_trans (h.2 a' b'' (List.append_inj' hab rfl).1) he

theorem ext {tr : List Event} {P : List Event → Prop} {t : Nat} (e : List Event)
    (h : ∃ a b, tr = a ++ .add t :: b ∧ P a) : ∃ a b, tr ++ e = a ++ .add t :: b ∧ P a := by
  obtain ⟨a, b, h1, h2⟩ := h
  exact ⟨a, b ++ e, by rw [h1]; simp, h2⟩

/-- The highest number so far, and who is about to record it. -/
def PeakOk (tr : List Event) (hw : Int64) (thr : Nat → PC) : Prop :=
  ∃ m : Nat, IsPeak tr m ∧ hw.toInt ≤ m ∧
    (hw.toInt = m ∨ ∃ t, ∃ cur : Int64, cur.toInt = m ∧ (thr t = .load cur ∨
      ∃ hw : Int64, thr t = .cas cur hw))

theorem inv_step {tr : List Event} {s : State} (i : Inv tr s) (t : Nat) (v : PC) (hw' c' : Int64)
    (e : List Event) (hv : v ≠ .reset1 ∧ v ≠ .reset2)
    (hcen : instances (tr ++ e) + (PC.isIn (s.thr t)).toNat = instances tr + (PC.isIn v).toNat)
    (hpeak : PeakOk (tr ++ e) hw' (upd s.thr t v))
    (hhw : s.highwater.toInt ≤ hw'.toInt)
    (hcas : ∀ cur hw, v = .cas cur hw → hw.toInt ≤ hw'.toInt)
    (hcurs : ∀ cur, (v = .load cur ∨ ∃ hw, v = .cas cur hw) →
      ∃ a b, tr ++ e = a ++ .add t :: b ∧ cur.toInt = instances (a ++ [.add t]))
    (hst : ∀ t cur, .started t cur ∈ e → cur.toInt ≤ hw'.toInt ∧
      ∃ a b, tr ++ e = a ++ .add t :: b ∧ cur.toInt = instances (a ++ [.add t])) :
    Inv (tr ++ e) ⟨c', hw', upd s.thr t v⟩ := by
  obtain ⟨n, hn, hin⟩ := i.census
  obtain ⟨n', hn', hadd⟩ := hn.upd t v
  refine ⟨?_, ⟨n', hn', by omega⟩, hpeak, ?_, ?_, ?_⟩
  · intro t'
    by_cases ht : t' = t
    · subst ht; simpa using hv
    · simpa [upd_other _ _ ht] using i.noreset t'
  · intro t' cur hw h
    by_cases ht : t' = t
    · subst ht; exact hcas cur hw (by simpa using h)
    · exact Int.le_trans (i.cas t' cur hw (by simpa [upd_other _ _ ht] using h)) hhw
  · intro t' cur h
    by_cases ht : t' = t
    · subst ht; exact hcurs cur (by simpa using h)
    · exact ext e (i.curs t' cur (by simpa [upd_other _ _ ht] using h))
  · intro t' cur h
    rcases List.mem_append.mp h with h | h
    · have := i.started t' cur h
      exact ⟨Int.le_trans this.1 hhw, ext e this.2⟩
    · exact hst t' cur h

theorem inst_le {tr : List Event} {m : Int} (h : IsPeak tr m) : instances tr ≤ m :=
  h.2 tr [] (by simp)

theorem peakOk_keep {tr : List Event} {s : State} (i : Inv tr s) (t : Nat) (v : PC) (e : List Event)
    (he : e = [] ∨ ∃ x, e = [x] ∧ instances (tr ++ [x]) ≤ instances tr)
    (hv : ∀ cur, (s.thr t = .load cur ∨ ∃ hw, s.thr t = .cas cur hw) → cur.toInt ≤ s.highwater.toInt ∨
      (v = .load cur ∨ ∃ hw, v = .cas cur hw)) : PeakOk (tr ++ e) s.highwater (upd s.thr t v) := by
  obtain ⟨m, hm, hle, hmax⟩ := i.peak
  refine ⟨m, ?_, hle, ?_⟩
  · rcases he with rfl | ⟨x, rfl, hx⟩
    · simpa using hm
    · exact peak_mono_none hm (Int.le_trans hx (inst_le hm))
  · rcases hmax with h | ⟨t', cur, hc, h⟩
    · exact .inl h
    · by_cases ht : t' = t
      · subst ht
        rcases hv cur h with h' | h'
        · left; omega
        · exact .inr ⟨t', cur, hc, by simpa using h'⟩
      · exact .inr ⟨t', cur, hc, by simpa [upd_other _ _ ht] using h⟩

theorem inv_reach {tr s} (h : Exec Step init tr s) (hlen : tr.length < 2 ^ 63) (hr : NoReset tr) :
    Inv tr s := by
  have key := Exec.induct (step := Step) (s₀ := init)
    (fun tr s => Exec Step init tr s ∧ (tr.length < 2 ^ 63 → NoReset tr → Inv tr s)) ?_ ?_ h
  · exact key.2 hlen hr
  · refine ⟨.start, fun _ _ => ⟨by simp [init], ⟨0, census_zero (by intro t; rfl), rfl⟩,
      ⟨0, ⟨⟨[], [], rfl, rfl⟩, ?_⟩, by simp [init], .inl rfl⟩, by simp [init], by simp [init],
      by simp⟩⟩
    intro a b hab
    have : a = [] := by cases a with | nil => rfl | cons => simp at hab
    subst this; exact Int.le_refl _
  intro tr s e s' ⟨hex, ih⟩ st
  refine ⟨.step e hex st, fun hlen hr => ?_⟩
  have hlen0 : tr.length < 2 ^ 63 := by rw [List.length_append] at hlen; omega
  have i := ih hlen0 (fun t ht => hr t (by simp [ht]))
  obtain ⟨n, hn, hin⟩ := i.census
  obtain ⟨m, hm, hle, hmax⟩ := i.peak
  cases st with
  | start t h =>
    apply inv_step i t .add s.highwater _ [.start t]
    · simp
    · rw [instances_snoc, h]; simp [PC.isIn]
    · exact peakOk_keep i t _ _ (.inr ⟨_, rfl, by rw [instances_snoc]; exact Int.le_refl _⟩) (by simp [h])
    · exact Int.le_refl _
    all_goals simp
  | add t h =>
    have hc : (s.current + 1).toInt = instances (tr ++ [.add t]) := by
      have := C18_current_count (.step _ hex (.add s t h)) hlen
      simpa using this
    apply inv_step i t _ s.highwater _ [.add t]
    · simp
    · rw [instances_snoc, h]; simp [PC.isIn]
    · by_cases hbig : (m : Int) ≤ instances (tr ++ [.add t])
      · refine ⟨(instances (tr ++ [.add t])).toNat, ?_, by omega, .inr ⟨t, s.current + 1, ?_, .inl (by simp)⟩⟩
        · rw [Int.toNat_of_nonneg (by omega)]; exact peak_new hm hbig
        · rw [Int.toNat_of_nonneg (by omega), hc]
      · refine ⟨m, peak_mono_none hm (by omega), hle, ?_⟩
        rcases hmax with h' | ⟨t', cur, hc', h'⟩
        · exact .inl h'
        · have ht : t' ≠ t := by
            rintro rfl; rw [h] at h'; simp at h'
          exact .inr ⟨t', cur, hc', by simpa [upd_other _ _ ht] using h'⟩
    · exact Int.le_refl _
    · simp
    · intro cur hcur
      simp at hcur
      subst hcur
      exact ⟨tr, [], rfl, hc⟩
    · simp
  | load t cur h =>
    apply inv_step i t _ s.highwater _ []
    · simp
    · rw [h]; simp [PC.isIn]
    · exact peakOk_keep i t _ _ (.inl rfl) (by simp [h])
    · exact Int.le_refl _
    · intro cur' hw' he; cases he; exact Int.le_refl _
    · intro cur' hc
      simp at hc
      subst hc
      exact ext [] (i.curs t cur (.inl h))
    · simp
  | enough t cur hw h le =>
    have hcur : cur.toInt ≤ s.highwater.toInt := Int.le_trans (Int64.le_iff_toInt_le.mp le) (i.cas t cur hw h)
    apply inv_step i t _ s.highwater _ [.started t cur]
    · simp
    · rw [instances_snoc, h]; simp [PC.isIn]
    · refine peakOk_keep i t _ _ (.inr ⟨_, rfl, by rw [instances_snoc]; exact Int.le_refl _⟩) ?_
      intro cur' h'
      rw [h] at h'
      simp at h'
      subst h'
      exact .inl hcur
    · exact Int.le_refl _
    · simp
    · simp
    · intro t' cur' hmem
      simp at hmem
      obtain ⟨rfl, rfl⟩ := hmem
      exact ⟨hcur, ext _ (i.curs t' cur' (.inr ⟨hw, h⟩))⟩
  | swap t cur hw h gt same =>
    have hgt : s.highwater.toInt < cur.toInt := by
      rw [same]; exact Int.not_le.mp (fun hh => gt (Int64.le_iff_toInt_le.mpr hh))
    have hcm : cur.toInt ≤ m := by
      obtain ⟨a, b, h1, h2⟩ := i.curs t cur (.inr ⟨hw, h⟩)
      rw [h2]; exact hm.2 (a ++ [.add t]) b (by simp [h1])
    apply inv_step i t _ cur _ [.started t cur]
    · simp
    · rw [instances_snoc, h]; simp [PC.isIn]
    · refine ⟨m, peak_mono_none hm (by rw [instances_snoc]; exact inst_le hm), hcm, ?_⟩
      rcases hmax with h' | ⟨t', cur', hc', h'⟩
      · left; omega
      · by_cases ht : t' = t
        · subst ht
          rw [h] at h'
          simp at h'
          subst h'
          exact .inl hc'
        · exact .inr ⟨t', cur', hc', by simpa [upd_other _ _ ht] using h'⟩
    · omega
    · simp
    · simp
    · intro t' cur' hmem
      simp at hmem
      obtain ⟨rfl, rfl⟩ := hmem
      exact ⟨Int.le_refl _, ext _ (i.curs t' cur' (.inr ⟨hw, h⟩))⟩
  | retry t cur hw h gt changed =>
    apply inv_step i t _ s.highwater _ []
    · simp
    · rw [h]; simp [PC.isIn]
    · exact peakOk_keep i t _ _ (.inl rfl) (by simp [h])
    · exact Int.le_refl _
    · simp
    · intro cur' hc
      simp at hc
      subst hc
      exact ext [] (i.curs t cur (.inr ⟨hw, h⟩))
    · simp
  | finish t h =>
    apply inv_step i t _ s.highwater _ [.finish t]
    · simp
    · rw [instances_snoc, h]; simp [PC.isIn]
    · exact peakOk_keep i t _ _ (.inr ⟨_, rfl, by rw [instances_snoc]; exact Int.le_refl _⟩) (by simp [h])
    · exact Int.le_refl _
    all_goals simp
  | sub t h =>
    apply inv_step i t _ s.highwater _ [.sub t]
    · simp
    · rw [instances_snoc, h]; simp [PC.isIn]
    · exact peakOk_keep i t _ _ (.inr ⟨_, rfl, by rw [instances_snoc]; simp only []; omega⟩) (by simp [h])
    · exact Int.le_refl _
    all_goals simp
  | reset t h => exact absurd (by simp) (hr t)
  | zeroCurrent t h => exact absurd h (i.noreset t).1
  | zeroHighwater t h => exact absurd h (i.noreset t).2

/-- **C18 (Current).** Without `Reset`, `Current()` is at every moment the number of observations
that have added themselves and not yet subtracted themselves again. -/
theorem C18_current_in_progress {tr s} (h : Exec Step init tr s) (hlen : tr.length < 2 ^ 63)
    (hr : NoReset tr) : ∃ n : Nat, Census s.thr PC.isIn n ∧ s.current.toInt = n := by
  obtain ⟨n, hn, hi⟩ := (inv_reach h hlen hr).census
  exact ⟨n, hn, (C18_current_count h hlen).trans hi⟩

/-- **C18 (Highwater is never too high).** Without `Reset`, `Highwater()` never exceeds the largest
number of instances there has been. -/
theorem C18_highwater_le {tr s} (h : Exec Step init tr s) (hlen : tr.length < 2 ^ 63)
    (hr : NoReset tr) (m : Int) (hm : IsPeak tr m) : s.highwater.toInt ≤ m := by
  obtain ⟨m', ⟨⟨a, b, h1, h2⟩, -⟩, hle, -⟩ := (inv_reach h hlen hr).peak
  have := hm.2 a b h1
  omega

/-- **C18 (Highwater is high enough for every start that has returned).** The number a returned
`start` saw is the number of instances right after its own atomic add, and `Highwater()` is at
least that from then on. -/
theorem C18_started_le_highwater {tr s} (h : Exec Step init tr s) (hlen : tr.length < 2 ^ 63)
    (hr : NoReset tr) (t : Nat) (cur : Int64) (hs : .started t cur ∈ tr) :
    cur.toInt ≤ s.highwater.toInt ∧
    ∃ a b, tr = a ++ .add t :: b ∧ cur.toInt = instances (a ++ [.add t]) :=
  (inv_reach h hlen hr).started t cur hs

/-- **C18 (exact when quiet).** Whenever no `start` is between its add and its return, `Highwater()`
is exactly the largest number of instances there has ever been. -/
theorem C18_highwater_exact {tr s} (h : Exec Step init tr s) (hlen : tr.length < 2 ^ 63)
    (hr : NoReset tr) (quiet : ∀ t, s.thr t = .out ∨ s.thr t = .add ∨ s.thr t = .running ∨ s.thr t = .sub) :
    IsPeak tr s.highwater.toInt := by
  obtain ⟨m, hm, -, hx⟩ := (inv_reach h hlen hr).peak
  rcases hx with hx | ⟨t, cur, -, hx⟩
  · rw [hx]; exact hm
  · exfalso
    rcases quiet t with q | q | q | q <;> rw [q] at hx <;> simp at hx

/-- **C18 (Highwater never decreases).** Without `Reset`. -/
theorem C18_highwater_monotone {tr s} (h : Exec Step init tr s) (hr : NoReset tr)
    (hlen : tr.length < 2 ^ 63) {e s'} (st : Step s e s') : s.highwater.toInt ≤ s'.highwater.toInt := by
  have i := inv_reach h hlen hr
  cases st with
  | swap t cur hw h gt same =>
    show s.highwater.toInt ≤ cur.toInt
    rw [same]; exact Int.le_of_lt (Int.not_le.mp (fun hh => gt (Int64.le_iff_toInt_le.mpr hh)))
  | zeroHighwater t h => exact absurd h (i.noreset t).2
  | _ => exact Int.le_refl _

/-- **C18 (a `start` is never stuck).** Whatever the others have done, a `start` that is left to run
alone returns after at most three more steps of its own. -/
theorem C18_start_returns (s : State) (t : Nat) (cur : Int64)
    (h : s.thr t = .load cur ∨ ∃ hw, s.thr t = .cas cur hw) :
    ∃ s', Exec Step s [.started t cur] s' ∧ s'.thr t = .running ∧ ∀ t', t' ≠ t → s'.thr t' = s.thr t' := by
  have fromCas : ∀ (s s1 : State), Exec Step s [] s1 → s1.thr t = .cas cur s1.highwater →
      (∀ t', t' ≠ t → s1.thr t' = s.thr t') →
      ∃ s', Exec Step s [.started t cur] s' ∧ s'.thr t = .running ∧ ∀ t', t' ≠ t → s'.thr t' = s.thr t' := by
    intro s s1 he hc ho
    by_cases hle : cur ≤ s1.highwater
    · exact ⟨_, .step _ he (.enough s1 t cur _ hc hle), by simp, fun t' ht => by
        simp [upd_other _ _ ht, ho t' ht]⟩
    · exact ⟨_, .step _ he (.swap s1 t cur _ hc hle rfl), by simp, fun t' ht => by
        simp [upd_other _ _ ht, ho t' ht]⟩
  have fromLoad : ∀ (s s1 : State), Exec Step s [] s1 → s1.thr t = .load cur →
      (∀ t', t' ≠ t → s1.thr t' = s.thr t') →
      ∃ s', Exec Step s [.started t cur] s' ∧ s'.thr t = .running ∧ ∀ t', t' ≠ t → s'.thr t' = s.thr t' := by
    intro s s1 he hc ho
    exact fromCas s _ (.step none he (.load s1 t cur hc)) (by simp) (fun t' ht => by
        simp [upd_other _ _ ht, ho t' ht])
  rcases h with h | ⟨hw, h⟩
  · exact fromLoad s s .start h (fun _ _ => rfl)
  · by_cases hle : cur ≤ hw
    · exact ⟨_, .step _ .start (Step.enough s t cur _ h hle), by simp, fun t' ht => by
        simp [upd_other _ _ ht]⟩
    · by_cases hs : s.highwater = hw
      · exact ⟨_, .step _ .start (Step.swap s t cur _ h hle hs), by simp, fun t' ht => by
          simp [upd_other _ _ ht]⟩
      · exact fromLoad s _ (.step none .start (.retry s t cur hw h hle hs)) (by simp)
          (fun t' ht => by simp [upd_other _ _ ht])

/-- An execution meeting the hypotheses of C18: two starts race; the one that added second
records its 2 first; the other one, having loaded 0, retries and gives up. -/
example : ∃ tr s, Exec Step init tr s ∧ NoReset tr ∧ tr.length < 2 ^ 63 ∧ s.current = 2 ∧
    s.highwater = 2 ∧ s.thr 0 = .running ∧ s.thr 1 = .running ∧
    Event.started 0 1 ∈ tr ∧ Event.started 1 2 ∈ tr := by
  have e1 := Exec.step _ (.start (step := Step) (s₀ := init)) (.start _ 0 rfl)
  have e2 := Exec.step _ e1 (.start _ 1 rfl)
  have e3 := Exec.step _ e2 (.add _ 0 rfl)
  have e4 := Exec.step _ e3 (.add _ 1 rfl)
  have e5 := Exec.step _ e4 (.load _ 0 _ rfl)
  have e6 := Exec.step _ e5 (.load _ 1 _ rfl)
  have e7 := Exec.step _ e6 (.swap _ 1 _ _ rfl (by decide +kernel) rfl)
  have e8 := Exec.step _ e7 (.retry _ 0 _ _ rfl (by decide +kernel) (by decide +kernel))
  have e9 := Exec.step _ e8 (.load _ 0 _ rfl)
  have f1 := Exec.step _ e9 (.enough _ 0 _ _ rfl (by decide +kernel))
  refine ⟨_, _, f1, ?_, by decide, rfl, rfl, rfl, rfl, by decide, by decide⟩
  intro t; simp

/-! ## C19 -/

/-- No observation is in progress (from the call of `start` to the end of `end`). -/
def Quiet (s : State) : Prop := ∀ t, s.thr t = .out ∨ s.thr t = .reset1 ∨ s.thr t = .reset2

/-- Number of observations in progress, from the call of `start` to the end of `end`. -/
def opened (tr : List Event) : Int :=
  tr.foldl (fun n e => match e with
    | .start _ => n + 1
    | .sub _ => n - 1
    | _ => n) 0

/-- Every `Reset` in the trace zeroes the number at a moment when no observation is in progress. -/
def QuietResets (tr : List Event) : Prop := ∀ a b t, tr = a ++ .zero t :: b → opened a = 0

def PC.isOpen : PC → Bool
  | .add | .load _ | .cas _ _ | .running | .sub => true
  | _ => false

theorem opened_snoc (tr : List Event) (e : Event) :
    opened (tr ++ [e]) = match e with
      | .start _ => opened tr + 1
      | .sub _ => opened tr - 1
      | _ => opened tr := by
  cases e <;> simp [opened]

theorem census_move {thr : Nat → PC} {P : PC → Bool} {n : Nat} {o o' : Int} (hn : Census thr P n)
    (ho : o = n) (t : Nat) (v : PC) (hd : o' + (P (thr t)).toNat = o + (P v).toNat) :
    ∃ n' : Nat, Census (upd thr t v) P n' ∧ o' = n' := by
  obtain ⟨n', hn', ha⟩ := hn.upd t v
  exact ⟨n', hn', by omega⟩

theorem open_census {tr s} (h : Exec Step init tr s) :
    ∃ n : Nat, Census s.thr PC.isOpen n ∧ opened tr = n := by
  refine Exec.induct (fun tr s => ∃ n : Nat, Census s.thr PC.isOpen n ∧ opened tr = n)
    ⟨0, census_zero (by intro t; rfl), rfl⟩ ?_ h
  rintro tr s e s' ⟨n, hn, ho⟩ st
  cases st
  all_goals
    first
      | rw [Option.toList_some]
      | rw [Option.toList_none, List.append_nil]
    refine census_move hn ho _ _ ?_
    simp [opened_snoc, *, PC.isOpen]

theorem in_census {tr s} (h : Exec Step init tr s) (hq : QuietResets tr) :
    ∃ n : Nat, Census s.thr PC.isIn n ∧ instances tr = n := by
  have key := Exec.induct (step := Step) (s₀ := init)
    (fun tr s => Exec Step init tr s ∧ (QuietResets tr →
      ∃ n : Nat, Census s.thr PC.isIn n ∧ instances tr = n)) ?_ ?_ h
  · exact key.2 hq
  · exact ⟨.start, fun _ => ⟨0, census_zero (by intro t; rfl), rfl⟩⟩
  rintro tr s e s' ⟨hex, ih⟩ st
  refine ⟨.step e hex st, fun hq => ?_⟩
  obtain ⟨n, hn, ho⟩ := ih (by
    intro a b t hab
    exact hq a (b ++ e.toList) t (by rw [hab]; simp))
  cases st
  case zeroCurrent t h =>
    have hz : opened tr = 0 := hq tr [] t rfl
    obtain ⟨k, ⟨A, hA1, hA2, hA3⟩, hk⟩ := open_census hex
    have hA : A = [] := List.length_eq_zero_iff.mp (by omega)
    have hout : ∀ t, PC.isIn (s.thr t) = false := by
      intro t'
      have : ¬ PC.isOpen (s.thr t') = true := by rw [← hA2, hA]; simp
      cases hp : s.thr t' <;> rw [hp] at this <;> simp_all [PC.isOpen, PC.isIn]
    refine ⟨0, census_zero ?_, by rw [Option.toList_some, instances_snoc]; rfl⟩
    intro t'
    by_cases ht : t' = t
    · subst ht; simp [PC.isIn]
    · simp only [upd_other _ _ ht, hout]
  all_goals
    first
      | rw [Option.toList_some]
      | rw [Option.toList_none, List.append_nil]
    refine census_move hn ho _ _ ?_
    simp [instances_snoc, *, PC.isIn]

/-- **C19, partial.** Missing: `Reset` while an observation is in progress, for which the claim is
false (below).  If every `Reset` happens while no observation is in progress, `Current()` is never
negative. -/
theorem C19_nonneg_partial {tr s} (h : Exec Step init tr s) (hlen : tr.length < 2 ^ 63)
    (hr : QuietResets tr) : 0 ≤ s.current.toInt := by
  obtain ⟨n, -, hi⟩ := in_census h hr
  rw [C18_current_count h hlen]
  omega

/-- The hypotheses are met by a trace with a `Reset` between two observations. -/
example : ∃ tr s, Exec Step init tr s ∧ QuietResets tr ∧ Event.zero 0 ∈ tr ∧ s.current = 1 := by
  have e1 := Exec.step _ (.start (step := Step) (s₀ := init)) (.start _ 0 rfl)
  have e2 := Exec.step _ e1 (.add _ 0 rfl)
  have e3 := Exec.step _ e2 (.load _ 0 _ rfl)
  have e4 := Exec.step _ e3 (.swap _ 0 _ _ rfl (by decide +kernel) rfl)
  have e5 := Exec.step _ e4 (.finish _ 0 rfl)
  have e6 := Exec.step _ e5 (.sub _ 0 rfl)
  have e7 := Exec.step _ e6 (.reset _ 0 rfl)
  have e8 := Exec.step _ e7 (.zeroCurrent _ 0 rfl)
  have e9 := Exec.step _ e8 (.zeroHighwater _ 0 rfl)
  have f1 := Exec.step _ e9 (.start _ 1 rfl)
  have f2 := Exec.step _ f1 (.add _ 1 rfl)
  refine ⟨_, _, f2, ?_, by decide, rfl⟩
  intro a b t hab
  have hl := congrArg List.length hab
  match a, hab with
  | [], h => simp at h
  | [_], h => simp at h
  | [_, _], h => simp at h
  | [_, _, _], h => simp at h
  | [_, _, _, _], h => simp at h
  | [_, _, _, _, _], h => simp at h
  | [_, _, _, _, _, _], h =>
    simp at h
    obtain ⟨rfl, rfl, rfl, rfl, rfl, rfl, -⟩ := h
    rfl
  | [_, _, _, _, _, _, _], h => simp at h
  | [_, _, _, _, _, _, _, _], h => simp at h
  | _ :: _ :: _ :: _ :: _ :: _ :: _ :: _ :: _ :: _, h => simp at hl

/-- **C19 is false of the code**: `Reset` while one observation is in progress, then the end of
that observation: nothing is in progress and `Current()` is -1. -/
theorem C19_nonneg_violated :
    ∃ tr s, Exec Step init tr s ∧ Quiet s ∧ s.current.toInt = -1 := by
  have e1 := Exec.step _ (.start (step := Step) (s₀ := init)) (.start _ 0 rfl)
  have e2 := Exec.step _ e1 (.add _ 0 rfl)
  have e3 := Exec.step _ e2 (.load _ 0 _ rfl)
  have e4 := Exec.step _ e3 (.swap _ 0 _ _ rfl (by decide +kernel) rfl)
  have e5 := Exec.step _ e4 (.reset _ 1 rfl)
  have e6 := Exec.step _ e5 (.zeroCurrent _ 1 rfl)
  have e7 := Exec.step _ e6 (.zeroHighwater _ 1 rfl)
  have e8 := Exec.step _ e7 (.finish _ 0 rfl)
  have e9 := Exec.step _ e8 (.sub _ 0 rfl)
  refine ⟨_, _, e9, ?_, by decide +kernel⟩
  intro t
  by_cases h0 : t = 0 <;> by_cases h1 : t = 1 <;> simp [upd, init, h0, h1]

end Monkit.Highwater
