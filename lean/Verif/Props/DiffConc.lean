import Verif.Proofs.DiffConc
import Mathlib.Tactic.IntervalCases

/-! # C103: reports of a DiffMeter whose meters are in use -/

namespace Monkit.DiffConc
open Go Spec Monkit.Spec

/-- **C103.** Every report of a DiffMeter is, for some order of the changes of each meter that agrees with real time, the difference of what the
first meter counted at one moment and what the second counted at the same or a later one, at a time read before both, all
between the call and the return.  The total is exact modulo 2^64, and no call panics. -/
theorem C103_two_moments_partial (key : Nat → Key) (born : Nat → Int) (tr : List Event) (s : State)
    (h : Exec Step (init key born) tr s) :
    ∃ H, Order H tr ∧
      (∀ t i o res, .ret t (.change i o) res ∈ tr → res = some []) ∧
      ∀ p t k a b res q, tr = p ++ .ret t (.stats k a b) res :: q →
        ∃ p0 m c0 c1 c2 n1 n2 d,
          p = p0 ++ .call t (.stats k a b) :: m ∧ (∀ e ∈ m, NotBy t e) ∧
          p0 ++ [.call t (.stats k a b)] <+: c0 ∧ c0 <+: c1 ∧ c1 <+: c2 ∧ c2 <+: p ∧
          Between ((H a).take n1) a c1 ∧ Between ((H b).take n2) b c2 ∧
          d.toInt = wrap64 (total (born a) ((H a).take n1) - total (born b) ((H b).take n2)) ∧
          res = report k born a b ((H a).take n1) ((H b).take n2) (timeAfter c0) d := by
  refine ⟨s.hist, ?_, ?_, ?_⟩
  · intro i p q hq
    cases q with
    | nil =>
      rw [List.append_nil] at hq; subst hq
      exact ⟨(s.hist i).length, by rw [List.take_length]; exact (inv h).between i⟩
    | cons e q =>
      obtain ⟨s1, s2, h1, h2, h3⟩ := h.split p e q hq
      refine ⟨(s1.hist i).length, ?_⟩
      rw [take_of_prefix ((hist_step h2 i).trans (hist_exec h3 i))]
      exact (inv h1).between i
  · intro t i o res hm
    obtain ⟨p, q, hq⟩ := List.append_of_mem hm
    obtain ⟨s1, s2, h1, h2, h3⟩ := h.split p _ q hq
    cases h2 with
    | ret _ _ _ hp => exact (inv h1).ok t i o res hp
  · intro p t k a b res q hq
    obtain ⟨s1, s2, h1, h2, h3⟩ := h.split p _ q hq
    have hx := fun i => (hist_step h2 i).trans (hist_exec h3 i)
    cases h2 with
    | ret _ _ _ hp =>
      have hg := prog h1 t
      rw [hp] at hg
      obtain ⟨c0, c1, c2, ha, hb, d, g1, g2, g3, g4, g5, g6, g7, g8, g9, g10⟩ := hg
      obtain ⟨⟨p0, m, e1, e2, e3⟩, e4⟩ := g1
      have ea := take_of_prefix (g5.trans (hx a))
      have eb := take_of_prefix (g6.trans (hx b))
      refine ⟨p0, m, c0, c1, c2, ha.length, hb.length, d, e1, e2, e3, g2, g3, g4, ?_⟩
      rw [ea, eb]
      exact ⟨g7, g8, g9, g10⟩

/-- **C103.** If during a report nobody changes the first meter, or nobody changes the second, the report is the difference at one moment. -/
theorem C103_one_moment_partial (key : Nat → Key) (born : Nat → Int) (tr : List Event) (s : State)
    (h : Exec Step (init key born) tr s) :
    ∃ H, Order H tr ∧ ∀ p0 t k a b m res q, tr = p0 ++ .call t (.stats k a b) :: (m ++ .ret t (.stats k a b) res :: q) →
      (∀ e ∈ m, NotBy t e) →
      ((∀ u, called u a (p0 ++ .call t (.stats k a b) :: m) = returned u a p0) ∨
       (∀ u, called u b (p0 ++ .call t (.stats k a b) :: m) = returned u b p0)) →
      ∃ c0 c n1 n2 d, p0 ++ [.call t (.stats k a b)] <+: c0 ∧ c0 <+: c ∧ c <+: p0 ++ .call t (.stats k a b) :: m ∧
        Between ((H a).take n1) a c ∧ Between ((H b).take n2) b c ∧
        d.toInt = wrap64 (total (born a) ((H a).take n1) - total (born b) ((H b).take n2)) ∧
        res = report k born a b ((H a).take n1) ((H b).take n2) (timeAfter c0) d := by
  obtain ⟨H, h1, _, h2⟩ := C103_two_moments_partial key born tr s h
  refine ⟨H, h1, ?_⟩
  intro p0 t k a b m res q htr hm hq
  obtain ⟨p0', m', c0, c1, c2, n1, n2, d, e1, e2, e3, e4, e5, e6, e7, e8, e9, e10⟩ :=
    h2 (p0 ++ .call t (.stats k a b) :: m) t k a b res q (by rw [htr]; simp)
  -- the call is the last event of `t`
  have hp0 : p0 = p0' := by
    have key : ∀ (x y : List Event) (u v : List Event), x ++ .call t (.stats k a b) :: u = y ++ .call t (.stats k a b) :: v →
        (∀ e ∈ u, NotBy t e) → (∀ e ∈ v, NotBy t e) → x = y := by
      intro x
      induction x with
      | nil =>
        intro y u v hh hu hv
        cases y with
        | nil => rfl
        | cons z y =>
          simp only [List.nil_append, List.cons_append, List.cons.injEq] at hh
          have := hu (.call t (.stats k a b)) (by rw [hh.2]; simp)
          exact absurd rfl this
      | cons w x ih =>
        intro y u v hh hu hv
        cases y with
        | nil =>
          simp only [List.nil_append, List.cons_append, List.cons.injEq] at hh
          have := hv (.call t (.stats k a b)) (by rw [← hh.2]; simp)
          exact absurd rfl this
        | cons z y =>
          simp only [List.cons_append, List.cons.injEq] at hh
          rw [hh.1, ih y u v hh.2 hu hv]
    exact key _ _ _ _ e1 hm e2
  subst hp0
  have hpre : p0 <+: c1 := (List.prefix_append _ _).trans (e3.trans e4)
  have sq : ∀ (x : List (Nat × Meter.Op)) (i : Nat) (c c' : List Event),
      (∀ u, called u i (p0 ++ .call t (.stats k a b) :: m) = returned u i p0) →
      p0 <+: c → c <+: p0 ++ .call t (.stats k a b) :: m → p0 <+: c' → c' <+: p0 ++ .call t (.stats k a b) :: m →
      Between x i c → Between x i c' := by
    intro x i c c' hc g1 g2 h3 h4 hb u
    -- everything on meter `i` had returned before the report was called
    have hret := returned_mono (t := u) (i := i) g1
    have hcal := called_mono (t := u) (i := i) g2
    rw [hc] at hcal
    have ex : by_ u x = returned u i p0 := by
      obtain ⟨g1, g2⟩ := hb u
      exact (g2.trans hcal).eq_of_length_le (hret.trans g1).length_le
    have hrp : ∀ c, p0 <+: c → c <+: p0 ++ .call t (.stats k a b) :: m → returned u i c <+: called u i c →
        returned u i c = returned u i p0 := by
      intro c g1 g2 g3
      have := g3.trans (called_mono (t := u) (i := i) g2)
      rw [hc] at this
      exact this.eq_of_length_le (returned_mono g1).length_le
    have hrc : returned u i c' <+: called u i c' := by
      obtain ⟨q', hq'⟩ := h4
      obtain ⟨n, hn⟩ := h1 i c' (q' ++ .ret t (.stats k a b) res :: q) (by rw [← List.append_assoc, hq', htr]; simp)
      exact (hn u).1.trans (hn u).2
    have er := hrp c' h3 h4 hrc
    have ec : called u i c' = returned u i p0 := by
      have := called_mono (t := u) (i := i) h4
      rw [hc] at this
      exact this.eq_of_length_le (by rw [← er]; exact hrc.length_le)
    rw [ex, er, ec]
    exact ⟨List.prefix_rfl, List.prefix_rfl⟩
  rcases hq with hq | hq
  · exact ⟨c0, c2, n1, n2, d, e3, e4.trans e5, e6, sq _ a c1 c2 hq hpre (e5.trans e6) (hpre.trans e5) e6 e7, e8, e9, e10⟩
  · exact ⟨c0, c1, n1, n2, d, e3, e4, e5.trans e6, e7, sq _ b c2 c1 hq (hpre.trans e5) e6 hpre (e5.trans e6) e8, e9, e10⟩

/-- One goroutine counts what comes in (meter 0) and, after that, what goes out (meter 1), while another asks for the difference. -/
def trace (res : Res) : List Event := [
  .call 1 (.stats ⟨b!"d", []⟩ 0 1),
  .call 2 (.change 0 (.mark 1)), .ret 2 (.change 0 (.mark 1)) (some []),
  .call 2 (.change 1 (.mark 1)), .ret 2 (.change 1 (.mark 1)) (some []),
  .ret 1 (.stats ⟨b!"d", []⟩ 0 1) res]

/-- Two meters. -/
def two : Nat → Key := fun i => if i = 0 then ⟨b!"in", []⟩ else ⟨b!"out", []⟩

/-- What it is told. -/
def told : List (Key × Str × FVal) := [(⟨b!"d", []⟩, b!"rate", .flt (Float.rn 53 (0 - 0))), (⟨b!"d", []⟩, b!"total", .int (0 - 1))]

/-- The first meter is read before, the second after. -/
theorem run : ∃ s, Exec Step (init two fun _ => 0) (trace (some told)) s := by
  have e : Exec Step (init two fun _ => 0) [] _ := .start
  have e := e.step _ (.callStats _ 1 ⟨b!"d", []⟩ 0 1 rfl)
  have e := e.step _ (.clock _ 1 _ _ _ rfl)
  have e := e.step _ (.read1 _ 1 _ _ _ _ 0 0 rfl (by decide +kernel))
  have e := e.step _ (.callChange _ 2 0 (.mark 1) rfl)
  have e := e.step _ (.change _ 2 0 _ _ rfl rfl)
  have e := e.step _ (.ret _ 2 _ _ rfl)
  have e := e.step _ (.callChange _ 2 1 (.mark 1) rfl)
  have e := e.step _ (.change _ 2 1 _ _ rfl rfl)
  have e := e.step _ (.ret _ 2 _ _ rfl)
  have e := e.step _ (.read2 _ 1 _ _ _ _ _ _ 0 1 rfl (by decide +kernel))
  have e := e.step _ (.ret _ 1 _ _ rfl)
  exact ⟨_, e⟩

/-- **C103, against it.** The difference reported need not be one there ever was: what came in is counted before what goes out, so that at
every moment the first meter counts at least as much as the second, and yet the report says −1. -/
theorem C103_violated : ∃ tr s t k res,
    Exec Step (init two fun _ => 0) tr s ∧ .ret t (.stats k 0 1) (some res) ∈ tr ∧ (k, b!"total", .int (-1)) ∈ res ∧
    ∀ c h0 h1, c <+: tr → Between h0 0 c → Between h1 1 c → 0 ≤ total 0 h0 - total 0 h1 := by
  obtain ⟨s, h⟩ := run
  refine ⟨_, s, 1, ⟨b!"d", []⟩, told, h, by simp [trace], by simp [told], ?_⟩
  intro c h0 h1 hc b0 b1
  have only : ∀ (x : List (Nat × Meter.Op)), (∀ t, t ≠ 2 → by_ t x = []) → x.map (·.2) = by_ 2 x := by
    intro x hx
    have : x.filter (·.1 = 2) = x := by
      rw [List.filter_eq_self]
      intro y hy
      by_contra hne
      have := hx y.1 (by simpa using hne)
      simp only [by_, List.map_eq_nil_iff, List.filter_eq_nil_iff] at this
      exact this y hy (by simp)
    rw [by_, this]
  have cl : ∀ i t, t ≠ 2 → called t i c = [] := by
    intro i t ht
    have := called_mono (t := t) (i := i) hc
    have e : called t i (trace (some told)) = [] := by
      simp [called, trace, Ne.symm ht]
    rw [e] at this
    exact List.prefix_nil.1 this
  have o0 := only h0 fun t ht => List.prefix_nil.1 (by have := (b0 t).2; rwa [cl 0 t ht] at this)
  have o1 := only h1 fun t ht => List.prefix_nil.1 (by have := (b1 t).2; rwa [cl 1 t ht] at this)
  rw [total, total, o0, o1]
  obtain ⟨p0, q0⟩ := b0 2
  obtain ⟨p1, q1⟩ := b1 2
  generalize by_ 2 h0 = x at *
  generalize by_ 2 h1 = y at *
  have hl := hc.length_le
  rw [List.prefix_iff_eq_take.1 hc] at p0 q0 p1 q1
  generalize c.length = n at *
  have one : ∀ (o : Meter.Op) z, z <+: [o] → z = [] ∨ z = [o] := by
    intro o z hz
    cases z with
    | nil => exact .inl rfl
    | cons w z => rw [List.cons_prefix_cons] at hz; rw [hz.1, List.prefix_nil.1 hz.2]; exact .inr rfl
  have t0 : 0 ≤ (logOf 0 []).total - (logOf 0 []).total := by decide +kernel
  have t1 : 0 ≤ (logOf 0 [.mark 1]).total - (logOf 0 []).total := by decide +kernel
  have t2 : 0 ≤ (logOf 0 [.mark 1]).total - (logOf 0 [.mark 1]).total := by decide +kernel
  by_cases hn : n ≤ 2
  · -- nothing has gone out
    have : y = [] := by
      have : called 2 1 ((trace (some told)).take n) = [] := by interval_cases n <;> rfl
      rw [this] at q1; exact List.prefix_nil.1 q1
    subst this
    have : called 2 0 ((trace (some told)).take n) <+: [.mark 1] := by interval_cases n <;> decide
    rcases one _ _ (q0.trans this) with rfl | rfl
    · exact t0
    · exact t1
  · -- what came in is there
    have hr : returned 2 0 ((trace (some told)).take n) = [.mark 1] := by
      have : n ≤ 6 := hl
      interval_cases n <;> first | rfl | omega
    have hq : called 2 0 ((trace (some told)).take n) <+: [.mark 1] := by
      have : n ≤ 6 := hl
      interval_cases n <;> decide
    have hy : called 2 1 ((trace (some told)).take n) <+: [.mark 1] := by
      have : n ≤ 6 := hl
      interval_cases n <;> decide
    rw [hr] at p0
    have : x = [.mark 1] := by
      rcases one _ _ (q0.trans hq) with rfl | rfl
      · exact absurd p0 (by decide)
      · rfl
    subst this
    rcases one _ _ (q1.trans hy) with rfl | rfl
    · exact t1
    · exact t2

/-- The hypotheses of the theorems are met: above, and by a report during which only the second meter is marked. -/
example : ∃ tr s p0 m res, Exec Step (init two fun _ => 0) tr s ∧
    tr = p0 ++ .call 1 (.stats ⟨b!"d", []⟩ 0 1) :: (m ++ [.ret 1 (.stats ⟨b!"d", []⟩ 0 1) res]) ∧
    called 2 1 m = [.mark 1] ∧ called 2 0 p0 = [.mark 3] ∧
    ∀ u, called u 0 (p0 ++ .call 1 (.stats ⟨b!"d", []⟩ 0 1) :: m) = returned u 0 p0 := by
  have e : Exec Step (init two fun _ => 0) [] _ := .start
  have e := e.step _ (.callChange _ 2 0 (.mark 3) rfl)
  have e := e.step _ (.change _ 2 0 _ _ rfl rfl)
  have e := e.step _ (.ret _ 2 _ _ rfl)
  have e := e.step _ (.callStats _ 1 ⟨b!"d", []⟩ 0 1 rfl)
  have e := e.step _ (.clock _ 1 _ _ _ rfl)
  have e := e.step _ (.read1 _ 1 _ _ _ _ 0 3 rfl (by decide +kernel))
  have e := e.step _ (.callChange _ 2 1 (.mark 1) rfl)
  have e := e.step _ (.change _ 2 1 _ _ rfl rfl)
  have e := e.step _ (.ret _ 2 _ _ rfl)
  have e := e.step _ (.read2 _ 1 _ _ _ _ _ _ 0 1 rfl (by decide +kernel))
  have e := e.step _ (.ret _ 1 _ _ rfl)
  refine ⟨_, _, [.call 2 (.change 0 (.mark 3)), .ret 2 (.change 0 (.mark 3)) (some [])],
    [.call 2 (.change 1 (.mark 1)), .ret 2 (.change 1 (.mark 1)) (some [])], _, e, rfl, rfl, rfl, ?_⟩
  intro u
  by_cases hu : 2 = u <;> simp [called, returned, hu]

end Monkit.DiffConc
