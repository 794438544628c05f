import Verif.Proofs.Listing
import Verif.Proofs.SpansRun
import Verif.Props.Spans

/-!
# C97: listing the spans while they come and go

`Roots W w r s₀ s l` and `All W w r s₀ s l`: a call of `RootSpans` or `AllSpans` on registry `r`, made in state `s₀`, is through in state `s` and hands out `l`;
the spans take any steps meanwhile.
-/

namespace Monkit.Spans
open Go

/-- C97, `RootSpans`: whatever happens during the call, no span is listed twice; the list is ordered by name and id; every span in it belongs to the registry, was
started before the call was through and had not finished when it began, and has no local parent or one that is finishing or has finished; and every span of the
registry that runs during the whole call and has no local parent, or one that had finished before, is in it. -/
theorem C97_root_spans {W : World} {s₀ s : State} {w : SpanSort} {r : Nat} {l : List Nat} (h0 : Reach W init s₀) (h : Roots W w r s₀ s l) :
    l.Nodup ∧ l.Pairwise (Spec.before w) ∧
    (∀ n ∈ l, W.reg n = r ∧ s₀.pc n ≠ .over ∧ s.pc n ≠ .new ∧ ∀ p, W.parent n = some p → Exiting s p) ∧
    (∀ n, W.reg n = r → Throughout s₀ s n → (∀ p, W.parent n = some p → s₀.pc p = .over) → n ∈ l) := by
  obtain ⟨h1, h2, h3⟩ := (call_roots h0 h).2 l rfl
  refine ⟨h1, h2, fun n hn => ?_, fun n hr hn ht => ?_⟩
  · have := (call_sound h0 h).1 n (by simpa [Listing.all] using hn)
    refine ⟨(h3 n hn).1, this.1, fun e => ?_, (h3 n hn).2⟩
    rw [e] at this; cases this.2
  · have ha : Anchored W r s₀ s n := by
      cases hp : W.parent n with
      | none => exact .root hr hp hn
      | some p => exact .orphan hr hp (ht p hp) hn
    rcases call_account h0 h n ha with ⟨c, _⟩ | ⟨_, p, hp, hpa, _⟩
    · refine List.count_pos_iff.1 ?_
      rw [List.count_nil] at c; omega
    · have := hpa.run.1; rw [ht p hp] at this; cases this

/-- C97, `AllSpans`: whatever happens during the call, every span visited was started before the call was through and had not finished when it began. -/
theorem C97_all_spans_alive {W : World} {s₀ s : State} {w : SpanSort} {r : Nat} {l : List Nat} (h0 : Reach W init s₀) (h : All W w r s₀ s l) :
    ∀ n ∈ l, s₀.pc n ≠ .over ∧ s.pc n ≠ .new := by
  intro n hn
  have := (call_sound h0 h).1 n (by simpa [Listing.all] using hn)
  refine ⟨this.1, fun e => ?_⟩
  rw [e] at this; cases this.2

/-- C97, for spans whose ancestors, up to one whose parent had finished before the call, run during the whole call as well: `AllSpans` visits them exactly once,
whatever happens to other spans. -/
theorem C97_all_spans_partial {W : World} {s₀ s : State} {w : SpanSort} {r : Nat} {l : List Nat} (h0 : Reach W init s₀) (h : All W w r s₀ s l)
    (n : Nat) (hn : Anchored W r s₀ s n) : l.count n = 1 :=
  account_done (call_account h0 h) hn

theorem Call.reach {W : World} {w : SpanSort} {r : Nat} {s₀ s s' : State} {k : Listing} (h : Call W w r s₀ s k) (e : Reach W s s') : Call W w r s₀ s' k := by
  induction e with
  | start => exact h
  | step _ st ih => exact .span ih st

/-- Names and ids for the witnesses. -/
def byNumber : SpanSort := ⟨fun _ => b!"f", fun n => Int64.ofNat n⟩

/-- C97 is false of the code: `AllSpans` can miss a span that runs during the whole call.  Spans 0, 1 (child of 0) and 2 (child of 1) run.  `AllSpans` reads
the roots (0) and the orphans (none).  Then 1 finishes, and 2 becomes an orphan.  `AllSpans` now finds no child of 0, and returns having visited 0 only. -/
theorem C97_missed_violated : ∃ s₀ s, Reach chain init s₀ ∧ All chain byNumber 0 s₀ s [0] ∧ Throughout s₀ s 2 := by
  have h : ((runs chain init [0, 0, 0, 1, 1, 1, 2, 2, 2]).bind fun s => (runs chain s [1, 1, 1, 1, 1, 1, 1]).map fun s' =>
      ((s.pc 2, s.roots 0, s.orphans 0), s'.pc 2, s'.locked 0, (s'.bag 0).first, (s'.bag 0).rest)) =
      some ((.running, [0], []), .running, false, none, []) := by rfl
  simp only [Option.bind_eq_some_iff, Option.map_eq_some_iff, Prod.mk.injEq] at h
  obtain ⟨s, h1, s', h2, ⟨g1, g2, g3⟩, g4, g5, g6, g7⟩ := h
  refine ⟨s, s', runs_reach h1, ?_, g1, g4⟩
  have c : Call chain byNumber 0 s s .called := .call
  have c := c.roots [0] (by rw [g2])
  have c := c.orphans [] (by rw [g3])
  have c := (c.reach (runs_reach h2)).visit (n := 0) (todo := [])
  have c := c.children g5 [] (by rw [g7])
  have e : Monkit.children byNumber (s'.bag 0) [] = [] := by simp [Monkit.children, SpanBag.iterate, g6, dedup, sortBy]
  rw [e] at c
  exact c

/-- C97 is false of the code in another way: `AllSpans` can visit a span twice.  Spans 0 and 1 (child of 0) run.  `AllSpans` reads the roots (0).  Then 0
begins to finish and makes 1 an orphan.  `AllSpans` reads the orphans (1), and visits 1 as a child of 0 and again as an orphan. -/
theorem C97_twice_violated : ∃ s₀ s, Reach chain init s₀ ∧ All chain byNumber 0 s₀ s [0, 1, 1] ∧ Throughout s₀ s 1 := by
  have h : ((runs chain init [0, 0, 0, 1, 1, 1]).bind fun s => (runs chain s [0, 0, 0, 0]).map fun s' =>
      ((s.pc 1, s.roots 0), (s'.pc 1, s'.orphans 0), (s'.locked 0, (s'.bag 0).first, (s'.bag 0).rest), (s'.locked 1, (s'.bag 1).first, (s'.bag 1).rest))) =
      some ((.running, [0]), (.running, [1]), (false, some 1, []), (false, none, [])) := by rfl
  simp only [Option.bind_eq_some_iff, Option.map_eq_some_iff, Prod.mk.injEq] at h
  obtain ⟨s, h1, s', h2, ⟨g1, g2⟩, ⟨g3, g4⟩, ⟨g5, g6, g7⟩, g8, g9, g10⟩ := h
  refine ⟨s, s', runs_reach h1, ?_, g1, g3⟩
  have e0 : Monkit.children byNumber (s'.bag 0) [] = [1] := by
    have : s'.bag 0 = ⟨some 1, []⟩ := by rw [← g6, ← g7]
    rw [this]; rfl
  have e1 : Monkit.children byNumber (s'.bag 1) [] = [] := by
    have : s'.bag 1 = ⟨none, []⟩ := by rw [← g9, ← g10]
    rw [this]; rfl
  have c : Call chain byNumber 0 s s .called := .call
  have c := c.roots [0] (by rw [g2])
  have c := (c.reach (runs_reach h2)).orphans [1] (by rw [g4])
  have e : rootSpans byNumber [0] [1] = [0, 1] := by decide +kernel
  rw [e] at c
  have c := c.visit.children g5 [] (by rw [g7])
  rw [e0] at c
  have c := c.visit.children g8 [] (by rw [g10])
  rw [e1] at c
  have c := c.visit.children g8 [] (by rw [g10])
  rw [e1] at c
  exact c

/-- The hypotheses of the partial theorem are met while another span finishes during the call: 0 and 3 run throughout, 1 finishes. -/
example : ∃ s₀ s l, Reach chain init s₀ ∧ All chain byNumber 0 s₀ s l ∧ Anchored chain 0 s₀ s 3 ∧ Anchored chain 0 s₀ s 0 ∧ s₀.pc 1 = .running ∧ s.pc 1 = .over := by
  have h : ((runs chain init [0, 0, 0, 3, 3, 3, 1, 1, 1]).bind fun s => (runs chain s [1, 1, 1, 1, 1]).map fun s' =>
      ((s.pc 0, s.pc 3, s.pc 1, s.roots 0, s.orphans 0), (s'.pc 0, s'.pc 3, s'.pc 1), (s'.locked 0, (s'.bag 0).first, (s'.bag 0).rest),
        (s'.locked 3, (s'.bag 3).first, (s'.bag 3).rest))) =
      some ((.running, .running, .running, [3, 0], []), (.running, .running, .over), (false, none, []), (false, none, [])) := by rfl
  simp only [Option.bind_eq_some_iff, Option.map_eq_some_iff, Prod.mk.injEq] at h
  obtain ⟨s, h1, s', h2, ⟨g1, g2, g3, g4, g5⟩, ⟨g6, g7, g8⟩, ⟨k1, k2, k3⟩, k4, k5, k6⟩ := h
  have c : Call chain byNumber 0 s s .called := .call
  have c := c.roots [3, 0] (by rw [g4])
  have c := (c.orphans [] (by rw [g5])).reach (runs_reach h2)
  have e : rootSpans byNumber [3, 0] [] = [0, 3] := by decide +kernel
  rw [e] at c
  have e0 : Monkit.children byNumber (s'.bag 0) [] = [] := by
    have : s'.bag 0 = ⟨none, []⟩ := by rw [← k2, ← k3]
    rw [this]; rfl
  have e3 : Monkit.children byNumber (s'.bag 3) [] = [] := by
    have : s'.bag 3 = ⟨none, []⟩ := by rw [← k5, ← k6]
    rw [this]; rfl
  have c := c.visit.children k1 [] (by rw [k3])
  rw [e0] at c
  have c := c.visit.children k4 [] (by rw [k6])
  rw [e3] at c
  exact ⟨s, s', _, runs_reach h1, c, .root rfl rfl ⟨g2, g7⟩, .root rfl rfl ⟨g1, g6⟩, g3, g8⟩

end Monkit.Spans
