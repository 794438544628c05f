import Verif.Spec.FuncConc
import Verif.Props.FuncStats

namespace Monkit.FuncConc
open Go Monkit.Spec
open Monkit.FuncStats (Op run run_append)

variable {G E : Type} {K : DistKind Int64 ℚ} {next : G → UInt64 × G} {name : E → Str} {kind : Nat → Kind E}

/-- What the mutex protects is the same. -/
def Same (f g : FuncStats G) : Prop := ({ f with current := 0, highwater := 0 } : FuncStats G) = { g with current := 0, highwater := 0 }

theorem Same.with {f g : FuncStats G} (h : Same f g) (c hw : Int64) : ({ f with current := c, highwater := hw } : FuncStats G) = { g with current := c, highwater := hw } := by
  obtain ⟨c1, h1, a, b, c2, d, e⟩ := f
  obtain ⟨c2, h2, a', b', c3, d', e'⟩ := g
  simp only [Same, FuncStats.mk.injEq, true_and] at h ⊢
  exact h

theorem Same.cur {f g : FuncStats G} (h : Same f g) (c : Int64) : Same { f with current := c } g := h

theorem Same.hw {f g : FuncStats G} (h : Same f g) (c : Int64) : Same { f with highwater := c } g := h

theorem Same.errors {f g : FuncStats G} (h : Same f g) : f.errors = g.errors := by
  unfold Same at h; injection h

theorem record_same {f g f' : FuncStats G} (h : Same f g) {e p d w} (hf : record K next name f e p d w = some f') :
    f'.current = f.current ∧ f'.highwater = f.highwater ∧ ∃ g', FuncStats.step K next name g (.finish e p d w) = some g' ∧ Same f' g' := by
  obtain ⟨c1, h1, a, b, c2, d1, k1⟩ := f
  obtain ⟨c2, h2, a', b', c3, d', k'⟩ := g
  simp only [Same, FuncStats.mk.injEq, true_and] at h
  obtain ⟨rfl, rfl, rfl, rfl, rfl⟩ := h
  unfold record at hf
  unfold FuncStats.step FuncStats.finish
  cases p with
  | true =>
    simp only [if_true, Option.map_eq_some_iff] at hf ⊢
    obtain ⟨x, hx, rfl⟩ := hf
    exact ⟨rfl, rfl, _, ⟨x, hx, rfl⟩, rfl⟩
  | false =>
    cases e with
    | none =>
      simp only [Bool.false_eq_true, if_false, Option.map_eq_some_iff] at hf ⊢
      obtain ⟨x, hx, rfl⟩ := hf
      exact ⟨rfl, rfl, _, ⟨x, hx, rfl⟩, rfl⟩
    | some e =>
      simp only [Bool.false_eq_true, if_false, Option.map_eq_some_iff] at hf ⊢
      obtain ⟨x, hx, rfl⟩ := hf
      exact ⟨rfl, rfl, _, ⟨x, hx, rfl⟩, rfl⟩

theorem record_some {f g g' : FuncStats G} (h : Same f g) {e p d w} (hg : FuncStats.step K next name g (.finish e p d w) = some g') :
    ∃ f', record K next name f e p d w = some f' := by
  obtain ⟨c1, h1, a, b, c2, d1, k1⟩ := f
  obtain ⟨c2, h2, a', b', c3, d', k'⟩ := g
  simp only [Same, FuncStats.mk.injEq, true_and] at h
  obtain ⟨rfl, rfl, rfl, rfl, rfl⟩ := h
  unfold record
  unfold FuncStats.step FuncStats.finish at hg
  cases p with
  | true =>
    simp only [if_true, Option.map_eq_some_iff] at hg ⊢
    obtain ⟨x, hx, rfl⟩ := hg
    exact ⟨_, x, hx, rfl⟩
  | false =>
    cases e with
    | none =>
      simp only [Bool.false_eq_true, if_false, Option.map_eq_some_iff] at hg ⊢
      obtain ⟨x, hx, rfl⟩ := hg
      exact ⟨_, x, hx, rfl⟩
    | some e =>
      simp only [Bool.false_eq_true, if_false, Option.map_eq_some_iff] at hg ⊢
      obtain ⟨x, hx, rfl⟩ := hg
      exact ⟨_, x, hx, rfl⟩

theorem clear_same {f g : FuncStats G} (h : Same f g) : Same (clear K f) (FuncStats.reset K g) := by
  obtain ⟨c1, h1, a, b, c2, d1, k1⟩ := f
  obtain ⟨c2, h2, a', b', c3, d', k'⟩ := g
  simp only [Same, FuncStats.mk.injEq, true_and] at h
  obtain ⟨rfl, rfl, rfl, rfl, rfl⟩ := h
  rfl

def PC.inLock : PC → Bool
  | .inside _ _ | .unlock _ => true
  | _ => false

def PC.done : PC → Bool
  | .unlock _ | .over _ => true
  | _ => false

def PC.ofCall : PC → Bool
  | .add | .load _ | .cas _ _ | .running | .sub => true
  | _ => false

def PC.ofReset : PC → Bool
  | .zeroCur | .zeroHw => true
  | _ => false

def PC.ofReport : PC → Bool
  | .readCur | .readHw _ => true
  | _ => false

theorem upd_apply {α : Type} (f : Nat → α) (t : Nat) (v : α) (t' : Nat) : upd f t v t' = if t' = t then v else f t' := rfl

/-- The mutex and the log. -/
structure InvL (kind : Nat → Kind E) (s : State G) : Prop where
  lockI : ∀ n, (s.pc n).inLock = true → s.lock = some n
  lockL : ∀ n, s.lock = some n → (s.pc n).inLock = true
  logN : s.log.Nodup
  logM : ∀ n, n ∈ s.log ↔ kind n ≠ .report ∧ (s.pc n).done = true
  kCall : ∀ n, (s.pc n).ofCall = true → ∃ e p d w, kind n = .call e p d w
  kReset : ∀ n, (s.pc n).ofReset = true → kind n = .reset
  kReport : ∀ n, (s.pc n).ofReport = true → kind n = .report

theorem nodup_snoc {l : List Nat} {n : Nat} (h : l.Nodup) (hn : n ∉ l) : (l ++ [n]).Nodup := by
  rw [List.nodup_append]
  exact ⟨h, by simp, by rintro a ha b hb rfl; simp at hb; exact hn (hb ▸ ha)⟩

theorem invL_step {s s' : State G} (i : InvL kind s) (st : Step K next name kind s s') : InvL kind s' := by
  obtain ⟨i1, i2, i3, i4, i5, i6, i7⟩ := i
  cases st
  all_goals constructor
  all_goals simp only [upd_apply, List.mem_append, List.mem_singleton]
  all_goals grind [PC.inLock, PC.done, PC.ofCall, PC.ofReset, PC.ofReport, nodup_snoc]

theorem invL_init (key : Key) (g1 g2 : G) : InvL kind (init K key g1 g2) := by
  constructor <;> simp [init, PC.inLock, PC.done, PC.ofCall, PC.ofReset, PC.ofReport]

theorem history_snoc (kind : Nat → Kind E) (log : List Nat) (n : Nat) : history kind (log ++ [n]) = history kind log ++ (kind n).op := by simp [history]

/-- What the mutex protects is what the sequential calls of the log give. -/
def InvF (K : DistKind Int64 ℚ) (next : G → UInt64 × G) (name : E → Str) (key : Key) (g1 g2 : G) (kind : Nat → Kind E) (s : State G) : Prop :=
  ∃ g, (FuncStats.new K key g1 g2).run K next name (history kind s.log) = some g ∧ Same s.f g

theorem invF_step {key : Key} {g1 g2 : G} {s s' : State G} (i : InvF K next name key g1 g2 kind s) (st : Step K next name kind s s') :
    InvF K next name key g1 g2 kind s' := by
  obtain ⟨g, hg, hs⟩ := i
  cases st with
  | record n c h e p d w f' hk hn hf =>
    obtain ⟨_, _, g', h1, h2⟩ := record_same hs hf
    refine ⟨g', ?_, h2⟩
    rw [history_snoc, run_append, hg, hk]
    simp [Kind.op, run, h1]
  | clear n c h hk hn =>
    refine ⟨FuncStats.reset K g, ?_, clear_same hs⟩
    rw [history_snoc, run_append, hg, hk]
    rfl
  | add => exact ⟨g, hg, hs.cur _⟩
  | sub => exact ⟨g, hg, hs.cur _⟩
  | zeroCur => exact ⟨g, hg, hs.cur _⟩
  | swap => exact ⟨g, hg, hs.hw _⟩
  | zeroHw => exact ⟨g, hg, hs.hw _⟩
  | _ => exact ⟨g, hg, hs⟩

theorem reach_inv {key : Key} {g1 g2 : G} {s : State G} (h : Reach K next name kind (init K key g1 g2) s) :
    InvL kind s ∧ InvF K next name key g1 g2 kind s := by
  induction h with
  | start => exact ⟨invL_init key g1 g2, _, rfl, rfl⟩
  | step _ st ih => exact ⟨invL_step ih.1 st, invF_step ih.2 st⟩

theorem Reach.trans {s s' s'' : State G} (h : Reach K next name kind s s') (h' : Reach K next name kind s' s'') : Reach K next name kind s s'' := by
  induction h' with
  | start => exact h
  | step _ st ih => exact .step ih st

theorem log_step {s s' : State G} (st : Step K next name kind s s') : s.log <+: s'.log := by
  cases st <;> first | exact List.prefix_rfl | exact List.prefix_append _ _

theorem log_reach {s s' : State G} (h : Reach K next name kind s s') : s.log <+: s'.log := by
  induction h with
  | start => exact List.prefix_rfl
  | step _ st ih => exact ih.trans (log_step st)

def PC.rank : PC → Nat
  | .new => 0 | .add => 1 | .load _ => 2 | .cas _ _ => 2 | .running => 3 | .sub => 4 | .zeroCur => 5 | .zeroHw => 6 | .readCur => 7 | .readHw _ => 8
  | .wait _ _ => 9 | .inside _ _ => 10 | .unlock _ => 11 | .over _ => 12

theorem rank_step {s s' : State G} (st : Step K next name kind s s') (n : Nat) : (s.pc n).rank ≤ (s'.pc n).rank := by
  cases st <;> simp only [upd_apply] <;> grind [PC.rank]

theorem rank_reach {s s' : State G} (h : Reach K next name kind s s') (n : Nat) : (s.pc n).rank ≤ (s'.pc n).rank := by
  induction h with
  | start => exact Nat.le_refl _
  | step _ st ih => exact Nat.le_trans ih (rank_step st n)

/-- A report is that of the calls that had the mutex before it. -/
theorem report_log {key : Key} {g1 g2 : G} {s1 s2 : State G} (h1 : Reach K next name kind (init K key g1 g2) s1) (m : Nat) (hm : kind m = .report)
    (hnew : s1.pc m = .new) (h2 : Reach K next name kind s1 s2) :
    ∀ rep, (s2.pc m = .unlock rep ∨ s2.pc m = .over rep) → ∃ log g c h ord g1' g2', s1.log <+: log ∧ log <+: s2.log ∧
      (FuncStats.new K key g1 g2).run K next name (history kind log) = some g ∧ ord.Perm g.errors ∧
      FuncStats.stats K { g with current := c, highwater := h } ord g1' g2' = some rep := by
  induction h2 with
  | start => intro rep h; rw [hnew] at h; simp at h
  | @step s s' h st ih =>
    intro rep hrep
    by_cases old : s.pc m = .unlock rep ∨ s.pc m = .over rep
    · obtain ⟨log, g, c, hh, ord, x, y, a, b, rest⟩ := ih rep old
      exact ⟨log, g, c, hh, ord, x, y, a, b.trans (log_step st), rest⟩
    · obtain ⟨_, g, hg, hs⟩ := reach_inv (h1.trans h)
      cases st with
      | copy n c hh ord x y rep' hk hn ho hr =>
        simp only [upd_apply] at hrep
        by_cases e : m = n
        · subst e
          simp only [if_true, PC.unlock.injEq, reduceCtorEq, or_false] at hrep
          subst hrep
          refine ⟨s.log, g, c, hh, ord, x, y, log_reach h, List.prefix_rfl, hg, hs.errors ▸ ho, ?_⟩
          rw [← hs.with]; exact hr
        · rw [if_neg e] at hrep; exact absurd hrep old
      | unlock n rep' hn =>
        simp only [upd_apply] at hrep
        by_cases e : m = n
        · subst e
          simp only [if_true, PC.over.injEq, reduceCtorEq, false_or] at hrep
          subst hrep
          exact absurd (.inl hn) old
        · rw [if_neg e] at hrep; exact absurd hrep old
      | record n c hh e p d w f' hk hn hf =>
        simp only [upd_apply] at hrep
        by_cases e : m = n
        · subst e; rw [hm] at hk; cases hk
        · rw [if_neg e] at hrep; exact absurd hrep old
      | clear n c hh hk hn =>
        simp only [upd_apply] at hrep
        by_cases e : m = n
        · subst e; rw [hm] at hk; cases hk
        · rw [if_neg e] at hrep; exact absurd hrep old
      | _ n =>
        simp only [upd_apply] at hrep
        by_cases e : m = n
        · subst e; simp at hrep
        · rw [if_neg e] at hrep; exact absurd hrep old

end Monkit.FuncConc
