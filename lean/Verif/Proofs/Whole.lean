import Verif.Model.Whole
import Verif.Proofs.FuncConc2
import Verif.Proofs.Spans3

namespace Monkit.Whole
open Go

variable {G E : Type} {K : DistKind Int64 ℚ} {next : G → UInt64 × G} {name : E → Str} {P : Program E}

/-! ## The parts -/

theorem Reach.trans {s s' s'' : State G} (h : Reach K next name P s s') (h' : Reach K next name P s' s'') : Reach K next name P s s'' := by
  induction h' with
  | start => exact h
  | step _ st ih => exact .step ih st

theorem reach_spans {s₀ s : State G} (h : Reach K next name P s₀ s) : Spans.Reach P.W s₀.sp s.sp := by
  induction h with
  | start => exact .start
  | step _ st ih =>
    cases st with
    | span _ _ sp' hc st => exact .step ih st
    | parent => exact ih
    | func => exact ih

theorem reach_func {s₀ s : State G} (h : Reach K next name P s₀ s) (f : Nat) :
    FuncConc.Reach K next name (fun m => (P.act m).kind) (s₀.fn f) (s.fn f) := by
  induction h with
  | start => exact .start
  | @step n _ _ _ st ih =>
    cases st with
    | span => exact ih
    | parent => exact ih
    | func _ _ fn' st =>
      by_cases e : f = (P.act n).func
      · subst e; simp only [upd_same]; exact .step ih st
      · simp only [upd_other _ _ e]; exact ih

/-! ## How far a call is -/

/-- How far a span is: not counted, counted, entered, in its exit function, marked done. -/
def sphase : Spans.PC → Nat
  | .new => 0
  | .inc => 1
  | .pub => 2
  | .selfOrphan | .selfInsert | .running => 3
  | .mark => 4
  | _ => 5

/-- How far the statistics are with a call: `start` not called, called, returned, `end` called, returned. -/
def fphase : FuncConc.PC → Nat
  | .new => 0
  | .add | .load _ | .cas _ _ => 1
  | .running => 2
  | .over _ => 4
  | _ => 3

theorem sphase_step {W : Spans.World} {s s' : Spans.State} (st : Spans.Step W s s') (n : Nat) :
    sphase (s'.pc n) = sphase (s.pc n) ∨ sphase (s'.pc n) = sphase (s.pc n) + 1 := by
  cases st <;> simp only [Spans.upd_apply] <;> grind [sphase]

theorem fphase_step {kind : Nat → FuncConc.Kind E} {s s' : FuncConc.State G} (st : FuncConc.Step K next name kind s s') (n : Nat) {e p d w}
    (hk : kind n = .call e p d w) (i : FuncConc.InvL kind s) :
    fphase (s'.pc n) = fphase (s.pc n) ∨ fphase (s'.pc n) = fphase (s.pc n) + 1 := by
  obtain ⟨i1, i2, i3, i4, i5, i6, i7⟩ := i
  have j6 := i6 n
  have j7 := i7 n
  cases st <;> simp only [FuncConc.upd_apply] <;> grind [fphase, FuncConc.PC.ofReset, FuncConc.PC.ofReport]

structure Inv (P : Program E) (s : State G) : Prop where
  call : ∀ n, s.sp.pc n ≠ .new → (P.act n).isCall = true
  own : ∀ n g, (s.fn g).pc n ≠ .new → g = (P.act n).func
  phase : ∀ n, (P.act n).isCall = true →
    let a := sphase (s.sp.pc n)
    let b := fphase ((s.fn (P.act n).func).pc n)
    (b = 0 → a ≤ 2) ∧ (b = 1 → a = 2) ∧ (b = 2 → 2 ≤ a ∧ a ≤ 4) ∧ (b = 3 → a = 4) ∧ (b = 4 → 4 ≤ a)
  addedS : ∀ n, s.added n = true → (P.act n).isCall = true ∧ 2 ≤ sphase (s.sp.pc n)
  addedF : ∀ n, (P.act n).isCall = true → fphase ((s.fn (P.act n).func).pc n) ≠ 0 → s.added n = true
  parents : ∀ f q, q ∈ s.parents f ↔ ∃ n, s.added n = true ∧ (P.act n).func = f ∧ P.caller n = q
  parentsN : ∀ f, (s.parents f).Nodup

theorem fphase_zero {p : FuncConc.PC} : fphase p = 0 ↔ p = .new := by cases p <;> simp [fphase]
theorem fphase_two {p : FuncConc.PC} : fphase p = 2 ↔ p = .running := by cases p <;> simp [fphase]
theorem fphase_four {p : FuncConc.PC} : fphase p = 4 ↔ ∃ r, p = .over r := by cases p <;> simp [fphase]
theorem fphase_le (p : FuncConc.PC) : fphase p ≤ 4 := by cases p <;> simp [fphase]
theorem sphase_zero {p : Spans.PC} : sphase p = 0 ↔ p = .new := by cases p <;> simp [sphase]
theorem sphase_two {p : Spans.PC} : sphase p = 2 ↔ p = .pub := by cases p <;> simp [sphase]
theorem sphase_four {p : Spans.PC} : sphase p = 4 ↔ p = .mark := by cases p <;> simp [sphase]

theorem kind_call {a : Act E} (h : a.isCall = true) : ∃ f e p d w, a = .call f e p d w := by
  cases a <;> simp_all [Act.isCall]

theorem kind_call' {a : Act E} (h : a.isCall = true) : ∃ e p d w, a.kind = .call e p d w := by
  cases a <;> simp_all [Act.isCall, Act.kind]

theorem inv_init (P : Program E) (g1 g2 : Nat → G) : Inv P (init K P g1 g2) := by
  constructor <;> simp [init, Spans.init, FuncConc.init, sphase, fphase]

theorem inv_step {s s' : State G} (i : Inv P s) (il : ∀ f, FuncConc.InvL (fun m => (P.act m).kind) (s.fn f)) {n : Nat} (st : Step K next name P n s s') : Inv P s' := by
  obtain ⟨i1, i2, i3, i4, i5, i6, i7⟩ := i
  cases st with
  | span _ _ sp' hc st mv started ended =>
    have ph := sphase_step st n
    have hs := i3 n hc
    have q2 := @sphase_two (s.sp.pc n)
    have q4 := @sphase_four (s.sp.pc n)
    rw [← q2] at started
    rw [← q4] at ended
    rw [← fphase_two] at started
    rw [← fphase_four] at ended
    refine ⟨?_, i2, ?_, ?_, i5, i6, i7⟩
    · intro m hm
      by_cases e : m = n
      · subst e; exact hc
      · exact i1 m (by rw [← mv.2 m e]; exact hm)
    · intro m hm
      by_cases e : m = n
      · subst e
        dsimp only at hs ⊢
        have := fphase_le ((s.fn (P.act m).func).pc m)
        omega
      · dsimp only
        rw [mv.2 m e]; exact i3 m hm
    · intro m hm
      by_cases e : m = n
      · subst e
        have := (i4 m hm).2
        exact ⟨hc, by dsimp only; omega⟩
      · dsimp only
        rw [mv.2 m e]; exact i4 m hm
  | parent _ _ hc h hn =>
    refine ⟨i1, i2, i3, ?_, ?_, ?_, ?_⟩
    · intro m hm
      by_cases e : m = n
      · subst e; exact ⟨hc, by dsimp only; rw [h]; simp [sphase]⟩
      · dsimp only at hm; rw [upd_other _ _ e] at hm; exact i4 m hm
    · intro m hm hf
      by_cases e : m = n
      · subst e; simp
      · dsimp only; rw [upd_other _ _ e]; exact i5 m hm hf
    · intro f q
      have key : (∃ m, upd s.added n true m = true ∧ (P.act m).func = f ∧ P.caller m = q) ↔
          ((P.act n).func = f ∧ P.caller n = q) ∨ q ∈ s.parents f := by
        rw [i6]
        constructor
        · rintro ⟨m, h1, h2, h3⟩
          by_cases e : m = n
          · subst e; exact .inl ⟨h2, h3⟩
          · rw [upd_other _ _ e] at h1; exact .inr ⟨m, h1, h2, h3⟩
        · rintro (⟨h2, h3⟩ | ⟨m, h1, h2, h3⟩)
          · exact ⟨n, by simp, h2, h3⟩
          · by_cases e : m = n
            · subst e; rw [hn] at h1; cases h1
            · exact ⟨m, by rw [upd_other _ _ e]; exact h1, h2, h3⟩
      dsimp only
      rw [key]
      by_cases e : f = (P.act n).func
      · subst e
        rw [upd_same]
        unfold insert
        split
        · constructor
          · exact .inr
          · rintro (⟨_, rfl⟩ | h) <;> assumption
        · rw [List.mem_cons]
          constructor
          · rintro (rfl | h)
            · exact .inl ⟨rfl, rfl⟩
            · exact .inr h
          · rintro (⟨_, rfl⟩ | h)
            · exact .inl rfl
            · exact .inr h
      · rw [upd_other _ _ e]
        constructor
        · exact .inr
        · rintro (⟨rfl, _⟩ | h)
          · exact absurd rfl e
          · exact h
    · intro f
      dsimp only
      by_cases e : f = (P.act n).func
      · subst e
        rw [upd_same]
        unfold insert
        split
        · exact i7 _
        · exact List.nodup_cons.mpr ⟨by assumption, i7 _⟩
      · rw [upd_other _ _ e]; exact i7 f
  | func _ _ fn' st mv start finish =>
    rw [← fphase_zero, ← sphase_two] at start
    rw [← fphase_two, ← sphase_four] at finish
    refine ⟨i1, ?_, ?_, i4, ?_, i6, i7⟩
    · intro m g hm
      dsimp only at hm
      by_cases e : g = (P.act n).func
      · by_cases e' : m = n
        · rw [e, e']
        · subst e
          rw [upd_same, mv.2 m e'] at hm
          exact i2 m _ hm
      · rw [upd_other _ _ e] at hm; exact i2 m g hm
    · intro m hm
      dsimp only
      by_cases e : (P.act m).func = (P.act n).func
      · by_cases e' : m = n
        · subst e'
          rw [upd_same]
          obtain ⟨e1, p1, d1, w1, hk⟩ := kind_call' hm
          have hp := fphase_step st m hk (il _)
          have hs := i3 m hm
          dsimp only at hs
          have h1 := start hm
          have h2 := finish hm
          omega
        · rw [e, upd_same, mv.2 m e', ← e]; exact i3 m hm
      · rw [upd_other _ _ e]; exact i3 m hm
    · intro m hm hf
      dsimp only at hf ⊢
      by_cases e : (P.act m).func = (P.act n).func
      · by_cases e' : m = n
        · subst e'
          by_cases hz : fphase ((s.fn (P.act m).func).pc m) = 0
          · exact (start hm hz).2
          · exact i5 m hm hz
        · rw [e, upd_same, mv.2 m e', ← e] at hf; exact i5 m hm hf
      · rw [upd_other _ _ e] at hf; exact i5 m hm hf

theorem reach_inv {g1 g2 : Nat → G} {s : State G} (h : Reach K next name P (init K P g1 g2) s) :
    Inv P s ∧ (∀ f, FuncConc.InvL (fun m => (P.act m).kind) (s.fn f)) ∧
      ∀ f, FuncConc.InvF K next name (P.key f) (g1 f) (g2 f) (fun m => (P.act m).kind) (s.fn f) := by
  have hl : ∀ {s : State G}, Reach K next name P (init K P g1 g2) s → ∀ f, FuncConc.InvL (fun m => (P.act m).kind) (s.fn f) ∧
      FuncConc.InvF K next name (P.key f) (g1 f) (g2 f) (fun m => (P.act m).kind) (s.fn f) :=
    fun h f => FuncConc.reach_inv (reach_func h f)
  refine ⟨?_, fun f => (hl h f).1, fun f => (hl h f).2⟩
  induction h with
  | start => exact inv_init P g1 g2
  | step h st ih => exact inv_step ih (fun f => (hl h f).1) st

end Monkit.Whole
