import Verif.Proofs.Whole
import Verif.Proofs.SpansRun
import Verif.Props.FuncConc

/-!
# Building concrete executions of programs of monitored calls

Used only for witnesses.
-/

namespace Monkit.Whole
open Go
open FuncConc (KD nx nm)

theorem moves_of {α : Type} {pc pc' : Nat → α} {n : Nat} {v : α} (e : pc' = upd pc n v) (h : v ≠ pc n) : Moves pc pc' n :=
  ⟨by rw [e, upd_same]; exact h, fun m hm => by rw [e]; exact upd_other _ _ hm⟩

theorem next_moves {W : Spans.World} {s s' : Spans.State} {n : Nat} (h : Spans.next W s n = some s') : Moves s.pc s'.pc n := by
  unfold Spans.next at h
  repeat' split at h
  all_goals first
    | exact absurd h (Option.some_ne_none s').symm
    | (rw [Option.some.injEq] at h; rw [← h]; refine moves_of rfl ?_; simp [*]; done)
    | (rw [Option.some.injEq] at h; rw [← h]; refine moves_of rfl ?_; simp only [*]; grind)

/-- The next step of process `n` in a method of the statistics. -/
def move (kinds : Nat → FuncConc.Kind Str) (s : FuncConc.State Unit) (n : Nat) : Option (FuncConc.State Unit) :=
  match s.pc n with
  | .new =>
    match kinds n with
    | .call _ _ _ _ => some { s with pc := upd s.pc n .add }
    | .reset => some { s with pc := upd s.pc n .zeroCur }
    | .report => some { s with pc := upd s.pc n .readCur }
  | .add => some { s with f := { s.f with current := s.f.current + 1 }, pc := upd s.pc n (.load (s.f.current + 1)) }
  | .load cur => some { s with pc := upd s.pc n (.cas cur s.f.highwater) }
  | .cas cur hw =>
    if cur ≤ hw then some { s with pc := upd s.pc n .running }
    else if s.f.highwater = hw then some { s with f := { s.f with highwater := cur }, pc := upd s.pc n .running }
    else none
  | .running => some { s with pc := upd s.pc n .sub }
  | .sub => some { s with f := { s.f with current := s.f.current + (-1) }, pc := upd s.pc n (.wait 0 0) }
  | .readCur => some { s with pc := upd s.pc n (.readHw s.f.current) }
  | .readHw c => some { s with pc := upd s.pc n (.wait c s.f.highwater) }
  | .wait c h => if s.lock = none then some { s with lock := some n, pc := upd s.pc n (.inside c h) } else none
  | .inside c h =>
    match kinds n with
    | .call e p d w => (FuncConc.record KD nx nm s.f e p d w).map fun f' => { s with f := f', log := s.log ++ [n], pc := upd s.pc n (.unlock []) }
    | .reset => none
    | .report => (FuncStats.stats KD { s.f with current := c, highwater := h } s.f.errors () ()).map fun rep => { s with pc := upd s.pc n (.unlock rep) }
  | .unlock rep => some { s with lock := none, pc := upd s.pc n (.over rep) }
  | _ => none

theorem move_step {kinds : Nat → FuncConc.Kind Str} {s s' : FuncConc.State Unit} {n : Nat} (h : move kinds s n = some s') :
    FuncConc.Step KD nx nm kinds s s' ∧ Moves s.pc s'.pc n := by
  unfold move at h
  split at h
  · next e =>
    split at h
    · next k => cases h; exact ⟨.start s n _ _ _ _ k e, moves_of rfl (by simp [e])⟩
    · next k => cases h; exact ⟨.reset s n k e, moves_of rfl (by simp [e])⟩
    · next k => cases h; exact ⟨.report s n k e, moves_of rfl (by simp [e])⟩
  · next e => cases h; exact ⟨.add s n e, moves_of rfl (by simp [e])⟩
  · next e => cases h; exact ⟨.load s n _ e, moves_of rfl (by simp [e])⟩
  · next e =>
    split at h
    · next c => cases h; exact ⟨.enough s n _ _ e c, moves_of rfl (by simp [e])⟩
    · next c =>
      split at h
      · next d => cases h; exact ⟨.swap s n _ _ e c d, moves_of rfl (by simp [e])⟩
      · cases h
  · next e => cases h; exact ⟨.finish s n e, moves_of rfl (by simp [e])⟩
  · next e =>
    simp only [Option.some.injEq] at h
    rw [← h]
    exact ⟨.sub s n e, moves_of rfl (by simp [e])⟩
  · next e => cases h; exact ⟨.readCur s n e, moves_of rfl (by simp [e])⟩
  · next e => cases h; exact ⟨.readHw s n _ e, moves_of rfl (by simp [e])⟩
  · next e =>
    split at h
    · next c => cases h; exact ⟨.lock s n _ _ e c, moves_of rfl (by simp [e])⟩
    · cases h
  · next e =>
    split at h
    · next k =>
      rw [Option.map_eq_some_iff] at h
      obtain ⟨f', hf, rfl⟩ := h
      exact ⟨.record s n _ _ _ _ _ _ f' k e hf, moves_of rfl (by simp [e])⟩
    · cases h
    · next k =>
      rw [Option.map_eq_some_iff] at h
      obtain ⟨r, hr, rfl⟩ := h
      exact ⟨.copy s n _ _ s.f.errors () () r k e (.refl _) hr, moves_of rfl (by simp [e])⟩
  · next e => cases h; exact ⟨.unlock s n _ e, moves_of rfl (by simp [e])⟩
  · cases h

/-- Where a process is in the statistics of its function: not there, running, over or half way. -/
def isRunning : FuncConc.PC → Bool
  | .running => true
  | _ => false

def isOver : FuncConc.PC → Bool
  | .over _ => true
  | _ => false

def isNew : FuncConc.PC → Bool
  | .new => true
  | _ => false

def spanMove (P : Program Str) (s : State Unit) (n : Nat) : Option (State Unit) := (Spans.next P.W s.sp n).map fun sp' => { s with sp := sp' }

def funcMove (P : Program Str) (s : State Unit) (n : Nat) : Option (State Unit) :=
  (move (fun m => (P.act m).kind) (s.fn (P.act n).func) n).map fun fn' => { s with fn := upd s.fn (P.act n).func fn' }

/-- The next step of process `n`. -/
def wnext (P : Program Str) (s : State Unit) (n : Nat) : Option (State Unit) :=
  if (P.act n).isCall = true then
    if s.sp.pc n = .pub then
      if s.added n = false then
        some { s with parents := upd s.parents (P.act n).func (insert (P.caller n) (s.parents (P.act n).func)), added := upd s.added n true }
      else if isRunning ((s.fn (P.act n).func).pc n) then spanMove P s n
      else funcMove P s n
    else if s.sp.pc n = .mark then
      if isOver ((s.fn (P.act n).func).pc n) then spanMove P s n
      else if isNew ((s.fn (P.act n).func).pc n) then none
      else funcMove P s n
    else spanMove P s n
  else funcMove P s n

theorem wnext_step {P : Program Str} {s s' : State Unit} {n : Nat} (h : wnext P s n = some s') : Step KD nx nm P n s s' := by
  have fm : ∀ {s'}, funcMove P s n = some s' →
      ((P.act n).isCall = true → (s.fn (P.act n).func).pc n = .new → s.sp.pc n = .pub ∧ s.added n = true) →
      ((P.act n).isCall = true → (s.fn (P.act n).func).pc n = .running → s.sp.pc n = .mark) → Step KD nx nm P n s s' := by
    intro s' h h1 h2
    unfold funcMove at h
    rw [Option.map_eq_some_iff] at h
    obtain ⟨fn', hf, rfl⟩ := h
    exact .func s n fn' (move_step hf).1 (move_step hf).2 h1 h2
  have sm : ∀ {s'}, spanMove P s n = some s' → (P.act n).isCall = true → (s.sp.pc n = .pub → (s.fn (P.act n).func).pc n = .running) →
      (s.sp.pc n = .mark → ∃ rep, (s.fn (P.act n).func).pc n = .over rep) → Step KD nx nm P n s s' := by
    intro s' h hc h1 h2
    unfold spanMove at h
    rw [Option.map_eq_some_iff] at h
    obtain ⟨sp', hf, rfl⟩ := h
    exact .span s n sp' hc (Spans.next_step hf) (next_moves hf) h1 h2
  unfold wnext at h
  split at h
  · next hc =>
    split at h
    · next hp =>
      split at h
      · next ha => cases h; exact .parent s n hc hp ha
      · next ha =>
        split at h
        · next hr =>
          refine sm h hc (fun _ => ?_) (fun e => by rw [hp] at e; cases e)
          revert hr; cases (s.fn (P.act n).func).pc n <;> simp [isRunning]
        · next hr =>
          refine fm h (fun _ _ => ⟨hp, by simpa using ha⟩) (fun _ e => ?_)
          rw [e] at hr; simp [isRunning] at hr
    · next hp =>
      split at h
      · next hm =>
        split at h
        · next hr =>
          refine sm h hc (fun e => absurd e hp) (fun _ => ?_)
          revert hr; cases (s.fn (P.act n).func).pc n <;> simp [isOver]
        · split at h
          · cases h
          · next hr => exact fm h (fun _ e => by rw [e] at hr; simp [isNew] at hr) (fun _ _ => hm)
      · next hm => exact sm h hc (fun e => absurd e hp) (fun e => absurd e hm)
  · next hc => exact fm h (fun e => absurd e hc) (fun e => absurd e hc)

/-- The steps of a schedule. -/
def runs (P : Program Str) : State Unit → List Nat → Option (State Unit)
  | s, [] => some s
  | s, n :: l => (wnext P s n).bind fun s' => runs P s' l

theorem runs_reach {P : Program Str} {l : List Nat} : ∀ {s s' : State Unit}, runs P s l = some s' → Reach KD nx nm P s s' := by
  induction l with
  | nil => intro s s' h; cases h; exact .start
  | cons n l ih =>
    intro s s' h
    simp only [runs, Option.bind_eq_some_iff] at h
    obtain ⟨x, hx, h⟩ := h
    exact (Reach.step .start (wnext_step hx)).trans (ih h)

theorem step_other {P : Program Str} {s s' : State Unit} {n k : Nat} (h : Step KD nx nm P n s s') (hk : k ≠ n) :
    s'.sp.pc k = s.sp.pc k ∧ ∀ f, (s'.fn f).pc k = (s.fn f).pc k := by
  cases h with
  | span _ _ sp' hc st mv a b => exact ⟨mv.2 k hk, fun _ => rfl⟩
  | parent _ _ hc h hn => exact ⟨rfl, fun _ => rfl⟩
  | func _ _ fn' st mv a b =>
    refine ⟨rfl, fun f => ?_⟩
    dsimp only
    by_cases hf : f = (P.act n).func
    · subst hf; rw [upd_same]; exact mv.2 k hk
    · rw [upd_other _ _ hf]

theorem runs_other {P : Program Str} {k : Nat} {l : List Nat} : ∀ {s s' : State Unit}, runs P s l = some s' → k ∉ l →
    s'.sp.pc k = s.sp.pc k ∧ ∀ f, (s'.fn f).pc k = (s.fn f).pc k := by
  induction l with
  | nil => intro s s' h _; cases h; exact ⟨rfl, fun _ => rfl⟩
  | cons n l ih =>
    intro s s' h hk
    simp only [runs, Option.bind_eq_some_iff] at h
    obtain ⟨x, hx, h⟩ := h
    obtain ⟨a, b⟩ := ih h (by grind)
    obtain ⟨c, d⟩ := step_other (wnext_step hx) (k := k) (by grind)
    exact ⟨a.trans c, fun f => (b f).trans (d f)⟩

theorem runs_append {P : Program Str} {l l' : List Nat} : ∀ {s : State Unit}, runs P s (l ++ l') = (runs P s l).bind fun s' => runs P s' l' := by
  induction l with
  | nil => intro s; rfl
  | cons n l ih =>
    intro s
    simp only [List.cons_append, runs, ih, Option.bind_assoc]

end Monkit.Whole
