import Verif.Model.Spans

/-!
# Building concrete executions of the span system

`next` performs the one step span `n` can take in `s` (starting it if it is new, calling its exit
function if it is running); used only for witnesses.
-/

namespace Monkit.Spans
open Go

def next (W : World) (s : State) (n : Nat) : Option State :=
  match s.pc n with
  | .new =>
    if ∀ p, W.parent n = some p →
        s.pc p ≠ .new ∧ s.pc p ≠ .inc ∧ s.pc p ≠ .pub
    then some { s with pc := upd s.pc n .inc } else none
  | .inc => some { s with count := upd s.count (W.trace n) (s.count (W.trace n) + 1),
                          pc := upd s.pc n .pub }
  | .pub =>
    match W.parent n with
    | none => some { s with roots := upd s.roots (W.reg n) (put n (s.roots (W.reg n))),
                            pc := upd s.pc n .running }
    | some p =>
      if s.locked p = false then
        some { s with bag := upd s.bag p ((s.bag p).add n),
                      pc := upd s.pc n (if s.done p then .selfOrphan else .running) }
      else none
  | .selfOrphan =>
    if s.locked n = false then
      if s.done n = false ∧ s.orphaned n = false then
        some { s with orphaned := upd s.orphaned n true, locked := upd s.locked n true,
                      pc := upd s.pc n .selfInsert }
      else some { s with pc := upd s.pc n .running }
    else none
  | .selfInsert =>
    some { s with orphans := upd s.orphans (W.reg n) (put n (s.orphans (W.reg n))),
                  locked := upd s.locked n false, pc := upd s.pc n .running }
  | .running => some { s with pc := upd s.pc n .mark }
  | .mark =>
    if s.locked n = false then
      some { s with done := upd s.done n true,
                    pc := upd s.pc n (.orphan ((s.bag n).iterate (s.bag n).rest) (s.orphaned n)) }
    else none
  | .orphan (c :: cs) o =>
    if s.locked c = false then
      if s.done c = false ∧ s.orphaned c = false then
        some { s with orphaned := upd s.orphaned c true, locked := upd s.locked c true,
                      pc := upd s.pc n (.insert c cs o) }
      else some { s with pc := upd s.pc n (.orphan cs o) }
    else none
  | .orphan [] o => some { s with pc := upd s.pc n (.leave o) }
  | .insert c cs o =>
    some { s with orphans := upd s.orphans (W.reg c) (put c (s.orphans (W.reg c))),
                  locked := upd s.locked c false, pc := upd s.pc n (.orphan cs o) }
  | .leave o =>
    match W.parent n with
    | none => some { s with roots := upd s.roots (W.reg n) (drop n (s.roots (W.reg n))),
                            pc := upd s.pc n .dec }
    | some p =>
      if s.locked p = false then
        some { s with bag := upd s.bag p ((s.bag p).remove n),
                      pc := upd s.pc n (if o then .unorphan else .dec) }
      else none
  | .unorphan => some { s with orphans := upd s.orphans (W.reg n) (drop n (s.orphans (W.reg n))),
                               pc := upd s.pc n .dec }
  | .dec => some { s with count := upd s.count (W.trace n) (s.count (W.trace n) + (-1)),
                          pc := upd s.pc n .over }
  | .over => none

theorem next_step {W : World} {s s' : State} {n : Nat} (h : next W s n = some s') : Step W s s' := by
  unfold next at h
  split at h
  · next hn =>
    split at h
    · next hp => cases h; exact .create s n hn hp
    · cases h
  · next hn => cases h; exact .inc s n hn
  · next hn =>
    split at h
    · next hp => cases h; exact .root s n hn hp
    · next p hp =>
      split at h
      · next hf => cases h; exact .child s n p hn hp hf
      · cases h
  · next hn =>
    split at h
    · next hf =>
      split at h
      · next hc => cases h; exact .selfMark s n hn hf hc
      · next hc => cases h; exact .selfSkip s n hn hf hc
    · cases h
  · next hn => cases h; exact .selfInsert s n hn
  · next hn => cases h; exact .exit s n hn
  · next hn =>
    split at h
    · next hf => cases h; exact .mark s n _ hn hf (.refl _)
    · cases h
  · next c cs o hn =>
    split at h
    · next hf =>
      split at h
      · next hc => cases h; exact .orphanMark s n c cs o hn hf hc
      · next hc => cases h; exact .orphanSkip s n c cs o hn hf hc
    · cases h
  · next o hn => cases h; exact .orphanDone s n o hn
  · next c cs o hn => cases h; exact .orphanInsert s n c cs o hn
  · next o hn =>
    split at h
    · next hp => cases h; exact .leaveRoots s n o hn hp
    · next p hp =>
      split at h
      · next hf => cases h; exact .leaveParent s n p o hn hp hf
      · cases h
  · next hn => cases h; exact .unorphan s n hn
  · next hn => cases h; exact .dec s n hn
  · cases h

def runs (W : World) (s : State) : List Nat → Option State
  | [] => some s
  | n :: ns => (next W s n).bind fun s' => runs W s' ns

theorem Reach.cons {W : World} {s s' s'' : State} (st : Step W s s') (h : Reach W s' s'') :
    Reach W s s'' := by
  induction h with
  | start => exact .step .start st
  | step _ st' ih => exact .step ih st'

theorem runs_reach {W : World} {ns : List Nat} {s s' : State} (h : runs W s ns = some s') :
    Reach W s s' := by
  induction ns generalizing s with
  | nil => cases h; exact .start
  | cons n ns ih =>
    simp only [runs, Option.bind_eq_some_iff] at h
    obtain ⟨s1, h1, h2⟩ := h
    exact .cons (next_step h1) (ih h2)

theorem runs_none {W : World} {s : State} {ns : List Nat} {n : Nat} {s' : State} (h : runs W s ns = some s')
    (hn : n ∉ ns) : s'.pc n = s.pc n := by
  induction ns generalizing s with
  | nil => cases h; rfl
  | cons m ns ih =>
    simp only [runs, Option.bind_eq_some_iff] at h
    obtain ⟨s1, h1, h2⟩ := h
    simp only [List.mem_cons, not_or] at hn
    rw [ih h2 hn.2]
    have : ∃ v, s1.pc = upd s.pc m v := by
      unfold next at h1
      repeat' split at h1
      all_goals first | (cases h1; done) | (cases h1; exact ⟨_, rfl⟩)
    obtain ⟨v, e⟩ := this
    rw [e, upd_other _ _ hn.1]

end Monkit.Spans
