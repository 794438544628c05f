import Verif.Props.KeepAlive
import Verif.Proofs.Returns

/-!
# C58: stop returns

The goroutine that pings counts as a goroutine too, number 0: it is in a call from the moment the ticker fires until it has released the mutex and,
after a failure, cancelled the context.
-/

namespace Monkit.KeepAlive
open Go Returns

/-- Where the goroutines are: number 0 is the one that pings, number `i + 1` calls stop. -/
def at_ (s : State) : Nat → Loop ⊕ Stop
  | 0 => .inl s.loop
  | i + 1 => .inr (s.thr i)

/-- Waiting for the ticker, finished, or not in a call of stop. -/
def Rests : Loop ⊕ Stop → Prop
  | .inl l => l = .select ∨ l = .finished
  | .inr t => t = .idle

/-- How far from the end. -/
def rankOf : Loop ⊕ Stop → Nat
  | .inl .select => 0
  | .inl .finished => 0
  | .inl .lock => 9
  | .inl .check => 8
  | .inl .quit => 7
  | .inl .call => 7
  | .inl .inPing => 6
  | .inl (.failed _) => 5
  | .inl .unlockErr => 4
  | .inl .cancel => 3
  | .inl .unlock => 1
  | .inr .idle => 0
  | .inr .once => 6
  | .inr .closing => 5
  | .inr .lock => 4
  | .inr .set => 3
  | .inr .read => 2
  | .inr (.ret _) => 1

theorem at_succ {s s' : State} {i : Nat} {v : Stop} (hl : s'.loop = s.loop) (ht : s'.thr = upd s.thr i v) : ∀ u, u ≠ i + 1 → at_ s' u = at_ s u := by
  intro u hu
  cases u with
  | zero => simp [at_, hl]
  | succ u => simp only [at_, ht]; rw [upd_other _ _ (by omega)]

theorem at_zero {s s' : State} (ht : s'.thr = s.thr) : ∀ u, u ≠ 0 → at_ s' u = at_ s u := by
  intro u hu
  cases u with
  | zero => exact absurd rfl hu
  | succ u => simp [at_, ht]

/-- **C58**, stop returns: if the ticker does not fire again and stop is not called again, the calls of stop that are under way, and the goroutine that pings if the
ticker has fired, take only so many further steps, whichever goroutine runs when, and while one of them is under way, one can go on (a ping that was begun goes on
by returning or panicking). -/
theorem C58_returns {tr : List Event} {s : State} (h : Exec Step init tr s) : AllReturn Step at_ Rests s := by
  refine allReturn (rank := rankOf) ?_ ?_ ?_ h
  · intro t
    cases t with
    | zero => exact Or.inl rfl
    | succ t => rfl
  · intro tr s e s' _ st
    cases st
    case parent => exact ⟨0, fun u _ => by cases u <;> rfl, fun _ hne => absurd rfl hne⟩
    case selectDone hl hc => exact ⟨0, at_zero rfl, fun hn => absurd (Or.inl hl) hn⟩
    case selectCtx hl hc => exact ⟨0, at_zero rfl, fun hn => absurd (Or.inl hl) hn⟩
    case selectTick hl => exact ⟨0, at_zero rfl, fun hn => absurd (Or.inl hl) hn⟩
    case stopCall i hi => exact ⟨i + 1, at_succ rfl rfl, fun hn => absurd hi hn⟩
    case onceFirst i hi ho => exact ⟨i + 1, at_succ rfl rfl, fun _ _ => by simp [at_, rankOf, hi]⟩
    case onceDone i hi ho => exact ⟨i + 1, at_succ rfl rfl, fun _ _ => by simp [at_, rankOf, hi]⟩
    case close i hi hc => exact ⟨i + 1, at_succ rfl rfl, fun _ _ => by simp [at_, rankOf, hi]⟩
    case closeAgain i hi hc => exact ⟨i + 1, at_succ rfl rfl, fun _ _ => by simp [at_, rankOf, hi]⟩
    case stopLock i hi hf => exact ⟨i + 1, at_succ rfl rfl, fun _ _ => by simp [at_, rankOf, hi]⟩
    case stopSet i hi => exact ⟨i + 1, at_succ rfl rfl, fun _ _ => by simp [at_, rankOf, hi]⟩
    case stopRead i hi => exact ⟨i + 1, at_succ rfl rfl, fun _ _ => by simp [at_, rankOf, hi]⟩
    case stopRet i r hi => exact ⟨i + 1, at_succ rfl rfl, fun _ _ => by simp [at_, rankOf, hi]⟩
    all_goals exact ⟨0, at_zero rfl, fun _ _ => by simp_all [at_, rankOf]⟩
  · intro tr s t h ht
    have inv := inv_exec h
    have zero : ∀ {e s'}, Step s e s' → ¬ Rests (.inl s.loop) → s'.loop ≠ s.loop → ∃ u e s', ¬ Rests (at_ s u) ∧ Step s e s' ∧ at_ s' u ≠ at_ s u :=
      fun st hn hne => ⟨0, _, _, hn, st, fun hh => hne (Sum.inl.inj hh)⟩
    have succ : ∀ {e s'} i, Step s e s' → s.thr i ≠ .idle → s'.thr i ≠ s.thr i → ∃ u e s', ¬ Rests (at_ s u) ∧ Step s e s' ∧ at_ s' u ≠ at_ s u :=
      fun i st hn hne => ⟨i + 1, _, _, hn, st, fun hh => hne (Sum.inr.inj hh)⟩
    have loopGo : holds s.loop = true → ∃ u e s', ¬ Rests (at_ s u) ∧ Step s e s' ∧ at_ s' u ≠ at_ s u := by
      intro hl
      cases hq : s.loop with
      | check =>
        by_cases hc : s.stopped = true ∨ s.pingErr ≠ none
        · exact zero (.checkStop s hq hc) (by simp [Rests, hq]) (by simp [hq])
        · exact zero (.checkGo s hq (by cases hst : s.stopped <;> simp_all) (by cases hpe : s.pingErr <;> simp_all)) (by simp [Rests, hq]) (by simp [hq])
      | quit => exact zero (.quit s hq) (by simp [Rests, hq]) (by simp [hq])
      | call => exact zero (.ping s hq) (by simp [Rests, hq]) (by simp [hq])
      | inPing => exact zero (.pongOk s .ok hq rfl) (by simp [Rests, hq]) (by simp [hq])
      | failed e => exact zero (.setErr s e hq) (by simp [Rests, hq]) (by simp [hq])
      | unlockErr => exact zero (.unlockErr s hq) (by simp [Rests, hq]) (by simp [hq])
      | unlock => exact zero (.unlock s hq) (by simp [Rests, hq]) (by simp [hq])
      | _ => simp [hq, holds] at hl
    have holder : ∀ x, s.mu = some x → ∃ u e s', ¬ Rests (at_ s u) ∧ Step s e s' ∧ at_ s' u ≠ at_ s u := by
      intro x hx
      cases x with
      | loop => exact loopGo (inv.muLoop.1 hx)
      | stop j =>
        have hl := (inv.muStop j).1 hx
        cases hq : s.thr j with
        | set => exact succ j (.stopSet s j hq) (by simp [hq]) (by simp [hq])
        | read => exact succ j (.stopRead s j hq) (by simp [hq]) (by simp [hq])
        | ret r => exact succ j (.stopRet s j r hq) (by simp [hq]) (by simp [hq])
        | _ => simp [hq, holdsS] at hl
    have closer : ∀ j, s.thr j = .closing → ∃ u e s', ¬ Rests (at_ s u) ∧ Step s e s' ∧ at_ s' u ≠ at_ s u := by
      intro j hj
      cases hc : s.closed with
      | false => exact succ j (.close s j hj hc) (by simp [hj]) (by simp [hj])
      | true => exact succ j (.closeAgain s j hj hc) (by simp [hj]) (by simp [hj])
    cases t with
    | zero =>
      have hl : ¬ (s.loop = .select ∨ s.loop = .finished) := ht
      by_cases hh : holds s.loop = true
      · exact loopGo hh
      · cases hq : s.loop with
        | lock =>
          cases hm : s.mu with
          | none => exact zero (.lock s hq hm) (by simp [Rests, hq]) (by simp [hq])
          | some x => exact holder x hm
        | cancel => exact zero (.cancel s hq) (by simp [Rests, hq]) (by simp [hq])
        | _ => simp_all [holds]
    | succ i =>
      have hi : s.thr i ≠ .idle := ht
      cases hq : s.thr i with
      | idle => exact absurd hq hi
      | once =>
        cases ho : s.once with
        | fresh => exact succ i (.onceFirst s i hq ho) hi (by simp [hq])
        | running j => exact closer j ((inv.once j).1 ho)
        | complete => exact succ i (.onceDone s i hq ho) hi (by simp [hq])
      | closing => exact closer i hq
      | lock =>
        cases hm : s.mu with
        | none => exact succ i (.stopLock s i hq hm) hi (by simp [hq])
        | some x => exact holder x hm
      | set => exact succ i (.stopSet s i hq) hi (by simp [hq])
      | read => exact succ i (.stopRead s i hq) hi (by simp [hq])
      | ret r => exact succ i (.stopRet s i r hq) hi (by simp [hq])

/-- The ticker has fired, and a goroutine has called stop. -/
example : ∃ s, Exec Step init [.stopCall 0] s ∧ ¬ Rests (at_ s 0) ∧ ¬ Rests (at_ s 1) := by
  have h1 : Exec Step init [] _ := Exec.step _ .start (Step.selectTick init rfl)
  have h2 := Exec.step _ h1 (Step.stopCall _ 0 rfl)
  exact ⟨_, h2, by simp [at_, Rests], by simp [at_, Rests]⟩

end Monkit.KeepAlive
