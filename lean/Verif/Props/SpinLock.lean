import Verif.Model.SpinLock
import Verif.Proofs.Mutex

/-!
# C62: the spin lock
-/

namespace Monkit.Spin
open Go.Mutex
variable {S L Op Ret : Type}

theorem upd_apply {α : Type} (f : Nat → α) (t : Nat) (v : α) (t' : Nat) : upd f t v t' = if t' = t then v else f t' := rfl

/-- `Lock` has returned and `Unlock` has not been called. -/
def Inside (c : Config S L Op) (t : Nat) : Prop := ∃ op rest l, c.thr t = .inside op rest l

/-- `Lock` has been called and has not returned. -/
def Waiting (c : Config S L Op) (t : Nat) : Prop := ∃ op, c.thr t = .trying op ∨ c.thr t = .yielding op

def isIn : PC S L Op → Bool
  | .inside .. => true
  | _ => false

theorem inside_iff {c : Config S L Op} {t} : Inside c t ↔ isIn (c.thr t) = true := by
  unfold Inside
  cases c.thr t <;> simp [isIn]

structure Inv (c : Config S L Op) : Prop where
  word : c.word = 0 ∨ c.word = 1
  free : c.word = 0 → ∀ t, ¬ isIn (c.thr t) = true
  held : c.word = 1 → ∃ t, isIn (c.thr t) = true
  one : ∀ t t', isIn (c.thr t) = true → isIn (c.thr t') = true → t = t'

theorem inv_step (o : Obj S L Op Ret) {c e c'} (i : Inv c) (st : Step o c e c') : Inv c' := by
  obtain ⟨i1, i2, i3, i4⟩ := i
  cases st
  all_goals
    constructor
  all_goals
    simp only [upd_apply]
  all_goals
    grind [isIn]

variable {o : Obj S L Op Ret} {s₀ : S} {tr : List (Event Op Ret)} {c : Config S L Op}

theorem inv_exec (h : Exec o s₀ tr c) : Inv c := by
  induction h with
  | start => exact ⟨.inl rfl, fun _ t => by simp [isIn, init], fun h => by simp [init] at h, fun t t' q => by simp [isIn, init] at q⟩
  | step e h st ih => exact inv_step o ih st

/-- **C62**.  At most one goroutine is between `Lock` and `Unlock`. -/
theorem C62_mutual_exclusion (h : Exec o s₀ tr c) {t t' : Nat} (h1 : Inside c t) (h2 : Inside c t') : t = t' := 
  (inv_exec h).one t t' (inside_iff.1 h1) (inside_iff.1 h2)

def pcMutex : PC S L Op → Go.Mutex.PC S L Op
  | .idle => .idle
  | .trying op => .waiting op
  | .yielding op => .waiting op
  | .inside op rest l => .inside op rest l

/-- The same as a mutex sees it: waiting is waiting. -/
def asMutex (c : Config S L Op) : Go.Mutex.Config S L Op := ⟨c.sh, c.word ≠ 0, fun t => pcMutex (c.thr t)⟩

/-- **C62**.  Whatever goroutines do with an object behind a spin lock, they can do with the object behind a mutex: the same calls with the same results,
taking effect in the same order.  So everything proved of objects behind a mutex holds for spin locks. -/
theorem C62_is_mutex (h : Exec o s₀ tr c) : Go.Mutex.Exec o s₀ tr (asMutex c) := by
  induction h with
  | start => exact Go.Mutex.Exec.start
  | @step tr c c' e h st ih =>
    have key : ∀ (t : Nat) (p : PC S L Op), (fun x => pcMutex (upd c.thr t p x)) = upd (asMutex c).thr t (pcMutex p) := by
      intro t p
      funext x
      simp only [upd_apply]
      split <;> rfl
    have same : ∀ (t : Nat) (p : PC S L Op), pcMutex p = pcMutex (c.thr t) → (fun x => pcMutex (upd c.thr t p x)) = fun x => pcMutex (c.thr x) := by
      intro t p hp
      funext x
      simp only [upd_apply]
      split
      · rename_i hx; rw [hx, hp]
      · rfl
    cases st with
    | call t op h1 =>
      have := Go.Mutex.Exec.step _ ih (.call (asMutex c) t op (by simp [asMutex, h1, pcMutex]))
      unfold asMutex; rw [key]; exact this
    | swap t op h1 hw =>
      have := Go.Mutex.Exec.step _ ih (.lock (asMutex c) t op (by simp [asMutex, h1, pcMutex]) (by simp [asMutex, hw]))
      unfold asMutex; rw [key]; exact this
    | fail t op h1 hw =>
      unfold asMutex; rw [same t _ (by rw [h1]; rfl), Option.toList_none, List.append_nil]; exact ih
    | again t op h1 =>
      unfold asMutex; rw [same t _ (by rw [h1]; rfl), Option.toList_none, List.append_nil]; exact ih
    | access t op f rest l h1 =>
      have := Go.Mutex.Exec.step _ ih (.access (asMutex c) t op f rest l (by simp [asMutex, h1, pcMutex]))
      unfold asMutex; rw [key]; exact this
    | unlock t op l h1 =>
      have := Go.Mutex.Exec.step _ ih (.unlock (asMutex c) t op l (by simp [asMutex, h1, pcMutex]))
      unfold asMutex; rw [key]; exact this

/-- **C62**.  When nobody is between `Lock` and `Unlock`, every waiting goroutine can take the lock: after at most one step that nobody notices. -/
theorem C62_free_can_be_taken (h : Exec o s₀ tr c) (hf : ∀ t, ¬ Inside c t) {t : Nat} (hw : Waiting c t) :
    ∃ c1 c2, (c1 = c ∨ Step o c none c1) ∧ Step o c1 (some (.acquire t)) c2 ∧ Inside c2 t := by
  have i := inv_exec h
  have hz : c.word = 0 := by
    rcases i.word with h | h
    · exact h
    · obtain ⟨x, hx⟩ := i.held h; exact absurd (inside_iff.2 hx) (hf x)
  obtain ⟨op, hw | hw⟩ := hw
  · exact ⟨c, _, .inl rfl, .swap c t op hw hz, op, _, _, upd_same _ _ _⟩
  · refine ⟨_, _, .inr (.again c t op hw), .swap _ t op (by simp) hz, op, _, _, upd_same _ _ _⟩

/-- **C62**.  Otherwise the goroutine that has the lock can go on: no deadlock. -/
theorem C62_progress (h : Exec o s₀ tr c) {t : Nat} (hw : Waiting c t) : ∃ e c' t', Step o c e c' ∧ (Inside c t' ∨ e = some (.acquire t') ∨ c.word = 0) := by
  by_cases hf : ∀ t, ¬ Inside c t
  · have i := inv_exec h
    have hz : c.word = 0 := by
      rcases i.word with h | h
      · exact h
      · obtain ⟨x, hx⟩ := i.held h; exact absurd (inside_iff.2 hx) (hf x)
    obtain ⟨op, hw | hw⟩ := hw
    · exact ⟨_, _, t, .swap c t op hw hz, .inr (.inl rfl)⟩
    · exact ⟨_, _, t, .again c t op hw, .inr (.inr hz)⟩
  · simp only [Classical.not_forall, Classical.not_not] at hf
    obtain ⟨x, op, rest, l, hx⟩ := hf
    cases rest with
    | nil => exact ⟨_, _, x, .unlock c x op l hx, .inl ⟨op, [], l, hx⟩⟩
    | cons f rest => exact ⟨_, _, x, .access c x op f rest l hx, .inl ⟨op, _, l, hx⟩⟩

/-- Two goroutines incrementing a number: the second one finds the lock taken, yields, and gets it later. -/
example : let o : Obj Nat Nat Unit Nat := ⟨fun _ => 0, fun _ => [fun x => (x.1, x.1), fun x => (x.2 + 1, x.2)], fun _ l => l⟩
    ∃ c, Exec o 5 [.call 0 (), .call 1 (), .acquire 0, .ret 0 5, .acquire 1, .ret 1 6] c ∧ c.sh = 7 ∧ c.word = 0 := by
  intro o
  have e1 := Exec.step _ (.start (o := o) (s₀ := 5)) (.call _ 0 () rfl)
  have e2 := Exec.step _ e1 (.call _ 1 () rfl)
  have e3 := Exec.step _ e2 (.swap _ 0 () rfl rfl)
  have e4 := Exec.step _ e3 (.fail _ 1 () rfl (by decide))
  have e5 := Exec.step _ e4 (.access _ 0 () _ _ _ rfl)
  have e6 := Exec.step _ e5 (.again _ 1 () rfl)
  have e7 := Exec.step _ e6 (.access _ 0 () _ _ _ rfl)
  have e8 := Exec.step _ e7 (.unlock _ 0 () _ rfl)
  have e9 := Exec.step _ e8 (.swap _ 1 () rfl rfl)
  have e10 := Exec.step _ e9 (.access _ 1 () _ _ _ rfl)
  have e11 := Exec.step _ e10 (.access _ 1 () _ _ _ rfl)
  have e12 := Exec.step _ e11 (.unlock _ 1 () _ rfl)
  exact ⟨_, e12, rfl, rfl⟩

end Monkit.Spin
