import Verif.Props.RemoteReturns

/-!
# C86: callbacks that panic

The callback is code of the user; when it panics, the deferred unlock runs and the panic leaves `Start` of the span, in the goroutine that starts it.
-/

namespace Monkit.Remote
open Go Returns

variable {traceOf : Nat → Nat} {accepts : Nat → Bool}

/-- The callback has panicked. -/
def MPC.bad : MPC → Bool
  | .unlockFailed | .failed => true
  | _ => false

structure PInv (tr : List Ev) (s : State) : Prop where
  bad : ∀ t, (s.m t).bad = true → (∀ u z, Ev.find (.panicked u z) ∉ tr) ∧ ∃ y, s.f.pc t = .asking y ∧ Ev.callback t y ∈ tr
  one : ∀ t u, (s.m t).bad = true → (s.m u).bad = true → t = u
  after : ∀ u z, Ev.find (.panicked u z) ∈ tr → ∃ t y, Ev.callback t y ∈ tr

theorem find_stays {f f' : FindSpan.State} {e : Option FindSpan.Ev} (st : FindSpan.Step f e f') (own : ∀ x, e = some x → FindSpan.Ev.own x = true)
    {t y : Nat} (h : f.pc t = .asking y) : f'.pc t = .asking y := by
  cases st <;> simp only [FindSpan.upd_apply] <;> first | exact h | skip
  all_goals first | (have := own _ rfl; cases this; done) | grind

/-- A step in which no callback panics or is called and no start panics. -/
theorem pinv_keep {tr : List Ev} {s s' : State} {e : Option Ev} (ih : PInv tr s) (he : ∀ u z, e ≠ some (.find (.panicked u z)))
    (hb : ∀ t, (s'.m t).bad = true → (s.m t).bad = true) (ha : ∀ t y, (s'.m t).bad = true → s.f.pc t = .asking y → s'.f.pc t = .asking y) :
    PInv (tr ++ e.toList) s' := by
  obtain ⟨h1, h2, h3⟩ := ih
  have old : ∀ u z, Ev.find (.panicked u z) ∈ tr ++ e.toList → Ev.find (.panicked u z) ∈ tr := by
    intro u z hm
    rcases List.mem_append.1 hm with hm | hm
    · exact hm
    · exact absurd (by simpa using hm) (he u z)
  refine ⟨fun t ht => ?_, fun t u ht hu => h2 t u (hb t ht) (hb u hu), fun u z hm => ?_⟩
  · obtain ⟨g, y, g1, g2⟩ := h1 t (hb t ht)
    exact ⟨fun u z hm => g u z (old u z hm), y, ha t y ht g1, List.mem_append_left _ g2⟩
  · obtain ⟨t, y, g⟩ := h3 u z (old u z hm)
    exact ⟨t, y, List.mem_append_left _ g⟩

theorem pinv_step {tr : List Ev} {s s' : State} {e : Option Ev} (i : Inv traceOf accepts tr s)
    (about : ∀ t y, s.f.pc t = .asking y → (s.m t).about accepts y) (ih : PInv tr s) (st : Step traceOf accepts s e s') : PInv (tr ++ e.toList) s' := by
  cases st with
  | ka e k' st own => exact pinv_keep ih (by cases e <;> simp) (fun _ h => h) (fun _ _ _ h => h)
  | find e f' st own =>
    refine pinv_keep ih ?_ (fun _ h => h) (fun _ _ _ h => find_stays st own h)
    intro u z he
    cases e with
    | none => cases he
    | some x =>
      simp only [Option.map_some, Option.some.injEq, Ev.find.injEq] at he
      have := own x rfl
      rw [he] at this
      cases this
  | ctx f' st h | found f' st h => cases st; exact pinv_keep ih (by simp) (fun _ h => h) (fun _ _ _ h => h)
  | ask t y f' st =>
    cases st with
    | ask _ _ hp =>
      refine pinv_keep ih (by simp) ?_ ?_ <;> simp only [FindSpan.upd_apply] <;> grind [MPC.bad]
  | answer t y b f' st hb =>
    cases st <;> refine pinv_keep ih (by simp) ?_ ?_ <;> simp only [FindSpan.upd_apply] <;> grind [MPC.bad]
  | fails t y f' st hb =>
    cases st with
    | panics _ _ hp =>
      obtain ⟨h1, h2, h3⟩ := ih
      have none' : ∀ u, (upd s.m t .none u).bad = true → False := by
        intro u hu
        simp only [FindSpan.upd_apply] at hu
        split at hu
        · cases hu
        · next c => exact c (h2 u t hu (by simp [hb, MPC.bad]))
      refine ⟨fun u hu => (none' u hu).elim, fun u _ hu => (none' u hu).elim, fun u z _ => ?_⟩
      obtain ⟨_, y, _, g⟩ := h1 t (by simp [hb, MPC.bad])
      exact ⟨t, y, List.mem_append_left _ g⟩
  | callbackPanics t y hq =>
    obtain ⟨h1, h2, h3⟩ := ih
    have hc := (i.look t y (Or.inr hq)).2
    have no : ∀ u z, Ev.callback u z ∉ tr := by
      intro u z hm
      have : (u, z) ∈ callbacks tr := List.mem_filterMap.2 ⟨_, hm, rfl⟩
      rw [hc] at this; cases this
    have nob : ∀ u, (s.m u).bad = true → False := fun u hu => by
      obtain ⟨_, z, _, g⟩ := h1 u hu
      exact no u z g
    have only : ∀ u, (upd s.m t .unlockFailed u).bad = true → u = t := by
      intro u hu
      simp only [FindSpan.upd_apply] at hu
      split at hu
      · assumption
      · exact (nob u hu).elim
    refine ⟨fun u hu => ?_, fun u v hu hv => (only u hu).trans (only v hv).symm, fun _ _ _ => ⟨t, y, by simp⟩⟩
    obtain rfl := only u hu
    refine ⟨fun v z hm => ?_, y, ?_, by simp⟩
    · have hm : Ev.find (.panicked v z) ∈ tr := by simpa using hm
      obtain ⟨_, _, g⟩ := h3 v z hm
      exact no _ _ g
    · obtain ⟨z, hz⟩ := i.inside u (by simp [hq])
      have := about u z hz
      rw [hq] at this
      rw [this.1]; exact hz
  | no t y hq | yes t y hq | lock t y hq | old t y hq | new t y hq | sampled t y hq | noCallback t y hq | hasCallback t y hq | callback t y hq | unlock t hq | unlockFailed t hq =>
    refine pinv_keep ih (by simp) ?_ (fun _ _ _ h => h)
    simp only [FindSpan.upd_apply]
    grind [MPC.bad]
  | _ => exact pinv_keep ih (by simp) (fun _ h => h) (fun _ _ _ h => h)

theorem pinv_exec {tr : List Ev} {s : State} (h : Exec (Step traceOf accepts) init tr s) : PInv tr s := by
  have key : Inv traceOf accepts tr s ∧ (∀ t y, s.f.pc t = .asking y → (s.m t).about accepts y) ∧ PInv tr s := by
    induction h with
    | start => exact ⟨inv_init, fun t y h => (by cases h), (by constructor <;> simp [init, MPC.bad])⟩
    | step e h st ih => exact ⟨inv_exec (h.step e st), about_step ih.2.1 st, pinv_step ih.1 ih.2.1 ih.2.2 st⟩
  exact key.2.2

/-- **C86**, callbacks that panic: the start of a span panics only after the callback was called by it, for that span; at most one does in the whole request. -/
theorem C86_panic {tr : List Ev} {s : State} (h : Exec (Step traceOf accepts) init tr s) {a b : List Ev} {t y : Nat}
    (hab : tr = a ++ .find (.panicked t y) :: b) : Ev.callback t y ∈ a ∧ Ev.sampled t y ∈ a ∧ ∀ u z, Ev.find (.panicked u z) ∉ a ∧ Ev.find (.panicked u z) ∉ b := by
  have at_fail : ∀ {a : List Ev} {b : List Ev} {t y}, tr = a ++ .find (.panicked t y) :: b → ∃ s1, Exec (Step traceOf accepts) init a s1 ∧ s1.m t = .failed ∧ s1.f.pc t = .asking y := by
    intro a b t y hab
    obtain ⟨s1, s2, h1, st, _⟩ := h.split a _ b hab
    refine ⟨s1, h1, ?_⟩
    generalize he : some (Ev.find (.panicked t y)) = e at st
    cases st with
    | fails t' y' f' st hm =>
      simp only [Option.some.injEq, Ev.find.injEq, FindSpan.Ev.panicked.injEq] at he
      obtain ⟨rfl, rfl⟩ := he
      exact ⟨hm, by cases st; assumption⟩
    | find e f' st own =>
      cases e with
      | none => cases he
      | some x =>
        simp only [Option.map_some, Option.some.injEq, Ev.find.injEq] at he
        have := own x rfl
        rw [← he] at this
        cases this
    | ka e k' st own => cases e <;> cases he
    | _ => cases he
  obtain ⟨s1, h1, hm, hp⟩ := at_fail hab
  obtain ⟨g, y', hp', hc⟩ := (pinv_exec h1).bad t (by simp [hm, MPC.bad])
  rw [hp] at hp'
  cases hp'
  refine ⟨hc, ?_, fun u z => ⟨g u z, fun hb => ?_⟩⟩
  · obtain ⟨p, q, hpq⟩ := List.append_of_mem hc
    have := (C86_one_trace h1).2.2 p q t y hpq
    rw [hpq]
    exact List.mem_append_left _ this
  · obtain ⟨p, q, rfl⟩ := List.append_of_mem hb
    obtain ⟨s2, h2, hm2, _⟩ := at_fail (a := a ++ .find (.panicked t y) :: p) (b := q) (t := u) (y := z) (by rw [hab]; simp)
    exact ((pinv_exec h2).bad u (by simp [hm2, MPC.bad])).1 t y (by simp)

/-- Nothing wakes the request. -/
theorem still {s s' : State} {e : Option Ev} (st : Step traceOf accepts s e s') (hm : s.main = .finding) (hw : s.f.main = .watch) (hc : s.f.closes = 0)
    (hx : s.f.ctxDone = false) (hk : s.k.thr 0 = .idle) : at_ s' 1 = at_ s 1 := by
  cases st with
  | ka e k' st own =>
    have : k'.thr 0 = s.k.thr 0 := by
      cases st with
      | stopCall j hj => cases own _ rfl
      | stopRet j r hj => cases own _ rfl
      | onceFirst j hj | onceDone j hj | close j hj | closeAgain j hj | stopLock j hj | stopSet j hj | stopRead j hj =>
        refine upd_other _ _ ?_
        rintro rfl
        rw [hk] at hj; cases hj
      | _ => rfl
    simp [at_, this]
  | find e f' st own =>
    have : f'.main = s.f.main := by
      cases st <;> first | rfl | simp_all
    simp [at_, this]
  | ctx f' st h => cases st; rfl
  | ask t y f' st => cases st; rfl
  | answer t y b f' st => cases st <;> rfl
  | fails t y f' st => cases st; rfl
  | found f' st h => cases st with | ret h => rw [hw] at h; cases h
  | stop _ _ h | stopOk _ _ h | stopErr _ _ _ h | mlock h | use _ h | crash h | munlock _ h | last _ _ _ h | lastRet _ _ _ _ h => rw [hm] at h; cases h
  | _ => rfl

/-- **C86**, callbacks that panic: the request does not learn of the span that was found.  Its trace has been marked as sampled, nobody starts spans any more,
and yet no step whatever takes the request out of its wait; only a later span that matches, or a failing ping, does. -/
theorem C86_panic_waits : ∃ tr s, Exec (Step (fun y => 100 + y) (fun _ => true)) init tr s ∧ samples tr = [(0, 10)] ∧ Ev.find (.panicked 0 10) ∈ tr ∧
    (∀ t, s.f.pc t = .idle) ∧ s.main = .finding ∧ s.f.main = .watch ∧ ∀ e s', Step (fun y => 100 + y) (fun _ => true) s e s' → at_ s' 1 = at_ s 1 := by
  have e := Exec.start (step := Step (fun y => 100 + y) (fun _ => true)) (s₀ := init)
  have e := e.step _ (.find _ (some (.start 0 10)) _ (.start _ 0 10 rfl) (by simp [FindSpan.Ev.own]))
  have e := e.step _ (.find _ (none) _ (.loadZero _ 0 10 rfl rfl) (by simp [FindSpan.Ev.own]))
  have e := e.step _ (.ask _ 0 10 _ (.ask _ 0 10 rfl))
  have e := e.step _ (.yes _ 0 10 rfl rfl)
  have e := e.step _ (.lock _ 0 10 rfl rfl)
  have e := e.step _ (.new _ 0 10 rfl rfl)
  have e := e.step _ (.sampled _ 0 10 rfl)
  have e := e.step _ (.hasCallback _ 0 10 rfl)
  have e := e.step _ (.callbackPanics _ 0 10 rfl)
  have e := e.step _ (.unlockFailed _ 0 rfl)
  have e := e.step _ (.fails _ 0 10 _ (.panics _ 0 10 rfl) rfl)
  refine ⟨_, _, e, by decide, by simp, fun t => ?_, rfl, rfl, fun e' s' st => ?_⟩
  · by_cases ht : t = 0
    · subst ht; rfl
    · simp [upd, ht, init, FindSpan.init]
  · exact still st rfl rfl rfl rfl rfl

/-- A later span that matches lets the request answer, with the trace whose callback panicked. -/
example : ∃ s a, Exec (Step (fun y => 100 + y) (fun _ => true)) init a s ∧ Ev.find (.panicked 0 10) ∈ a ∧ Ev.find (.answer 1 11 true) ∈ a ∧
    s.trace = some 110 := by
  have e := Exec.start (step := Step (fun y => 100 + y) (fun _ => true)) (s₀ := init)
  have e := e.step _ (.find _ (some (.start 0 10)) _ (.start _ 0 10 rfl) (by simp [FindSpan.Ev.own]))
  have e := e.step _ (.find _ (none) _ (.loadZero _ 0 10 rfl rfl) (by simp [FindSpan.Ev.own]))
  have e := e.step _ (.ask _ 0 10 _ (.ask _ 0 10 rfl))
  have e := e.step _ (.yes _ 0 10 rfl rfl)
  have e := e.step _ (.lock _ 0 10 rfl rfl)
  have e := e.step _ (.new _ 0 10 rfl rfl)
  have e := e.step _ (.sampled _ 0 10 rfl)
  have e := e.step _ (.hasCallback _ 0 10 rfl)
  have e := e.step _ (.callbackPanics _ 0 10 rfl)
  have e := e.step _ (.unlockFailed _ 0 rfl)
  have e := e.step _ (.fails _ 0 10 _ (.panics _ 0 10 rfl) rfl)
  have e := e.step _ (.find _ (some (.start 1 11)) _ (.start _ 1 11 rfl) (by simp [FindSpan.Ev.own]))
  have e := e.step _ (.find _ (none) _ (.loadZero _ 1 11 rfl rfl) (by simp [FindSpan.Ev.own]))
  have e := e.step _ (.ask _ 1 11 _ (.ask _ 1 11 rfl))
  have e := e.step _ (.yes _ 1 11 rfl rfl)
  have e := e.step _ (.lock _ 1 11 rfl rfl)
  have e := e.step _ (.old _ 1 11 rfl (by decide))
  have e := e.step _ (.unlock _ 1 rfl)
  have e := e.step _ (.answer _ 1 11 true _ (.yes _ 1 11 rfl) rfl)
  exact ⟨_, _, e, by simp, by simp, rfl⟩

end Monkit.Remote
