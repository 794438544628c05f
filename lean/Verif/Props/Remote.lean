import Verif.Proofs.Remote

/-!
# C86: `/trace/remote`
-/

namespace Monkit.Remote
open Go

variable {traceOf : Nat → Nat} {accepts : Nat → Bool}

/-- **C86**.  The request does not use a trace it does not have. -/
theorem C86_no_crash {tr : List Ev} {s : State} (h : Exec (Step traceOf accepts) init tr s) : Ev.ends .crash ∉ tr := by
  intro hc
  obtain ⟨a, b, hab⟩ := List.append_of_mem hc
  obtain ⟨s1, s2, h1, st, _⟩ := h.split a _ b hab
  have hm := of_ends st rfl
  rcases (inv_exec h1).res .crash (by simp [hm]) with ⟨T, g, _⟩ | ⟨e, g, _⟩
  · simp at g
  · simp at g

/-- **C86**.  However many spans match at the same time, at most one trace is marked as sampled, once, and it is the trace of a matching span;
its callback is called at most once, after that, and no other trace's callback is. -/
theorem C86_one_trace {tr : List Ev} {s : State} (h : Exec (Step traceOf accepts) init tr s) :
    (samples tr = [] ∨ ∃ t y, samples tr = [(t, y)] ∧ accepts y = true) ∧ (callbacks tr = [] ∨ callbacks tr = samples tr) ∧
    ∀ a b t y, tr = a ++ .callback t y :: b → Ev.sampled t y ∈ a := by
  have i := inv_exec h
  refine ⟨?_, i.cbs, fun a b t y hab => ?_⟩
  · cases hT : s.trace with
    | none => exact Or.inl (i.tnone hT).1
    | some T =>
      rcases i.tsome T hT with ⟨t, y, g1, _, g3, _⟩ | ⟨g, _⟩
      · exact Or.inr ⟨t, y, g1, g3⟩
      · exact Or.inl g
  · obtain ⟨s1, s2, h1, st, _⟩ := h.split a _ b hab
    have hm := of_callback st rfl
    have g := ((inv_exec h1).look t y (Or.inr hm)).1
    have : (t, y) ∈ samples a := by simp [g]
    simp only [samples, List.mem_filterMap] at this
    obtain ⟨e, he, he'⟩ := this
    cases e <;> simp at he'
    obtain ⟨rfl, rfl⟩ := he'
    exact he

/-- **C86**.  When the request answers with a trace, that trace has been marked as sampled and belongs to a matching span, and the search is over. -/
theorem C86_trace {tr : List Ev} {s : State} (h : Exec (Step traceOf accepts) init tr s) {a b : List Ev} {T : Nat} (hab : tr = a ++ .ends (.trace T) :: b) :
    (∃ t y, Ev.sampled t y ∈ a ∧ traceOf y = T ∧ accepts y = true) ∧ Ev.find .ret ∈ a := by
  obtain ⟨s1, s2, h1, st, _⟩ := h.split a _ b hab
  have hm := of_ends st rfl
  have i := inv_exec h1
  refine ⟨?_, ?_⟩
  · rcases i.res (.trace T) (by simp [hm]) with ⟨T', g, g2, g3⟩ | ⟨e, g, _⟩
    · simp only [Res.trace.injEq] at g
      subst g
      rcases i.tsome T g2 with ⟨t, y, q1, q2, q3, _⟩ | ⟨q, _⟩
      · refine ⟨t, y, ?_, q2, q3⟩
        have : (t, y) ∈ samples a := by simp [q1]
        simp only [samples, List.mem_filterMap] at this
        obtain ⟨e, he, he'⟩ := this
        cases e <;> simp at he'
        obtain ⟨rfl, rfl⟩ := he'
        exact he
      · exact absurd q g3
    · simp at g
  · have hr := (FindSpan.inv_exec (find_exec h1)).ret.2 (i.main (by simp [hm]))
    simp only [findOf, List.mem_filterMap] at hr
    obtain ⟨e, he, he'⟩ := hr
    cases e <;> simp at he'
    subst he'
    exact he

/-- **C86**.  When the request answers with an error, it is that of the first ping that failed. -/
theorem C86_error {tr : List Ev} {s : State} (h : Exec (Step traceOf accepts) init tr s) {a b : List Ev} {e : KeepAlive.Err}
    (hab : tr = a ++ .ends (.err e) :: b) : KeepAlive.Spec.FirstError (kaOf a) e := by
  obtain ⟨s1, s2, h1, st, _⟩ := h.split a _ b hab
  have hm := of_ends st rfl
  rcases (inv_exec h1).res (.err e) (by simp [hm]) with ⟨T', g, _⟩ | ⟨e', g, g'⟩
  · simp at g
  · simp only [Res.err.injEq] at g
    subst g
    obtain ⟨p, q, hpq⟩ := List.append_of_mem g'
    have hk : kaOf a = kaOf p ++ .stopRet 0 (some e) :: kaOf q := by rw [hpq]; simp [kaOf]
    have hF := ((KeepAlive.C58_stop_result (ka_exec h1) hk).1 e).1 rfl
    obtain ⟨x, o, y, g1, g2, g3⟩ := hF
    exact ⟨x, o, y ++ .stopRet 0 (some e) :: kaOf q, by rw [hk, g1]; simp, g2, g3⟩

/-- What the matcher knows while it is asked about `y`. -/
def MPC.about (accepts : Nat → Bool) (y : Nat) : MPC → Prop
  | .none => False
  | .pre z => z = y
  | .want z | .test z | .set z | .look z | .call z => z = y ∧ accepts y = true
  | .unlock | .unlockFailed | .failed => accepts y = true
  | .done b => b = accepts y

theorem find_asking {f f' : FindSpan.State} {e : Option FindSpan.Ev} (st : FindSpan.Step f e f') (own : ∀ x, e = some x → FindSpan.Ev.own x = true)
    {t y : Nat} (h : f'.pc t = .asking y) : f.pc t = .asking y := by
  cases st <;> simp only [FindSpan.upd_apply] at h <;> first | exact h | skip
  all_goals first
    | (split at h
       · first | (have := own _ rfl; cases this; done) | (cases h; done)
       · exact h)

theorem about_step {s s' : State} {e : Option Ev} (i : ∀ t y, s.f.pc t = .asking y → (s.m t).about accepts y) (st : Step traceOf accepts s e s') :
    ∀ t y, s'.f.pc t = .asking y → (s'.m t).about accepts y := by
  cases st with
  | ka | stop | stopOk | stopErr | mlock | use | crash | munlock | last | lastRet | ends => exact i
  | find e f' st own => exact fun t y h => i t y (find_asking st own h)
  | ctx f' st h =>
    intro t y h
    cases st
    exact i t y h
  | found f' st h =>
    intro t y h
    cases st
    exact i t y h
  | ask t y f' st =>
    cases st
    intro u z h
    simp only [FindSpan.upd_apply] at h ⊢
    split at h
    · next c => cases h; rw [if_pos c]; rfl
    · next c => rw [if_neg c]; exact i u z h
  | answer t y b f' st h | fails t y f' st h =>
    cases st <;> (
      intro u z h
      simp only [FindSpan.upd_apply] at h ⊢
      split at h
      · cases h
      · next c => rw [if_neg c]; exact i u z h)
  | no t y h a | yes t y h a | lock t y h a | old t y h a | new t y h a | sampled t y h | noCallback t y h | hasCallback t y h | callback t y h | unlock t h | callbackPanics t y h | unlockFailed t h =>
    intro u z hz
    have hi := i u z hz
    simp only [FindSpan.upd_apply]
    split
    · next c =>
      subst c
      rw [h] at hi
      simp only [MPC.about] at hi ⊢
      grind
    · exact hi

/-- **C86**.  The search is told the truth: the answer given about a span is whether it matches. -/
theorem C86_matcher {tr : List Ev} {s : State} (h : Exec (Step traceOf accepts) init tr s) {t y : Nat} {b : Bool} (hb : Ev.find (.answer t y b) ∈ tr) :
    b = accepts y := by
  obtain ⟨p, q, hpq⟩ := List.append_of_mem hb
  obtain ⟨s1, s2, h1, st, _⟩ := h.split p _ q hpq
  have i := Exec.induct (fun _ s => ∀ t y, s.f.pc t = .asking y → (s.m t).about accepts y) (fun t y h => by cases h) (fun _ _ _ _ hi st => about_step hi st) h1
  generalize he : some (Ev.find (.answer t y b)) = e at st
  cases st with
  | answer t' y' b' f' st hm =>
    simp only [Option.some.injEq, Ev.find.injEq, FindSpan.Ev.answer.injEq] at he
    obtain ⟨rfl, rfl, rfl⟩ := he
    have ha : s1.f.pc t = .asking y := by cases st <;> assumption
    have := i t y ha
    rw [hm] at this
    exact this
  | find e f' st own =>
    cases e with
    | none => cases he
    | some x =>
      simp only [Option.map_some, Option.some.injEq, Ev.find.injEq] at he
      have := own x rfl
      rw [← he] at this
      cases this
  | ka e k' st own => cases e <;> cases he
  | _ => cases he

/-- Two spans match at the same time; the trace of one is sampled and returned. -/
example : ∃ s a, Exec (Step (fun y => 100 + y) (fun _ => true)) init (a ++ [.ends (.trace 111)]) s ∧ Ev.find (.ask 0 10) ∈ a ∧ Ev.find (.ask 1 11) ∈ a ∧
    samples a = [(1, 11)] ∧ callbacks a = [(1, 11)] := by
  have e := Exec.start (step := Step (fun y => 100 + y) (fun _ => true)) (s₀ := init)
  have e := e.step _ (.find _ (some (.start 0 10)) _ (.start _ 0 10 rfl) (by simp [FindSpan.Ev.own]))
  have e := e.step _ (.find _ (none) _ (.loadZero _ 0 10 rfl rfl) (by simp [FindSpan.Ev.own]))
  have e := e.step _ (.find _ (some (.start 1 11)) _ (.start _ 1 11 rfl) (by simp [FindSpan.Ev.own]))
  have e := e.step _ (.find _ (none) _ (.loadZero _ 1 11 rfl rfl) (by simp [FindSpan.Ev.own]))
  have e := e.step _ (.ask _ 0 10 _ (.ask _ 0 10 rfl))
  have e := e.step _ (.ask _ 1 11 _ (.ask _ 1 11 rfl))
  have e := e.step _ (.yes _ 0 10 rfl rfl)
  have e := e.step _ (.yes _ 1 11 rfl rfl)
  have e := e.step _ (.lock _ 1 11 rfl rfl)
  have e := e.step _ (.new _ 1 11 rfl rfl)
  have e := e.step _ (.sampled _ 1 11 rfl)
  have e := e.step _ (.hasCallback _ 1 11 rfl)
  have e := e.step _ (.callback _ 1 11 rfl)
  have e := e.step _ (.unlock _ 1 rfl)
  have e := e.step _ (.lock _ 0 10 rfl rfl)
  have e := e.step _ (.old _ 0 10 rfl (by decide))
  have e := e.step _ (.unlock _ 0 rfl)
  have e := e.step _ (.answer _ 0 10 true _ (.yes _ 0 10 rfl) rfl)
  have e := e.step _ (.find _ (none) _ (.swapZero _ 0 10 rfl rfl) (by simp [FindSpan.Ev.own]))
  have e := e.step _ (.find _ (none) _ (.close _ 0 10 rfl) (by simp [FindSpan.Ev.own]))
  have e := e.step _ (.find _ (none) _ (.selectDone _ rfl (by decide)) (by simp [FindSpan.Ev.own]))
  have e := e.step _ (.find _ (some .detach) _ (.detach _ rfl) (by simp [FindSpan.Ev.own]))
  have e := e.step _ (.find _ (none) _ (.mswapSet _ rfl rfl) (by simp [FindSpan.Ev.own]))
  have e := e.step _ (.found _ _ (.ret _ rfl) rfl)
  have e := e.step _ (.stop _ _ (.stopCall _ 0 rfl) rfl)
  have e := e.step _ (.ka _ (none) _ (.onceFirst _ 0 rfl rfl) (by simp [KeepAlive.Event.own]))
  have e := e.step _ (.ka _ (none) _ (.close _ 0 rfl rfl) (by simp [KeepAlive.Event.own]))
  have e := e.step _ (.ka _ (none) _ (.stopLock _ 0 rfl rfl) (by simp [KeepAlive.Event.own]))
  have e := e.step _ (.ka _ (none) _ (.stopSet _ 0 rfl) (by simp [KeepAlive.Event.own]))
  have e := e.step _ (.ka _ (none) _ (.stopRead _ 0 rfl) (by simp [KeepAlive.Event.own]))
  have e := e.step _ (.stopOk _ _ (.stopRet _ 0 none rfl) rfl)
  have e := e.step _ (.mlock _ rfl rfl)
  have e := e.step _ (.use _ 111 rfl rfl)
  have e := e.step _ (.munlock _ _ rfl)
  have e := e.step _ (.last _ _ _ (.stopCall _ 0 rfl) rfl)
  have e := e.step _ (.ka _ (none) _ (.onceDone _ 0 rfl rfl) (by simp [KeepAlive.Event.own]))
  have e := e.step _ (.ka _ (none) _ (.stopLock _ 0 rfl rfl) (by simp [KeepAlive.Event.own]))
  have e := e.step _ (.ka _ (none) _ (.stopSet _ 0 rfl) (by simp [KeepAlive.Event.own]))
  have e := e.step _ (.ka _ (none) _ (.stopRead _ 0 rfl) (by simp [KeepAlive.Event.own]))
  have e := e.step _ (.lastRet _ _ none _ (.stopRet _ 0 none rfl) rfl)
  have e := e.step _ (.ends _ _ rfl)
  exact ⟨_, _, e, by decide, by decide, by decide, by decide⟩

/-- The client goes away. -/
example : ∃ s a, Exec (Step (fun y => 100 + y) (fun _ => true)) init (a ++ [.ends (.err 7)]) s := by
  have e := Exec.start (step := Step (fun y => 100 + y) (fun _ => true)) (s₀ := init)
  have e := e.step _ (.ka _ (none) _ (.selectTick _ rfl) (by simp [KeepAlive.Event.own]))
  have e := e.step _ (.ka _ (none) _ (.lock _ rfl rfl) (by simp [KeepAlive.Event.own]))
  have e := e.step _ (.ka _ (none) _ (.checkGo _ rfl rfl rfl) (by simp [KeepAlive.Event.own]))
  have e := e.step _ (.ka _ (some .ping) _ (.ping _ rfl) (by simp [KeepAlive.Event.own]))
  have e := e.step _ (.ka _ (some (.pong (.err 7))) _ (.pongErr _ (.err 7) 7 rfl rfl) (by simp [KeepAlive.Event.own]))
  have e := e.step _ (.ka _ (none) _ (.setErr _ 7 rfl) (by simp [KeepAlive.Event.own]))
  have e := e.step _ (.ka _ (none) _ (.unlockErr _ rfl) (by simp [KeepAlive.Event.own]))
  have e := e.step _ (.ka _ (some .cancel) _ (.cancel _ rfl) (by simp [KeepAlive.Event.own]))
  have e := e.step _ (.ctx _ _ (.ctxDone _) rfl)
  have e := e.step _ (.find _ (none) _ (.selectCtx _ rfl rfl) (by simp [FindSpan.Ev.own]))
  have e := e.step _ (.find _ (some .detach) _ (.detach _ rfl) (by simp [FindSpan.Ev.own]))
  have e := e.step _ (.find _ (none) _ (.mswapZero _ rfl rfl) (by simp [FindSpan.Ev.own]))
  have e := e.step _ (.find _ (none) _ (.mclose _ rfl) (by simp [FindSpan.Ev.own]))
  have e := e.step _ (.found _ _ (.ret _ rfl) rfl)
  have e := e.step _ (.stop _ _ (.stopCall _ 0 rfl) rfl)
  have e := e.step _ (.ka _ (none) _ (.onceFirst _ 0 rfl rfl) (by simp [KeepAlive.Event.own]))
  have e := e.step _ (.ka _ (none) _ (.close _ 0 rfl rfl) (by simp [KeepAlive.Event.own]))
  have e := e.step _ (.ka _ (none) _ (.stopLock _ 0 rfl rfl) (by simp [KeepAlive.Event.own]))
  have e := e.step _ (.ka _ (none) _ (.stopSet _ 0 rfl) (by simp [KeepAlive.Event.own]))
  have e := e.step _ (.ka _ (none) _ (.stopRead _ 0 rfl) (by simp [KeepAlive.Event.own]))
  have e := e.step _ (.stopErr _ _ 7 (.stopRet _ 0 (some 7) rfl) rfl)
  have e := e.step _ (.last _ _ _ (.stopCall _ 0 rfl) rfl)
  have e := e.step _ (.ka _ (none) _ (.onceDone _ 0 rfl rfl) (by simp [KeepAlive.Event.own]))
  have e := e.step _ (.ka _ (none) _ (.stopLock _ 0 rfl rfl) (by simp [KeepAlive.Event.own]))
  have e := e.step _ (.ka _ (none) _ (.stopSet _ 0 rfl) (by simp [KeepAlive.Event.own]))
  have e := e.step _ (.ka _ (none) _ (.stopRead _ 0 rfl) (by simp [KeepAlive.Event.own]))
  have e := e.step _ (.lastRet _ _ (some 7) _ (.stopRet _ 0 (some 7) rfl) rfl)
  have e := e.step _ (.ends _ _ rfl)
  exact ⟨_, _, e⟩

end Monkit.Remote
