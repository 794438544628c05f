import Verif.Model.Wrap

/-!
# C53: the recorded status code
-/

namespace Monkit.Wrap

/-- A final status code, as net/http accepts them. -/
def Final (code : Int) : Prop := 200 ≤ code ∧ code ≤ 999 ∨ code = 101

/-- The handler calls `WriteHeader` at most once, before anything else, and with a final code. -/
inductive Orderly : List Op → Prop where
  | silent (l : List Op) : (∀ c, Op.writeHeader c ∉ l) → Orderly l
  | coded (code : Int) (l : List Op) : Final code → (∀ c, Op.writeHeader c ∉ l) → Orderly (.writeHeader code :: l)

theorem run_snoc (ops : List Op) (op : Op) : run (ops ++ [op]) = step (run ops) op := by simp [run]

theorem run_tail (code : Int) (s : State) (hs : s = ⟨some code, code⟩) (hc : code ≠ 0) (l : List Op) (h : ∀ c, Op.writeHeader c ∉ l) :
    l.foldl step s = ⟨some code, code⟩ := by
  induction l generalizing s with
  | nil => exact hs
  | cons op l ih =>
    rw [List.foldl_cons]
    apply ih
    · subst hs
      cases op with
      | writeHeader c => exact absurd (by simp) (h c)
      | write => simp [step, netWriteHeader, hc]
      | flush => simp [step, netWriteHeader]
    · intro c hm; exact h c (by simp [hm])

theorem run_silent (s : State) (hs : (s.sent = none ∨ s.sent = some 200) ∧ (s.sc = 0 ∨ s.sc = 200)) (l : List Op) (h : ∀ c, Op.writeHeader c ∉ l) :
    ((l.foldl step s).sent = none ∨ (l.foldl step s).sent = some 200) ∧ ((l.foldl step s).sc = 0 ∨ (l.foldl step s).sc = 200) := by
  induction l generalizing s with
  | nil => exact hs
  | cons op l ih =>
    rw [List.foldl_cons]
    apply ih
    · obtain ⟨h1, h2⟩ := hs
      cases op with
      | writeHeader c => exact absurd (by simp) (h c)
      | write =>
        rcases h1 with h1 | h1 <;> rcases h2 with h2 | h2 <;> simp [step, netWriteHeader, h1, h2, informational]
      | flush =>
        rcases h1 with h1 | h1 <;> rcases h2 with h2 | h2 <;> simp [step, netWriteHeader, h1, h2, informational]
    · intro c hm; exact h c (by simp [hm])

/-- **C53**.  The recorded status code is the one the client got, for handlers that call `WriteHeader` at most once, first, with a final code.

Partial: the full statement is for every handler; see `C53_twice_violated`, `C53_flush_violated` and `C53_informational_violated`. -/
theorem C53_recorded_partial (ops : List Op) (h : Orderly ops) : recorded ops = sentCode ops := by
  cases h with
  | silent _ hn =>
    have := run_silent .init ⟨.inl rfl, .inl rfl⟩ ops hn
    unfold recorded sentCode run
    rcases this with ⟨h1 | h1, h2 | h2⟩ <;> simp [h1, h2]
  | coded code l hf hn =>
    have hc : code ≠ 0 := by rcases hf with h | h <;> omega
    have hi : informational code = false := by
      unfold informational
      rcases hf with h | h
      · simp; omega
      · simp; omega
    have := run_tail code (step .init (.writeHeader code)) (by simp [step, State.init, netWriteHeader, hi]) hc l hn
    unfold recorded sentCode run
    rw [List.foldl_cons, this]
    simp [hc]

/-- What is recorded in general: the code of the last `WriteHeader`, if it is not 0. -/
theorem C53_last_code (ops : List Op) (code : Int) (l : List Op) (hc : code ≠ 0) (hn : ∀ c, Op.writeHeader c ∉ l) :
    recorded (ops ++ .writeHeader code :: l) = code := by
  have : ∀ (l : List Op) (s : State), s.sc = code → (∀ c, Op.writeHeader c ∉ l) → (l.foldl step s).sc = code := by
    intro l
    induction l with
    | nil => intro s h _; exact h
    | cons op l ih =>
      intro s h hn
      rw [List.foldl_cons]
      apply ih
      · cases op with
        | writeHeader c => exact absurd (by simp) (hn c)
        | write => simp [step, h, hc]
        | flush => simp [step, h]
      · intro c hm; exact hn c (by simp [hm])
  have e := this l (step (run ops) (.writeHeader code)) rfl hn
  unfold recorded run
  rw [List.foldl_append, List.foldl_cons]
  change (if (List.foldl step (step (run ops) (.writeHeader code)) l).sc = 0 then 200 else (List.foldl step (step (run ops) (.writeHeader code)) l).sc) = code
  rw [e, if_neg hc]

/-- What is sent in general: the first final code decides. -/
theorem C53_first_code (before after : List Op) (code : Int) (hf : Final code)
    (hb : ∀ op ∈ before, ∃ c, op = .writeHeader c ∧ informational c = true) : sentCode (before ++ .writeHeader code :: after) = code := by
  have hi : informational code = false := by
    unfold informational
    rcases hf with h | h
    · simp; omega
    · simp; omega
  have h1 : ∀ (l : List Op) (s : State), s.sent = none → (∀ op ∈ l, ∃ c, op = .writeHeader c ∧ informational c = true) → (l.foldl step s).sent = none := by
    intro l
    induction l with
    | nil => intro s h _; exact h
    | cons op l ih =>
      intro s h hl
      obtain ⟨c, rfl, hc⟩ := hl op (by simp)
      rw [List.foldl_cons]
      exact ih _ (by simp [step, netWriteHeader, h, hc]) (fun o ho => hl o (by simp [ho]))
  have h2 : ∀ (l : List Op) (s : State), s.sent = some code → (l.foldl step s).sent = some code := by
    intro l
    induction l with
    | nil => intro s h; exact h
    | cons op l ih =>
      intro s h
      rw [List.foldl_cons]
      exact ih _ (by cases op <;> simp [step, netWriteHeader, h])
  unfold sentCode run
  rw [List.foldl_append, List.foldl_cons, h2]
  · rfl
  · simp [step, netWriteHeader, h1 before .init rfl hb, hi]

/-- C53 fails when a handler calls `WriteHeader` again: two different codes, and the recorded one was never sent. -/
theorem C53_twice_violated (c c' : Int) (hc : Final c) (hc' : Final c') (hne : c ≠ c') :
    sentCode [.writeHeader c, .writeHeader c'] = c ∧ recorded [.writeHeader c, .writeHeader c'] = c' ∧
      recorded [.writeHeader c, .writeHeader c'] ≠ sentCode [.writeHeader c, .writeHeader c'] := by
  have h1 := C53_first_code [] [.writeHeader c'] c hc (by simp)
  have h2 := C53_last_code [.writeHeader c] c' [] (by rcases hc' with h | h <;> omega) (by simp)
  refine ⟨h1, h2, ?_⟩
  intro e
  exact hne (h1.symm.trans (e.symm.trans h2))

/-- C53 fails when the handler flushes (or writes) before calling `WriteHeader`: the client got 200. -/
theorem C53_flush_violated : sentCode [.flush, .writeHeader 404] = 200 ∧ recorded [.flush, .writeHeader 404] = 404 ∧
    sentCode [.write, .writeHeader 500] = 200 ∧ recorded [.write, .writeHeader 500] = 500 := by decide

/-- C53 fails when the handler sends an informational code and then just writes: it is recorded as the final one. -/
theorem C53_informational_violated : sentCode [.writeHeader 103, .write] = 200 ∧ recorded [.writeHeader 103, .write] = 103 := by decide

example : Orderly [.writeHeader 404, .write, .flush] := .coded 404 _ (.inl (by decide)) (by simp)
example : recorded [.writeHeader 404, .write, .flush] = 404 ∧ recorded [.write] = 200 ∧ recorded [] = 200 := by decide

end Monkit.Wrap
