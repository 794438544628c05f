import Verif.Model.Clash

/-!
# C118: asking for a name that is taken by another kind of source
-/

namespace Monkit.Clash
open Go

/-- The lock is held. -/
def PC.holds : PC → Bool
  | .locked | .assign .. | .copying .. | .unlock => true
  | _ => false

/-- What holds in every state reached. -/
structure Inv (kind : Nat → Kind) (s : State) : Prop where
  owner : ∀ n, (s.pc n).holds = true → s.lock = some n
  writer : ∀ m, (s.maps m).writing = true → ∃ n e, s.pc n = .assign m e
  writing : ∀ n m e, s.pc n = .assign m e → (s.maps m).writing = true ∧ m < s.next ∧ kind n = .call (some e) false
  cur : s.cur < s.next
  format : ∀ n m r, s.pc n = .formatting m r → ∃ c, kind n = .access c ∧ c.kind ≠ .func
  res : ∀ n r c, s.pc n = .over r → kind n = .access c → (r = .ret ↔ c.kind = .func)
  accessor : ∀ n c, kind n = .access c → s.pc n ≠ .wait ∧ (s.pc n).holds = false

theorem Inv.init {kind : Nat → Kind} : Inv kind init := by
  constructor <;> simp [Clash.init, PC.holds]

/-- A step that touches no map and no goroutine inside an assignment. -/
theorem writer_keep {maps : Nat → GoMap} {pc : Nat → PC} {n : Nat} {p : PC} (h : ∀ m e, pc n ≠ .assign m e)
    (wr : ∀ m, (maps m).writing = true → ∃ n e, pc n = .assign m e) : ∀ m, (maps m).writing = true → ∃ k e, upd pc n p k = .assign m e := by
  intro m hm
  obtain ⟨k, e, hk⟩ := wr m hm
  have : k ≠ n := fun he => h m e (he ▸ hk)
  exact ⟨k, e, by rw [upd_other _ _ this]; exact hk⟩

theorem Inv.step {kind : Nat → Kind} {s s' : State} (i : Inv kind s) (st : Step kind s s') : Inv kind s' := by
  obtain ⟨ow, wr, wg, cu, fo, re, ac⟩ := i
  cases st with
  | begin n live hk h => refine ⟨?_, writer_keep (by simp [h]) wr, ?_, ?_, ?_, ?_, ?_⟩ <;> simp only [upd] at * <;> grind [PC.holds]
  | lock n live h free => refine ⟨?_, writer_keep (by simp [h]) wr, ?_, ?_, ?_, ?_, ?_⟩ <;> simp only [upd] at * <;> grind [PC.holds]
  | noError n e p live hk hn h => refine ⟨?_, writer_keep (by simp [h]) wr, ?_, ?_, ?_, ?_, ?_⟩ <;> simp only [upd] at * <;> grind [PC.holds]
  | assign n e live hk h hw =>
    refine ⟨?_, fun m hm => ?_, ?_, ?_, ?_, ?_, ?_⟩
    case refine_2 =>
      by_cases hc : m = s.cur
      · exact ⟨n, e, by rw [hc]; exact upd_same _ _ _⟩
      · exact writer_keep (by simp [h]) wr m (by rw [← upd_other s.maps _ hc]; exact hm)
    all_goals simp only [upd] at * <;> grind [PC.holds]
  | assignFatal n e live hk h hw => exact ⟨ow, wr, wg, cu, fo, re, ac⟩
  | assigned n m e live h =>
    refine ⟨?_, fun m' hm => ?_, ?_, ?_, ?_, ?_, ?_⟩
    case refine_2 =>
      dsimp only at hm ⊢
      by_cases hc : m' = m
      · subst hc; rw [upd_same] at hm; cases hm
      · rw [upd_other _ _ hc] at hm
        obtain ⟨k, e', hk⟩ := wr m' hm
        have : k ≠ n := fun he => by rw [he, h] at hk; cases hk; exact hc rfl
        exact ⟨k, e', by rw [upd_other _ _ this]; exact hk⟩
    all_goals simp only [upd] at * <;> grind [PC.holds]
  | reset n live hk h =>
    refine ⟨?_, fun m hm => ?_, ?_, ?_, ?_, ?_, ?_⟩
    case refine_2 =>
      dsimp only at hm ⊢
      by_cases hc : m = s.next
      · subst hc; rw [upd_same] at hm; cases hm
      · exact writer_keep (by simp [h]) wr m (by rw [← upd_other s.maps _ hc]; exact hm)
    all_goals simp only [upd] at * <;> grind [PC.holds]
  | copy n ord live hk h ho => refine ⟨?_, writer_keep (by simp [h]) wr, ?_, ?_, ?_, ?_, ?_⟩ <;> simp only [upd] at * <;> grind [PC.holds]
  | copyNext n m x rest live h hw => refine ⟨?_, writer_keep (by simp [h]) wr, ?_, ?_, ?_, ?_, ?_⟩ <;> simp only [upd] at * <;> grind [PC.holds]
  | copyFatal n m x rest live h hw => exact ⟨ow, wr, wg, cu, fo, re, ac⟩
  | copied n m live h => refine ⟨?_, writer_keep (by simp [h]) wr, ?_, ?_, ?_, ?_, ?_⟩ <;> simp only [upd] at * <;> grind [PC.holds]
  | unlock n live h => refine ⟨?_, writer_keep (by simp [h]) wr, ?_, ?_, ?_, ?_, ?_⟩ <;> simp only [upd] at * <;> grind [PC.holds]
  | found n c live hk hf h => refine ⟨?_, writer_keep (by simp [h]) wr, ?_, ?_, ?_, ?_, ?_⟩ <;> simp only [upd] at * <;> grind [PC.holds]
  | format n c ord live hk hf h ho => refine ⟨?_, writer_keep (by simp [h]) wr, ?_, ?_, ?_, ?_, ?_⟩ <;> simp only [upd] at * <;> grind [PC.holds]
  | formatNext n m x rest live h hw => refine ⟨?_, writer_keep (by simp [h]) wr, ?_, ?_, ?_, ?_, ?_⟩ <;> simp only [upd] at * <;> grind [PC.holds]
  | formatFatal n m x rest live h hw => exact ⟨ow, wr, wg, cu, fo, re, ac⟩
  | panic n m live h => refine ⟨?_, writer_keep (by simp [h]) wr, ?_, ?_, ?_, ?_, ?_⟩ <;> simp only [upd] at * <;> grind [PC.holds]

theorem Reach.inv {kind : Nat → Kind} {s : State} (h : Reach kind s) : Inv kind s := by
  induction h with
  | start => exact .init
  | step _ st ih => exact ih.step st

/-- **C118 (partial).** The program is ended by the runtime only while an accessor that found its name taken by a function formats it, and a call of that function ends with an error
at the same moment.  So without accessors asking for a function's name as another kind it never is.  The full statement – the program is never ended – is false of the
code (`C118_crash_violated`). -/
theorem C118_crash_partial {kind : Nat → Kind} {s : State} (h : Reach kind s) (hd : s.dead = true) :
    ∃ n c m r k e, kind n = .access c ∧ c.kind ≠ .func ∧ s.pc n = .formatting m r ∧ kind k = .call (some e) false ∧ s.pc k = .assign m e := by
  cases h with
  | start => cases hd
  | step h st =>
    have i := h.inv
    cases st <;> try (simp_all; done)
    case assignFatal n e live hk h hw =>
      obtain ⟨k, e', hk'⟩ := i.writer _ hw
      have h1 := i.owner n (by simp [h, PC.holds])
      have h2 := i.owner k (by simp [hk', PC.holds])
      have : n = k := by rw [h1] at h2; exact Option.some.inj h2
      subst this
      rw [h] at hk'; cases hk'
    case copyFatal n m x rest live h hw =>
      obtain ⟨k, e', hk'⟩ := i.writer _ hw
      have h1 := i.owner n (by simp [h, PC.holds])
      have h2 := i.owner k (by simp [hk', PC.holds])
      have : n = k := by rw [h1] at h2; exact Option.some.inj h2
      subst this
      rw [h] at hk'; cases hk'
    case formatFatal n m x rest live h hw =>
      obtain ⟨k, e', hk'⟩ := i.writer _ hw
      obtain ⟨c, hc, hf⟩ := i.format _ _ _ h
      exact ⟨n, c, m, _, k, e', hc, hf, h, (i.writing _ _ _ hk').2.2, hk'⟩

/-- Without accessors asking for a function's name as another kind, the program goes on whatever calls, `Reset`s and readings there are at once. -/
theorem C118_no_clash_partial {kind : Nat → Kind} {s : State} (h : Reach kind s) (hk : ∀ n c, kind n = .access c → c.kind = .func) : s.dead = false := by
  by_contra hd
  obtain ⟨n, c, _, _, _, _, hn, hc, _⟩ := C118_crash_partial h (by simpa using hd)
  exact hc (hk n c hn)

/-- An accessor that is done has returned if a function was asked for, and panicked if something else was. -/
theorem C118_result {kind : Nat → Kind} {s : State} (h : Reach kind s) {n : Nat} {c : Scope.Call} {r : Res} (hk : kind n = .access c) (ho : s.pc n = .over r) :
    r = if c.kind = .func then .ret else .panic := by
  have := h.inv.res n r c ho hk
  split
  · exact this.2 ‹_›
  · cases r
    · exact absurd (this.1 rfl) ‹_›
    · rfl

/-- A call of a function fails with an error while another goroutine asks for a meter of that name: `mon.Meter("func:x")` after `mon.FuncNamed("x")`. -/
def clash : Nat → Kind
  | 2 => .access ⟨.meter, b!"func:x", []⟩
  | _ => .call (some b!"EOF") false

/-- The meter's name is the string under which the function is registered. -/
example : (⟨.meter, b!"func:x", []⟩ : Scope.Call).key = (⟨.func, b!"x", []⟩ : Scope.Call).key := by decide

/-- The first call has been recorded. -/
def one : State := ⟨upd (upd Clash.init.maps 0 ⟨[], true⟩) 0 ⟨[(b!"EOF", 1)], false⟩, 0, 1, none, false,
  upd (upd (upd (upd (upd Clash.init.pc 0 .wait) 0 .locked) 0 (.assign 0 b!"EOF")) 0 .unlock) 0 (.over .ret)⟩

theorem reach_one : Reach clash one := by
  have h1 := Reach.start.step (Step.begin (kind := clash) init 0 rfl (fun _ h => by cases h) rfl)
  have h2 := h1.step (Step.lock _ 0 rfl rfl rfl)
  have h3 := h2.step (Step.assign _ 0 b!"EOF" rfl rfl rfl rfl)
  have h4 := h3.step (Step.assigned _ 0 0 b!"EOF" rfl rfl)
  have h5 := h4.step (Step.unlock _ 0 rfl rfl)
  exact h5

/-- **C118 is false of the code**: asking for a meter under a name taken by a function, while a call of that function ends with an error, ends the program. -/
theorem C118_crash_violated : ∃ (kind : Nat → Kind) (s : State), Reach kind s ∧ s.dead = true := by
  have h1 := reach_one.step (Step.format (kind := clash) one 2 ⟨.meter, b!"func:x", []⟩ [(b!"EOF", 1)] rfl rfl (by decide) rfl (List.Perm.refl _))
  have h2 := h1.step (Step.begin _ 1 rfl (fun _ h => by cases h) rfl)
  have h3 := h2.step (Step.lock _ 1 rfl rfl rfl)
  have h4 := h3.step (Step.assign _ 1 b!"EOF" rfl rfl rfl rfl)
  exact ⟨_, _, h4.step (Step.formatFatal _ 2 0 (b!"EOF", 1) [] rfl rfl rfl), rfl⟩

/-- And a clash that meets no failing call is a panic: the hypotheses of `C118_result` hold of a run in which a function has been called, then a meter is asked for. -/
example : ∃ s, Reach clash s ∧ s.dead = false ∧ s.pc 2 = .over .panic := by
  have h1 := reach_one.step (Step.format (kind := clash) one 2 ⟨.meter, b!"func:x", []⟩ [(b!"EOF", 1)] rfl rfl (by decide) rfl (List.Perm.refl _))
  have h2 := h1.step (Step.formatNext _ 2 0 (b!"EOF", 1) [] rfl rfl rfl)
  exact ⟨_, h2.step (Step.panic _ 2 0 rfl rfl), rfl, rfl⟩

end Monkit.Clash

namespace Monkit.ClashStruct
open Go

/-- The lock is held. -/
def PC.holds : PC → Bool
  | .typ | .data | .unlock => true
  | _ => false

/-- A value somebody has observed, or nil. -/
def Known (kind : Nat → Kind) (v : Iface) : Prop := v = ⟨0, 0⟩ ∨ ∃ n, kind n = .observe v

/-- **C118 (partial), structs.** Whenever no `Observe` is between its `Lock` and its `Unlock`, the two words of a `StructVal` are those of one value that was observed, or nil: an accessor that reads both
in such a moment formats that.  The full statement is that what is formatted always is such a value; it is false of the code (`C118_torn_violated`). -/
theorem C118_struct_partial {kind : Nat → Kind} {s : State} (h : Reach kind s) (free : s.lock = none) : Known kind s.recent := by
  suffices i : (∀ n, (s.pc n).holds = true → s.lock = some n) ∧ (s.lock = none → Known kind s.recent) ∧
      (∀ n, s.lock = some n → (s.pc n = .typ ∧ Known kind s.recent) ∨ (s.pc n = .data ∧ ∃ v, kind n = .observe v ∧ s.recent.typ = v.typ) ∨
        (s.pc n = .unlock ∧ Known kind s.recent)) from i.2.1 free
  clear free
  induction h with
  | start => exact ⟨fun n h => by simp [init, PC.holds] at h, fun _ => .inl rfl, fun n h => by simp [init] at h⟩
  | step _ st ih =>
    obtain ⟨ow, fr, he⟩ := ih
    cases st with
    | observe n v hk h => refine ⟨?_, ?_, ?_⟩ <;> simp only [upd] at * <;> grind [PC.holds]
    | lock n h free => refine ⟨?_, ?_, ?_⟩ <;> simp only [upd] at * <;> grind [PC.holds]
    | typ n v hk h => refine ⟨?_, ?_, ?_⟩ <;> simp only [upd] at * <;> grind [PC.holds]
    | data n v hk h =>
      have hn := ow n (by simp [h, PC.holds])
      have hd := he n hn
      have key : Known kind ⟨(State.recent ‹_›).typ, v.data⟩ := by
        rcases hd with ⟨h1, _⟩ | ⟨_, v', hv', ht⟩ | ⟨h1, _⟩
        · rw [h] at h1; cases h1
        · rw [hk] at hv'
          cases hv'
          exact .inr ⟨n, by rw [hk, ht]⟩
        · rw [h] at h1; cases h1
      refine ⟨?_, ?_, ?_⟩ <;> simp only [upd] at * <;> grind [PC.holds]
    | unlock n h => refine ⟨?_, ?_, ?_⟩ <;> simp only [upd] at * <;> grind [PC.holds]
    | read n hk h => refine ⟨?_, ?_, ?_⟩ <;> simp only [upd] at * <;> grind [PC.holds]
    | panic n t h => refine ⟨?_, ?_, ?_⟩ <;> simp only [upd] at * <;> grind [PC.holds]

/-- Two values of different types are observed while another goroutine asks for the name as another kind. -/
def two : Nat → Kind
  | 0 => .observe ⟨1, 10⟩
  | 1 => .observe ⟨2, 20⟩
  | _ => .access

/-- **C118 is false of the code**, structs: an accessor that finds its name taken by a `StructVal` can format the data of one value as if it had the type of another, which nobody ever observed. -/
theorem C118_torn_violated : ∃ (kind : Nat → Kind) (s : State) (n : Nat) (v : Iface), Reach kind s ∧ s.pc n = .panicked v ∧ ¬ Known kind v := by
  have h1 := Reach.start.step (Step.observe (kind := two) init 0 ⟨1, 10⟩ rfl rfl)
  have h2 := h1.step (Step.lock _ 0 rfl rfl)
  have h3 := h2.step (Step.typ _ 0 ⟨1, 10⟩ rfl rfl)
  have h4 := h3.step (Step.data _ 0 ⟨1, 10⟩ rfl rfl)
  have h5 := h4.step (Step.unlock _ 0 rfl)
  have h6 := h5.step (Step.read _ 2 rfl rfl)
  have h7 := h6.step (Step.observe _ 1 ⟨2, 20⟩ rfl rfl)
  have h8 := h7.step (Step.lock _ 1 rfl rfl)
  have h9 := h8.step (Step.typ _ 1 ⟨2, 20⟩ rfl rfl)
  have h10 := h9.step (Step.data _ 1 ⟨2, 20⟩ rfl rfl)
  refine ⟨two, _, 2, ⟨1, 20⟩, h10.step (Step.panic _ 2 1 rfl), rfl, ?_⟩
  rintro (h | ⟨n, h⟩)
  · cases h
  · match n with
    | 0 => cases h
    | 1 => cases h
    | _ + 2 => cases h

/-- After both observations, with no one in between, the words are those of the second value. -/
example : ∃ s, Reach two s ∧ s.lock = none ∧ s.recent = ⟨2, 20⟩ := by
  have h1 := Reach.start.step (Step.observe (kind := two) init 1 ⟨2, 20⟩ rfl rfl)
  have h2 := h1.step (Step.lock _ 1 rfl rfl)
  have h3 := h2.step (Step.typ _ 1 ⟨2, 20⟩ rfl rfl)
  have h4 := h3.step (Step.data _ 1 ⟨2, 20⟩ rfl rfl)
  exact ⟨_, h4.step (Step.unlock _ 1 rfl), rfl, rfl⟩

end Monkit.ClashStruct
