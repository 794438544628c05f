import Verif.Props.WatchSpans
import Verif.Props.Returns.Collect

/-!
# C87: `WatchForSpans` can always return
-/

namespace Returns
open Go
variable {S E P : Type} {step : S → Option E → S → Prop} {pc : S → Nat → P} {idle : P → Prop}

/-- A schedule in which nobody starts a call. -/
inductive Settling (step : S → Option E → S → Prop) (pc : S → Nat → P) (idle : P → Prop) (s : S) : S → Prop where
  | start : Settling step pc idle s s
  | step {s' e s''} : Settling step pc idle s s' → step s' e s'' → NoCall pc idle s' s'' → Settling step pc idle s s''

/-- If all calls return there is a schedule after which nobody is in a call. -/
theorem settles {s : S} (h : AllReturn step pc idle s) : ∃ s', Settling step pc idle s s' ∧ ∀ t, idle (pc s' t) := by
  obtain ⟨b, hb⟩ := h
  have key : ∀ k n s', Run step pc idle s n s' → n + k = b → Settling step pc idle s s' → ∃ s', Settling step pc idle s s' ∧ ∀ t, idle (pc s' t) := by
    intro k
    induction k with
    | zero =>
      intro n s' r hn q
      refine ⟨s', q, fun t => ?_⟩
      by_contra ht
      obtain ⟨e, s'', st, nc, hne⟩ := (hb n s' r).2 ⟨t, ht⟩
      have := (hb _ _ (r.move st nc hne)).1
      omega
    | succ k ih =>
      intro n s' r hn q
      by_cases hh : ∃ t, ¬ idle (pc s' t)
      · obtain ⟨e, s'', st, nc, hne⟩ := (hb n s' r).2 hh
        exact ih (n + 1) s'' (r.move st nc hne) (by omega) (q.step st nc)
      · exact ⟨s', q, fun t => Classical.not_not.1 fun ht => hh ⟨t, ht⟩⟩
  exact key b 0 s .start (by omega) .start

end Returns

namespace Monkit.WatchSpans
open Go Returns
open Collector (starts finishes)

variable {traceOf : Nat → Nat} {accepts : Nat → Bool} {idOf : Nat → Int} {parentOf : Nat → Option Int}

/-- In the cancel function. -/
def Cancels : AllTraces.PC → Prop
  | .cwant | .cstop | .cloop _ => True
  | _ => False

/-- In the call of `Stop`. -/
def Stops : Collector.PC → Prop
  | .swap none | .close none | .ret none => True
  | _ => False

/-- Where the goroutine of `WatchForSpans` is in the parts. -/
structure Where (s : State) : Prop where
  stop : (∀ r, s.main ≠ .stopping r) → s.c.pc 0 = .idle
  stopping : ∀ r, s.main = .stopping r → Stops (s.c.pc 0)
  cancelling : ∀ r, s.main = .cancelling r → ∃ t, Cancels (s.a.pc t)

theorem cancels_step {a a' : AllTraces.State} {e : Option AllTraces.Ev} (st : AllTraces.Step a e a') (he : e ≠ some .cancelReturn) {t : Nat}
    (h : Cancels (a.pc t)) : Cancels (a'.pc t) := by
  cases st
  case cunlock => exact absurd rfl he
  all_goals
    simp only [upd_apply]
    split
    · rename_i hu; subst hu; simp_all [Cancels]
    · exact h

theorem cancel_call {a a' : AllTraces.State} (st : AllTraces.Step a (some .cancelCall) a') : ∃ t, a.pc t = .idle ∧ Cancels (a'.pc t) := by
  generalize he : some AllTraces.Ev.cancelCall = e at st
  cases st <;> first | (cases he; done) | skip
  exact ⟨_, ‹_›, by simp [Cancels]⟩

theorem stops_step {c c' : Collector.State} {e : Option Collector.Ev} (st : Collector.Step traceOf c e c') (he : e ≠ some (.stopRet 0))
    (h : Stops (c.pc 0)) : Stops (c'.pc 0) := by
  cases st
  all_goals
    simp only [upd_apply]
    split
    · rename_i hu; subst hu
      first
        | (simp_all [Stops]; done)
        | (rename Option Nat => y; cases y <;> simp_all [Stops, Collector.retEv])
    · exact h

theorem stop_call {c c' : Collector.State} (st : Collector.Step traceOf c (some (.stopCall 0)) c') : Stops (c'.pc 0) := by
  generalize he : some (Collector.Ev.stopCall 0) = e at st
  cases st <;> first | (cases he; done) | skip
  · cases he; simp [Stops]
  · rename Option Nat => y
    cases y <;> simp [Collector.retEv] at he

theorem stop_ret {c c' : Collector.State} (st : Collector.Step traceOf c (some (.stopRet 0)) c') : c'.pc 0 = .idle := by
  generalize he : some (Collector.Ev.stopRet 0) = e at st
  cases st <;> first | (cases he; done) | skip
  rename Option Nat => y
  cases y <;> simp [Collector.retEv] at he
  subst he
  simp

theorem where_exec {tr : List Ev} {s : State} (h : Exec (Step traceOf accepts idOf parentOf) init tr s) : Where s := by
  refine h.induct (fun _ s => Where s) ⟨fun _ => rfl, by simp [init], by simp [init]⟩ ?_
  intro tr s e s' ⟨w1, w2, w3⟩ st
  cases st with
  | coll e c' st own idle =>
    refine ⟨fun h => idle (w1 h), fun r hr => stops_step st (fun he => ?_) (w2 r hr), w3⟩
    have := own _ he
    simp [collOwn] at this
  | all e a' st own =>
    refine ⟨w1, w2, fun r hr => ?_⟩
    obtain ⟨t, ht⟩ := w3 r hr
    refine ⟨t, cancels_step st (fun he => ?_) ht⟩
    have := own _ he
    simp [allOwn] at this
  | ctxDone => exact ⟨w1, w2, w3⟩
  | selectCtx hm => exact ⟨fun _ => w1 (by simp [hm]), by simp, by simp⟩
  | selectDone hm => exact ⟨fun _ => w1 (by simp [hm]), by simp, by simp⟩
  | spans out hm => exact ⟨fun _ => w1 (by simp [hm]), by simp, by simp⟩
  | cancel r a' st hm =>
    obtain ⟨t, _, ht⟩ := cancel_call st
    exact ⟨fun _ => w1 (by simp [hm]), by simp, fun _ _ => ⟨t, ht⟩⟩
  | cancelled r a' st hm => exact ⟨fun _ => w1 (by simp [hm]), by simp, by simp⟩
  | stop r c' st hm => exact ⟨fun h => absurd rfl (h r), fun _ _ => stop_call st, by simp⟩
  | stopped r c' st hm => exact ⟨fun _ => stop_ret st, by simp, by simp⟩
  | ret r hm => exact ⟨fun _ => w1 (by simp [hm]), by simp, by simp⟩

/-! ## The way out -/

/-- There is a schedule that leads to the return of `WatchForSpans`, in which the context is not cancelled and no span finishes that is not already about to. -/
def CanReturn (traceOf : Nat → Nat) (accepts : Nat → Bool) (idOf : Nat → Int) (parentOf : Nat → Option Int) (s : State) : Prop :=
  ∃ tr' s' r, Exec (Step traceOf accepts idOf parentOf) s tr' s' ∧ .ret r ∈ tr' ∧ .ctxDone ∉ tr' ∧ ∀ t y, Ev.coll (.finishCall t y) ∉ tr'

theorem CanReturn.after {s s' : State} {e : Option Ev} (st : Step traceOf accepts idOf parentOf s e s') (h1 : e ≠ some .ctxDone)
    (h2 : ∀ t y, e ≠ some (.coll (.finishCall t y))) (h : CanReturn traceOf accepts idOf parentOf s') : CanReturn traceOf accepts idOf parentOf s := by
  obtain ⟨tr, s'', r, ex, g1, g2, g3⟩ := h
  refine ⟨_, s'', r, (Exec.step _ .start st).append ex, by simp [g1], ?_, ?_⟩
  · cases e <;> simp_all [eq_comm]
  · intro t y
    have := h2 t y
    cases e <;> simp_all [eq_comm]

theorem from_out {s : State} {r : Res} (h : s.main = .out r) : CanReturn traceOf accepts idOf parentOf s :=
  ⟨_, _, r, Exec.step _ .start (.ret s r h), by simp, by simp, by simp⟩

theorem noForce_one {p : Nat → Collector.PC} {t : Nat} {v : Collector.PC} (hv : p t ≠ .idle) : ∀ u y, p u = .idle → upd p t v u ≠ .scas y :=
  noForce_of rfl fun h => absurd h hv

theorem from_stopping {s : State} {r : Res} (h : s.main = .stopping r) (hp : Stops (s.c.pc 0)) : CanReturn traceOf accepts idOf parentOf s := by
  have ret : ∀ s : State, s.main = .stopping r → s.c.pc 0 = .ret none → CanReturn traceOf accepts idOf parentOf s := by
    intro s h hp
    exact .after (.stopped s r _ (.ret s.c 0 none hp) h) (by simp) (by simp) (from_out rfl)
  have close : ∀ s : State, s.main = .stopping r → s.c.pc 0 = .close none → CanReturn traceOf accepts idOf parentOf s := by
    intro s h hp
    exact .after (.coll s none _ (.close s.c 0 none hp) (by simp) (by simp [hp]) (noForce_one (by simp [hp])) (yes_of rfl (by simp [hp]))) (by simp) (by simp)
      (ret _ h (by simp))
  cases hq : s.c.pc 0 with
  | swap y =>
    cases y with
    | some y => simp [hq, Stops] at hp
    | none =>
      by_cases hc : s.c.check = .done
      · exact .after (.coll s none _ (.swapDone s.c 0 none hq hc) (by simp) (by simp [hq]) (noForce_one (by simp [hq])) (yes_of rfl (by simp [hq]))) (by simp) (by simp)
          (ret _ h (by simp))
      · exact .after (.coll s none _ (.swapNew s.c 0 none hq hc) (by simp) (by simp [hq]) (noForce_one (by simp [hq])) (yes_of rfl (by simp [hq]))) (by simp) (by simp)
          (close _ h (by simp))
  | close y =>
    cases y with
    | some y => simp [hq, Stops] at hp
    | none => exact close s h hq
  | ret y =>
    cases y with
    | some y => simp [hq, Stops] at hp
    | none => exact ret s h hq
  | _ => simp [hq, Stops] at hp

theorem from_stop {s : State} {r : Res} (h : s.main = .stop r) (hp : s.c.pc 0 = .idle) : CanReturn traceOf accepts idOf parentOf s :=
  .after (.stop s r _ (.stop s.c 0 hp) h) (by simp) (by simp) (from_stopping rfl (by simp [Stops]))

theorem from_cancelling {tra : List AllTraces.Ev} {s : State} {r : Res} {t : Nat} (ha : Exec AllTraces.Step AllTraces.init tra s.a) (h : s.main = .cancelling r)
    (hp : s.c.pc 0 = .idle) (ht : Cancels (s.a.pc t)) : CanReturn traceOf accepts idOf parentOf s := by
  obtain ⟨a', q, hi⟩ := settles (AllTraces.C109_all_traces ha)
  have key : CanReturn traceOf accepts idOf parentOf s ∨
      (Cancels (a'.pc t) ∧ (CanReturn traceOf accepts idOf parentOf { s with a := a' } → CanReturn traceOf accepts idOf parentOf s)) := by
    clear hi
    induction q with
    | start => exact Or.inr ⟨ht, id⟩
    | @step a1 e a2 q st nc ih =>
      rcases ih with ih | ⟨ih, back⟩
      · exact Or.inl ih
      · by_cases he : e = some .cancelReturn
        · subst he
          exact Or.inl (back (.after (.cancelled _ r a2 st h) (by simp) (by simp) (from_stop rfl hp)))
        · refine Or.inr ⟨cancels_step st he ih, fun c => back (.after (.all _ e a2 st ?_ (fun h0 => by rw [nc 0 h0]; exact h0)) ?_ ?_ c)⟩
          · intro x hx
            subst hx
            cases x with
            | cancelCall =>
              obtain ⟨u, hu, hu'⟩ := cancel_call st
              rw [nc u hu, hu] at hu'
              simp [Cancels] at hu'
            | cancelReturn => exact absurd rfl he
            | _ => rfl
          · cases e <;> simp
          · cases e <;> simp
  rcases key with k | ⟨k, _⟩
  · exact k
  · rw [show a'.pc t = .idle from hi t] at k
    simp [Cancels] at k

theorem from_cancel {tra : List AllTraces.Ev} {s : State} {r : Res} (ha : Exec AllTraces.Step AllTraces.init tra s.a) (h : s.main = .cancel r)
    (hp : s.c.pc 0 = .idle) : CanReturn traceOf accepts idOf parentOf s := by
  obtain ⟨N, hN⟩ := Returns.finite (step := AllTraces.Step) (pc := AllTraces.State.pc) (idle := (· = .idle)) (s₀ := AllTraces.init) (fun _ => rfl)
    (fun tr s e s' _ st => by cases st <;> exact ⟨_, fun u hu => upd_other _ _ hu⟩) ha
  have st := AllTraces.Step.cancel s.a N (hN N (Nat.le_refl _))
  exact .after (.cancel s r _ st h) (by simp) (by simp) (from_cancelling (t := N) (ha.step _ st) rfl hp (by simp [Cancels]))

theorem told {tr : List Ev} {s : State} (h : Exec (Step traceOf accepts idOf parentOf) init tr s) :
    (.ctxDone ∈ tr → s.ctxDone = true) ∧ (s.main = .returned → ∃ r, .ret r ∈ tr) := by
  refine h.induct (fun tr s => (.ctxDone ∈ tr → s.ctxDone = true) ∧ (s.main = .returned → ∃ r, .ret r ∈ tr)) (by simp [init]) ?_
  intro tr s e s' ⟨h1, h2⟩ st
  cases st with
  | coll e => cases e <;> simp_all
  | all e => cases e <;> simp_all
  | ret r hm => exact ⟨by simp_all, fun _ => ⟨r, by simp⟩⟩
  | _ => simp_all

/-- **C87**, returning: once the context has been cancelled or the root of the collection has finished, `WatchForSpans` cannot be kept from returning: whatever
others are doing, there is a schedule in which it returns although no further span finishes (spans having different ids). -/
theorem C87_returns {tr : List Ev} {s : State} (h : Exec (Step traceOf accepts idOf parentOf) init tr s) (hid : ∀ y z, idOf y = idOf z → y = z)
    (hw : .ctxDone ∈ tr ∨ 0 < s.c.closes) (hn : ∀ r, .ret r ∉ tr) : CanReturn traceOf accepts idOf parentOf s := by
  replace hw := hw.imp_left (told h).1
  replace hn : s.main ≠ .returned := fun e => by obtain ⟨r, hr⟩ := (told h).2 e; exact hn r hr
  have w := where_exec h
  have ha := all_exec h
  have hc := coll_exec h
  have free : ∀ s : State, (∃ tr, Exec AllTraces.Step AllTraces.init tr s.a) → (∃ tr, Exec (Collector.Step traceOf) Collector.init tr s.c) →
      s.main = .spans → s.c.pc 0 = .idle → s.c.mtx = none → CanReturn traceOf accepts idOf parentOf s := by
    rintro s ⟨tra, ha⟩ ⟨trc, hc⟩ hm hp hf
    obtain ⟨out, ho⟩ := Collector.C36_spans_terminates_partial hc idOf parentOf (fun x _ y _ z _ hyz => hid y z hyz)
    exact .after (.spans s out hm hf ho) (by simp) (by simp) (from_cancel ha rfl hp)
  have from_spans : ∀ s : State, (∃ tr, Exec AllTraces.Step AllTraces.init tr s.a) → (∃ tr, Exec (Collector.Step traceOf) Collector.init tr s.c) →
      s.main = .spans → s.c.pc 0 = .idle → CanReturn traceOf accepts idOf parentOf s := by
    rintro s ha ⟨trc, hc⟩ hm hp
    cases hx : s.c.mtx with
    | none => exact free s ha ⟨trc, hc⟩ hm hp hx
    | some t =>
      have hold := ((Collector.inv_exec hc).1.mtx t).1 hx
      have ht : t ≠ 0 := by rintro rfl; simp [hp, Collector.PC.holds] at hold
      have fout : ∀ s : State, (∃ tr, Exec AllTraces.Step AllTraces.init tr s.a) → (∃ tr, Exec (Collector.Step traceOf) Collector.init tr s.c) →
          s.main = .spans → s.c.pc 0 = .idle → ∀ y, s.c.pc t = .fout y → CanReturn traceOf accepts idOf parentOf s := by
        rintro s ha ⟨trc, hc⟩ hm hp y hq
        have st := Collector.Step.fout (traceOf := traceOf) s.c t y hq
        exact .after (.coll s _ _ st (by simp [collOwn]) (by simp [upd, ht.symm]) (noForce_one (by simp [hq])) (yes_of rfl (by simp [hq]))) (by simp) (by simp)
          (free _ ha ⟨_, hc.step _ st⟩ hm (by simp [upd, ht.symm, hp]) rfl)
      have frootOut : ∀ s : State, (∃ tr, Exec AllTraces.Step AllTraces.init tr s.a) → (∃ tr, Exec (Collector.Step traceOf) Collector.init tr s.c) →
          s.main = .spans → s.c.pc 0 = .idle → ∀ y, s.c.pc t = .frootOut y → CanReturn traceOf accepts idOf parentOf s := by
        rintro s ha ⟨trc, hc⟩ hm hp y hq
        have st := Collector.Step.frootOut (traceOf := traceOf) s.c t y hq
        exact .after (.coll s _ _ st (by simp [collOwn]) (by simp [upd, ht.symm]) (noForce_one (by simp [hq])) (yes_of rfl (by simp [hq]))) (by simp) (by simp)
          (free _ ha ⟨_, hc.step _ st⟩ hm (by simp [upd, ht.symm, hp]) rfl)
      have fset : ∀ s : State, (∃ tr, Exec AllTraces.Step AllTraces.init tr s.a) → (∃ tr, Exec (Collector.Step traceOf) Collector.init tr s.c) →
          s.main = .spans → s.c.pc 0 = .idle → ∀ y x, s.c.pc t = .fset y x → CanReturn traceOf accepts idOf parentOf s := by
        rintro s ha ⟨trc, hc⟩ hm hp y x hq
        by_cases hxy : x = y
        · have st := Collector.Step.fsetRoot (traceOf := traceOf) s.c t y x hq hxy
          exact .after (.coll s _ _ st (by simp [collOwn]) (by simp [upd, ht.symm]) (noForce_one (by simp [hq])) (yes_of rfl (by simp [hq]))) (by simp) (by simp)
            (frootOut _ ha ⟨_, hc.step _ st⟩ hm (by simp [upd, ht.symm, hp]) y (by simp))
        · have st := Collector.Step.fsetColl (traceOf := traceOf) s.c t y x hq hxy
          exact .after (.coll s _ _ st (by simp [collOwn]) (by simp [upd, ht.symm]) (noForce_one (by simp [hq])) (yes_of rfl (by simp [hq]))) (by simp) (by simp)
            (fout _ ha ⟨_, hc.step _ st⟩ hm (by simp [upd, ht.symm, hp]) y (by simp))
      cases hq : s.c.pc t with
      | fout y => exact fout s ha ⟨trc, hc⟩ hm hp y hq
      | frootOut y => exact frootOut s ha ⟨trc, hc⟩ hm hp y hq
      | fset y x => exact fset s ha ⟨trc, hc⟩ hm hp y x hq
      | froot y x =>
        by_cases hr : s.c.root = none
        · have st := Collector.Step.frootNil (traceOf := traceOf) s.c t y x hq hr
          exact .after (.coll s _ _ st (by simp [collOwn]) (by simp [upd, ht.symm]) (noForce_one (by simp [hq])) (yes_of rfl (by simp [hq]))) (by simp) (by simp)
            (fset _ ha ⟨_, hc.step _ st⟩ hm (by simp [upd, ht.symm, hp]) y x (by simp))
        · have st := Collector.Step.frootSet (traceOf := traceOf) s.c t y x hq hr
          exact .after (.coll s _ _ st (by simp [collOwn]) (by simp [upd, ht.symm]) (noForce_one (by simp [hq])) (yes_of rfl (by simp [hq]))) (by simp) (by simp)
            (fout _ ha ⟨_, hc.step _ st⟩ hm (by simp [upd, ht.symm, hp]) y (by simp))
      | _ => simp [hq, Collector.PC.holds] at hold
  cases hm : s.main with
  | watch =>
    have hp := w.stop (by simp [hm])
    rcases hw with hw | hw
    · exact .after (.selectCtx s hm hw) (by simp) (by simp) (from_cancel ha rfl hp)
    · exact .after (.selectDone s hm hw) (by simp) (by simp) (from_spans _ ⟨_, ha⟩ ⟨_, hc⟩ rfl hp)
  | spans => exact from_spans s ⟨_, ha⟩ ⟨_, hc⟩ hm (w.stop (by simp [hm]))
  | cancel r => exact from_cancel ha hm (w.stop (by simp [hm]))
  | cancelling r =>
    obtain ⟨t, ht⟩ := w.cancelling r hm
    exact from_cancelling ha hm (w.stop (by simp [hm])) ht
  | stop r => exact from_stop hm (w.stop (by simp [hm]))
  | stopping r => exact from_stopping hm (w.stopping r hm)
  | out r => exact from_out hm
  | returned => exact absurd hm hn

/-- Cancelled at once, while somebody announces a trace. -/
example : ∃ tr s, Exec (Step (fun _ => 7) (fun _ => true) (fun y => y) (fun _ => none)) init tr s ∧ .ctxDone ∈ tr ∧ (∀ r, .ret r ∉ tr) ∧
    s.a.pc 1 ≠ .idle ∧ CanReturn (fun _ => 7) (fun _ => true) (fun y => y) (fun _ => none) s := by
  have e := Exec.start (step := Step (fun _ => 7) (fun _ => true) (fun y => y) (fun _ => none)) (s₀ := init)
  have e := e.step _ (.all _ none _ (.callback _ 1 7 rfl) (by simp [allOwn]) (fun _ => rfl))
  have e := e.step _ (.all _ none _ (.lock _ 1 7 rfl rfl) (by simp [allOwn]) (fun _ => rfl))
  have e := e.step _ (.ctxDone _)
  exact ⟨_, _, e, by simp, by simp, nofun, C87_returns e (fun _ _ h => Int.ofNat.inj h) (Or.inl (by simp)) (by simp)⟩

end Monkit.WatchSpans
