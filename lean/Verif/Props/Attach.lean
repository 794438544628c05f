import Verif.Model.Attach
import Verif.Props.Spans

/-!
# C117: no trace escapes `ObserveAllTraces`
-/

namespace Monkit.Attach
open Go
open Monkit.Spans (Orphaning Joining Ancestor)

theorem reach_sp {P : Program} {s₀ s : State} (h : Steps P s₀ s) (h₀ : Spans.Reach P.W Spans.init s₀.sp) : Spans.Reach P.W Spans.init s.sp := by
  induction h with
  | refl => exact h₀
  | step _ st ih =>
    cases st with
    | span sp' st _ => exact .step ih st
    | _ => exact ih

theorem mem_attach (T U : Nat) (l : List Nat) : U ∈ attach T l ↔ U = T ∨ U ∈ l := by
  unfold attach; split
  · next h => exact ⟨.inr, fun h' => by rcases h' with rfl | h' <;> assumption⟩
  · exact List.mem_cons

theorem attached_mono {P : Program} {s s' : State} (h : Steps P s s') {T : Nat} (hT : T ∈ s.attached) : T ∈ s'.attached := by
  induction h with
  | refl => exact hT
  | step _ st ih =>
    cases st with
    | callback n h => exact (mem_attach _ _ _).mpr (.inr ih)
    | scan n rest h => exact (mem_attach _ _ _).mpr (.inr ih)
    | _ => exact ih

theorem pubd_stable {W : Spans.World} {s s' : Spans.State} (st : Spans.Step W s s') (n : Nat) (h : (s.pc n).pubd = true) : (s'.pc n).pubd = true := by
  cases st <;> simp only [Spans.upd_apply] <;> split <;> first | exact h | (subst_vars; simp_all [Spans.PC.pubd]; done) | (split <;> rfl)

theorem gone_stable {W : Spans.World} {s s' : Spans.State} (st : Spans.Step W s s') (n : Nat) (h : (s.pc n).pubd = true) (hl : (s.pc n).live = false) :
    (s'.pc n).live = false := by
  cases st <;> simp only [Spans.upd_apply] <;> split <;> first | exact hl | (subst_vars; simp_all [Spans.PC.pubd, Spans.PC.live]; try (split <;> simp_all))

/-- What is known of a root span `y` that is listed before the call. -/
def Seen (s : State) (y : Nat) : Prop :=
  (s.sp.pc y).pubd = true ∧ ∀ l, s.main = .orphans l → y ∈ l ∨ (s.sp.pc y).live = false

theorem seen_step {P : Program} {s s' : State} (st : Step P s s') (i : Spans.InvA P.W s.sp) {y : Nat} (hp : P.W.parent y = none) (hr : P.W.reg y = P.reg)
    (h : Seen s y) : Seen s' y := by
  obtain ⟨h1, h2⟩ := h
  cases st with
  | announce n => exact ⟨h1, h2⟩
  | callback n => exact ⟨h1, h2⟩
  | span sp' st _ =>
    refine ⟨pubd_stable st y h1, fun l hl => ?_⟩
    rcases h2 l hl with h | h
    · exact .inl h
    · exact .inr (gone_stable st y h1 h)
  | call h => exact ⟨h1, fun l hl => by cases hl⟩
  | publish h => exact ⟨h1, fun l hl => by cases hl⟩
  | roots o h ho =>
    refine ⟨h1, fun l hl => ?_⟩
    cases hl
    by_cases hlive : (s.sp.pc y).live = true
    · exact .inl (ho.mem_iff.mpr ((i.roots _ _).mpr ⟨hr, hp, hlive⟩))
    · exact .inr (by simpa using hlive)
  | orphans l o h ho => exact ⟨h1, fun l hl => by cases hl⟩
  | scan n rest h => exact ⟨h1, fun l hl => by cases hl⟩
  | ret h => exact ⟨h1, fun l hl => by cases hl⟩

theorem seen_steps {P : Program} {s s' : State} (h : Steps P s s') (h₀ : Spans.Reach P.W Spans.init s.sp) {y : Nat} (hp : P.W.parent y = none)
    (hr : P.W.reg y = P.reg) (hs : Seen s y) : Seen s' y := by
  induction h with
  | refl => exact hs
  | step h st ih => exact seen_step st (Spans.reach_inv (reach_sp h h₀)).1 hp hr ih

/-- After the copies: attached, or still to come. -/
def Coming (P : Program) (T : Nat) (s : State) : Prop :=
  T ∈ s.attached ∨ ∃ rest, s.main = .scan rest ∧ T ∈ rest.map P.W.trace

theorem coming_steps {P : Program} {s s' : State} (h : Steps P s s') {T : Nat} (hs : Coming P T s) : Coming P T s' := by
  induction h with
  | refl => exact hs
  | step _ st ih =>
    rcases ih with h | ⟨rest, h1, h2⟩
    · exact .inl (attached_mono (.step (.refl _) st) h)
    · cases st with
      | announce n => exact .inr ⟨rest, h1, h2⟩
      | callback n => exact .inr ⟨rest, h1, h2⟩
      | span => exact .inr ⟨rest, h1, h2⟩
      | call h => rw [h1] at h; cases h
      | publish h => rw [h1] at h; cases h
      | roots o h => rw [h1] at h; cases h
      | orphans l o h => rw [h1] at h; cases h
      | scan n rest' h =>
        rw [h1] at h; cases h
        rw [List.map_cons, List.mem_cons] at h2
        rcases h2 with rfl | h2
        · exact .inl ((mem_attach _ _ _).mpr (.inl rfl))
        · exact .inr ⟨rest', rfl, h2⟩
      | ret h => rw [h1] at h; cases h; cases h2

/-- A span and what is above it. -/
def UpTo (W : Spans.World) (y x : Nat) : Prop := y = x ∨ Ancestor W y x

theorem upTo_trans {W : Spans.World} {y p x : Nat} (h : UpTo W y p) (hp : W.parent x = some p) : UpTo W y x := by
  rcases h with rfl | h
  · exact .inr (.parent x _ hp)
  · exact .inr (.up x p y hp h)

theorem visible_top {W : Spans.World} {s : Spans.State} (i : Spans.InvA W s) {x : Nat} (h : Spans.Visible s x) :
    ∃ y r, UpTo W y x ∧ (y ∈ s.roots r ∨ y ∈ s.orphans r) := by
  induction h with
  | root r n h => exact ⟨n, r, .inl rfl, .inl h⟩
  | orphan r n h => exact ⟨n, r, .inl rfl, .inr h⟩
  | child p n h _ ih =>
    obtain ⟨y, r, h1, h2⟩ := ih
    exact ⟨y, r, upTo_trans h1 ((Spans.mem_bag i (.refl _) n).mp h).1, h2⟩

theorem pubd_of_ready {pc : Spans.PC} (h : pc.ready = true) : pc.pubd = true := by cases pc <;> simp_all [Spans.PC.ready, Spans.PC.pubd]

theorem upTo_pubd {W : Spans.World} {s : Spans.State} (i : Spans.InvA W s) {y x : Nat} (h : UpTo W y x) (hx : (s.pc x).pubd = true) : (s.pc y).pubd = true := by
  rcases h with rfl | h
  · exact hx
  · induction h with
    | parent n p hp => exact pubd_of_ready (i.par n p (by rintro e; rw [e] at hx; cases hx) hp)
    | up n p a hp _ ih => exact ih (pubd_of_ready (i.par n p (by rintro e; rw [e] at hx; cases hx) hp))

theorem upTo_trace {W : Spans.World} (ht : ∀ n p, W.parent n = some p → W.trace n = W.trace p) {y x : Nat} (h : UpTo W y x) : W.trace y = W.trace x := by
  rcases h with rfl | h
  · rfl
  · induction h with
    | parent n p hp => exact (ht n p hp).symm
    | up n p a hp _ ih => rw [ih, ht n p hp]

/-- **C117**, traces that are there already, the part that holds.  A span `x` is running when `ObserveAllTraces` is called (`s₀`) and when that looks at the orphans (`s₁`),
and at that moment no ancestor of `x` is half way through its exit or its start; then the collector is attached to `x`'s trace when `ObserveAllTraces` has returned, and stays
attached.  (Missing: spans whose start overlaps the call, `C117_starting_violated`, and ancestors half way through, `C117_running_violated`.) -/
theorem C117_present_partial {P : Program} {s₀ s₁ s₁' s : State} {x : Nat} {l rest : List Nat} (ht : ∀ n p, P.W.parent n = some p → P.W.trace n = P.W.trace p)
    (hreg : ∀ a, a = x ∨ Ancestor P.W a x → P.W.reg a = P.reg)
    (h₀ : Steps P init s₀) (hi : s₀.main = .idle) (hx₀ : s₀.sp.pc x = .running)
    (h₁ : Steps P s₀ s₁) (hm : s₁.main = .orphans l) (hx₁ : s₁.sp.pc x = .running) (hq : ∀ a, Ancestor P.W a x → ¬ Orphaning s₁.sp a ∧ ¬ Joining s₁.sp a)
    (look : Step P s₁ s₁') (hm' : s₁'.main = .scan rest)
    (h₂ : Steps P s₁' s) (hret : s.main = .returned) : P.W.trace x ∈ s.attached := by
  have r₀ := reach_sp h₀ (.start)
  have r₁ := reach_sp h₁ r₀
  obtain ⟨a, b⟩ := Spans.reach_inv r₁
  obtain ⟨y, r, hy, hyr⟩ := visible_top a (Spans.C25_always_visible_partial r₁ x hx₁ hq)
  have hry : P.W.reg y = P.reg := hreg y hy
  have htr := upTo_trace ht hy
  suffices hc : Coming P (P.W.trace x) s₁' by
    rcases coming_steps h₂ hc with h | ⟨_, h, _⟩
    · exact h
    · rw [hret] at h; cases h
  have key : y ∈ l ∨ y ∈ s₁.sp.orphans P.reg := by
    rcases hyr with h | h
    · obtain ⟨e1, e2, e3⟩ := (a.roots r y).mp h
      have hp0 := upTo_pubd (Spans.reach_inv r₀).1 hy (by rw [hx₀]; rfl)
      have hs : Seen s₀ y := ⟨hp0, fun l hl => by rw [hi] at hl; cases hl⟩
      rcases (seen_steps h₁ r₀ e2 hry hs).2 l hm with h' | h'
      · exact .inl h'
      · rw [e3] at h'; cases h'
    · have e := ((b.orph r y).mp h).1
      rw [← hry, e]; exact .inr h
  cases look with
  | orphans l' o h ho =>
    rw [hm] at h; cases h
    refine .inr ⟨o, rfl, ?_⟩
    rw [← htr]
    exact List.mem_map_of_mem (ho.mem_iff.mpr (List.mem_append.mpr key))
  | announce n => rw [show s₁.main = _ from hm'] at hm; cases hm
  | callback n => rw [show s₁.main = _ from hm'] at hm; cases hm
  | span => rw [show s₁.main = _ from hm'] at hm; cases hm
  | call h => cases hm'
  | publish h => cases hm'
  | roots o h ho => cases hm'
  | scan n rest h => rw [h] at hm; cases hm
  | ret h => cases hm'

theorem published_mono {P : Program} {s s' : State} (h : Steps P s s') (hp : s.published = true) : s'.published = true := by
  induction h with
  | refl => exact hp
  | step _ st ih => cases st <;> first | exact ih | rfl

/-- **C117**, new traces.  A span announces its trace to the registry, and has not begun to when the callback is published (which it is when `ObserveAllTraces` has
returned, `C117_published`).  Then the collector is attached to its trace before the span exists. -/
theorem C117_future {P : Program} {s₀ s : State} {n : Nat} (hr : P.W.reg n = P.reg) (ha : P.announces n = true) (hp : s₀.published = true)
    (hn : s₀.ann n = .before) (hnew : s₀.sp.pc n = .new) (h : Steps P s₀ s) (hs : s.sp.pc n ≠ .new) : P.W.trace n ∈ s.attached := by
  have inv : (s.ann n = .past → P.W.trace n ∈ s.attached) ∧ (s.sp.pc n ≠ .new → s.ann n = .past) := by
    clear hs
    induction h with
    | refl => exact ⟨fun h => (by rw [hn] at h; cases h), fun h => absurd hnew h⟩
    | step h st ih =>
      have hpub := published_mono h hp
      obtain ⟨i1, i2⟩ := ih
      cases st with
      | announce m hm _ _ hb =>
        refine ⟨fun h => ?_, fun h => ?_⟩
        · by_cases e : n = m
          · subst e; simp [hpub] at h
          · exact i1 (by simpa [upd_other _ _ e] using h)
        · by_cases e : n = m
          · subst e; exact absurd hm h
          · simpa [upd_other _ _ e] using i2 h
      | callback m hm =>
        refine ⟨fun h => ?_, fun h => ?_⟩
        · by_cases e : n = m
          · subst e; exact (mem_attach _ _ _).mpr (.inl rfl)
          · exact (mem_attach _ _ _).mpr (.inr (i1 (by simpa [upd_other _ _ e] using h)))
        · by_cases e : n = m
          · subst e; simp
          · simpa [upd_other _ _ e] using i2 h
      | span sp' st first => exact ⟨i1, fun h => Classical.byContradiction fun c => c (Classical.byCases (fun e => first n e h ha hr) i2)⟩
      | scan m rest hm => exact ⟨fun h => (mem_attach _ _ _).mpr (.inr (i1 h)), i2⟩
      | _ => exact ⟨i1, i2⟩
  exact inv.1 (inv.2 hs)

/-- When `ObserveAllTraces` has returned its callback is published. -/
theorem C117_published {P : Program} {s : State} (h : Steps P init s) (hret : s.main = .returned) : s.published = true := by
  have : s.main = .idle ∨ s.main = .publish ∨ s.published = true := by
    clear hret
    induction h with
    | refl => exact .inl rfl
    | step _ st ih => cases st <;> simp_all
  rw [hret] at this
  rcases this with h | h | h
  · cases h
  · cases h
  · exact h

/-- **C117**.  Attached once, the collector stays attached (until it is cancelled, C33). -/
theorem C117_stays {P : Program} {s s' : State} (h : Steps P s s') {T : Nat} (hT : T ∈ s.attached) : T ∈ s'.attached := attached_mono h hT

/-! ### Concrete programs -/

/-- The chain 0 ← 1 ← 2 of one registry and one trace, with 3 a root of its own; 0 and 3 announce their traces. -/
def prog : Program := ⟨Spans.chain, fun n => n = 0 || n = 3, 0⟩

theorem Steps.trans {P : Program} {a b c : State} (h : Steps P a b) (h' : Steps P b c) : Steps P a c := by
  induction h' with
  | refl => exact h
  | step _ st ih => exact .step ih st

theorem lift {P : Program} {ns : List Nat} {s : State} {sp' : Spans.State} (ha : ∀ n ∈ ns, P.announces n = true → s.ann n = .past)
    (h : Spans.runs P.W s.sp ns = some sp') : Steps P s { s with sp := sp' } := by
  induction ns generalizing s with
  | nil => cases h; exact .refl _
  | cons n ns ih =>
    simp only [Spans.runs, Option.bind_eq_some_iff] at h
    obtain ⟨s1, h1, h2⟩ := h
    have st : Step P s { s with sp := s1 } := by
      refine .span s s1 (Spans.next_step h1) fun m hm hm' hma _ => ha m ?_ hma
      by_cases e : m = n
      · rw [e]; exact List.mem_cons_self
      · refine absurd ?_ hm'
        rw [← hm]
        exact Spans.runs_none (W := P.W) (ns := [n]) (by simp [Spans.runs, h1]) (by simpa using e)
    exact (Steps.step (.refl _) st).trans (ih (s := { s with sp := s1 }) (fun m hm => ha m (.tail _ hm)) h2)

/-- Only a span that announces the trace anew can help once it was missed. -/
theorem missed {P : Program} {s s' : State} (h : Steps P s s') (hm : s.main = .returned)
    (ha : ∀ n, P.W.trace n = P.W.trace 0 → s.ann n = .past ∨ (s.ann n = .before ∧ P.announces n = false)) (hT : P.W.trace 0 ∉ s.attached) :
    P.W.trace 0 ∉ s'.attached := by
  suffices s'.main = .returned ∧ (∀ n, P.W.trace n = P.W.trace 0 → s'.ann n = .past ∨ (s'.ann n = .before ∧ P.announces n = false)) ∧ P.W.trace 0 ∉ s'.attached from this.2.2
  induction h with
  | refl => exact ⟨hm, ha, hT⟩
  | step _ st ih =>
    obtain ⟨i1, i2, i3⟩ := ih
    cases st with
    | announce m _ hma _ hb =>
      refine ⟨i1, fun n hn => ?_, i3⟩
      by_cases e : n = m
      · subst e
        rcases i2 n hn with h | h
        · rw [hb] at h; cases h
        · rw [hma] at h; cases h.2
      · simpa [upd_other _ _ e] using i2 n hn
    | callback m hc =>
      have hne : P.W.trace m ≠ P.W.trace 0 := fun e => by
        rcases i2 m e with h | h <;> rw [hc] at h <;> simp at h
      refine ⟨i1, fun n hn => ?_, fun h => ?_⟩
      · have e : n ≠ m := fun e => hne (e ▸ hn)
        simpa [upd_other _ _ e] using i2 n hn
      · rcases (mem_attach _ _ _).mp h with h | h
        · exact hne h.symm
        · exact i3 h
    | span => exact ⟨i1, i2, i3⟩
    | call h => rw [i1] at h; cases h
    | publish h => rw [i1] at h; cases h
    | roots o h => rw [i1] at h; cases h
    | orphans l o h => rw [i1] at h; cases h
    | scan n rest h => rw [i1] at h; cases h
    | ret h => rw [i1] at h; cases h

/-- `ObserveAllTraces` from its call to its return, with nothing happening in between. -/
theorem whole {P : Program} (s : State) (h : s.main = .idle) (hr : s.sp.roots P.reg = []) (ho : s.sp.orphans P.reg = []) :
    Steps P s { s with published := true, main := .returned } := by
  have s1 : Step P s { s with main := .publish } := .call s h
  have s2 : Step P { s with main := .publish } { s with published := true, main := .roots } := .publish _ rfl
  have s3 : Step P { s with published := true, main := .roots } { s with published := true, main := .orphans [] } := .roots _ [] rfl (by rw [hr])
  have s4 : Step P { s with published := true, main := .orphans [] } { s with published := true, main := .scan [] } := .orphans _ [] [] rfl (by simp [ho])
  have s5 : Step P { s with published := true, main := .scan [] } { s with published := true, main := .returned } := .ret _ rfl
  exact .step (.step (.step (.step (.step (.refl _) s1) s2) s3) s4) s5

/-- Announcing a trace before anybody watches. -/
theorem unheard {P : Program} {n : Nat} (ha : P.announces n = true) (hr : P.W.reg n = P.reg) : Step P init { init with ann := upd init.ann n .past } :=
  .announce init n rfl ha hr rfl

/-- **C117** is false of the code: a trace whose first span is being started while `ObserveAllTraces` is called.  The span looks for watchers before the callback is
published and enters the root spans after they were copied.  The trace runs on and the collector is never attached to it, whatever happens. -/
theorem C117_starting_violated :
    ∃ (P : Program) (s : State) (x : Nat), (∀ n p, P.W.parent n = some p → P.W.trace n = P.W.trace p) ∧ (∀ n, P.W.reg n = P.reg) ∧
      Steps P init s ∧ s.main = .returned ∧ s.sp.pc x = .running ∧ ∀ s', Steps P s s' → P.W.trace x ∉ s'.attached := by
  have e1 := Steps.step (.refl _) (unheard (P := prog) (n := 0) rfl rfl)
  have e2 := whole (P := prog) { init with ann := upd init.ann 0 .past } rfl rfl rfl
  have h : (Spans.runs Spans.chain Spans.init [0, 0, 0]).map (fun s => s.pc 0) = some .running := by rfl
  rw [Option.map_eq_some_iff] at h
  obtain ⟨sp, h1, h2⟩ := h
  have e3 := lift (P := prog) (s := { init with ann := upd init.ann 0 .past, published := true, main := .returned }) (ns := [0, 0, 0])
    (by intro n hn _; simp at hn; subst hn; rfl) h1
  refine ⟨prog, _, 0, ?_, fun _ => rfl, (e1.trans e2).trans e3, rfl, h2, fun s' h' => missed h' rfl ?_ (by simp [init])⟩
  · intro n p hp
    simp only [prog, Spans.chain] at hp ⊢
    grind
  · intro n hn
    by_cases e : n = 0
    · left; subst e; rfl
    · right
      refine ⟨by simp [upd_other _ _ e, init], ?_⟩
      simp only [prog, Spans.chain] at hn ⊢
      grind

/-- **C117** is false of the code also for spans that run from before the call to after the return: span 1 has marked itself done and is about to orphan span 2, and its
parent, span 0, has come and gone.  Span 2 is not listed, and the collector is never attached to its trace. -/
theorem C117_running_violated :
    ∃ (P : Program) (s₀ s : State) (x : Nat), (∀ n p, P.W.parent n = some p → P.W.trace n = P.W.trace p) ∧ (∀ n, P.W.reg n = P.reg) ∧
      Steps P init s₀ ∧ s₀.main = .idle ∧ s₀.sp.pc x = .running ∧ Steps P s₀ s ∧ s.main = .returned ∧ s.sp.pc x = .running ∧
      ∀ s', Steps P s s' → P.W.trace x ∉ s'.attached := by
  have e1 := Steps.step (.refl _) (unheard (P := prog) (n := 0) rfl rfl)
  have h : (Spans.runs Spans.chain Spans.init Spans.scheduleGap).map (fun s => (s.pc 2, s.roots 0, s.orphans 0)) = some (.running, [], []) := by rfl
  rw [Option.map_eq_some_iff] at h
  obtain ⟨sp, h1, h2⟩ := h
  simp only [Prod.mk.injEq] at h2
  obtain ⟨h2, h3, h4⟩ := h2
  have e2 := lift (P := prog) (s := { init with ann := upd init.ann 0 .past }) (ns := Spans.scheduleGap)
    (by
      intro n hn ha
      have : n = 0 := by
        simp only [prog, Spans.scheduleGap] at hn ha
        simp at hn ha
        omega
      subst this; rfl) h1
  have e3 := whole (P := prog) { init with ann := upd init.ann 0 .past, sp := sp } rfl h3 h4
  refine ⟨prog, _, _, 2, ?_, fun _ => rfl, e1.trans e2, rfl, h2, e3, rfl, h2, fun s' h' => missed h' rfl ?_ (by simp [init])⟩
  · intro n p hp
    simp only [prog, Spans.chain] at hp ⊢
    grind
  · intro n hn
    by_cases e : n = 0
    · left; subst e; rfl
    · right
      refine ⟨by simp [upd_other _ _ e, init], ?_⟩
      simp only [prog, Spans.chain] at hn ⊢
      grind

/-- The hypotheses of `C117_present_partial` are met, and by a span with a finished parent: 1 has exited and 2, its child, is running and an orphan. -/
example : ∃ (s₀ s₁ s₁' s : State) (l rest : List Nat), Steps prog init s₀ ∧ s₀.main = .idle ∧ s₀.sp.pc 2 = .running ∧ s₀.sp.pc 1 = .over ∧
    Steps prog s₀ s₁ ∧ s₁.main = .orphans l ∧ s₁.sp.pc 2 = .running ∧ (∀ a, Ancestor prog.W a 2 → ¬ Orphaning s₁.sp a ∧ ¬ Joining s₁.sp a) ∧
    Step prog s₁ s₁' ∧ s₁'.main = .scan rest ∧ Steps prog s₁' s ∧ s.main = .returned ∧ s.attached = [7, 8] := by
  have a1 : Step prog init { init with ann := upd init.ann 0 .past } := unheard rfl rfl
  have a2 : Step prog { init with ann := upd init.ann 0 .past } { init with ann := upd (upd init.ann 0 .past) 3 .past } := .announce _ 3 rfl rfl rfl rfl
  have h : (Spans.runs Spans.chain Spans.init Spans.scheduleQuiet).map (fun s => (s.pc 0, s.pc 1, s.pc 2, s.roots 0, s.orphans 0)) =
      some (.running, .over, .running, [3, 0], [2]) := by rfl
  rw [Option.map_eq_some_iff] at h
  obtain ⟨sp, h1, h2⟩ := h
  simp only [Prod.mk.injEq] at h2
  obtain ⟨p0, p1, p2, hr, ho⟩ := h2
  let an := upd (upd init.ann 0 .past) 3 .past
  have a3 : Steps prog { init with ann := an } ⟨sp, an, false, [], .idle⟩ := lift (s := { init with ann := an }) (ns := Spans.scheduleQuiet)
    (by
      intro n hn ha
      have : n = 0 ∨ n = 3 := by
        simp only [prog] at ha
        simpa using ha
      rcases this with rfl | rfl <;> rfl) h1
  have b1 : Step prog ⟨sp, an, false, [], .idle⟩ ⟨sp, an, false, [], .publish⟩ := .call _ rfl
  have b2 : Step prog ⟨sp, an, false, [], .publish⟩ ⟨sp, an, true, [], .roots⟩ := .publish _ rfl
  have b3 : Step prog ⟨sp, an, true, [], .roots⟩ ⟨sp, an, true, [], .orphans [3, 0]⟩ := .roots _ [3, 0] rfl (by rw [show sp.roots prog.reg = _ from hr])
  have b4 : Step prog ⟨sp, an, true, [], .orphans [3, 0]⟩ ⟨sp, an, true, [], .scan [3, 0, 2]⟩ :=
    .orphans _ [3, 0] [3, 0, 2] rfl (by rw [show sp.orphans prog.reg = _ from ho]; exact .refl _)
  have b5 : Step prog ⟨sp, an, true, [], .scan [3, 0, 2]⟩ ⟨sp, an, true, [8], .scan [0, 2]⟩ := .scan _ 3 [0, 2] rfl
  have b6 : Step prog ⟨sp, an, true, [8], .scan [0, 2]⟩ ⟨sp, an, true, [7, 8], .scan [2]⟩ := .scan _ 0 [2] rfl
  have b7 : Step prog ⟨sp, an, true, [7, 8], .scan [2]⟩ ⟨sp, an, true, [7, 8], .scan []⟩ := .scan _ 2 [] rfl
  have b8 : Step prog ⟨sp, an, true, [7, 8], .scan []⟩ ⟨sp, an, true, [7, 8], .returned⟩ := .ret _ rfl
  refine ⟨_, _, _, _, _, _, (Steps.step (.step (.refl _) a1) a2).trans a3, rfl, p2, p1, .step (.step (.step (.refl _) b1) b2) b3, rfl, p2, ?_, b4, rfl,
    .step (.step (.step (.step (.refl _) b5) b6) b7) b8, rfl, rfl⟩
  intro a ha
  have : a = 0 ∨ a = 1 := by
    have : a < 2 := by
      suffices ∀ y, Ancestor prog.W a y → a < y from this 2 ha
      clear ha
      intro y hy
      induction hy with
      | parent n p hp => exact prog.W.older n p hp
      | up n p a hp _ ih => exact Nat.lt_trans ih (prog.W.older n p hp)
    omega
  rcases this with rfl | rfl <;> simp [Orphaning, Joining, p0, p1]

/-- The hypotheses of `C117_future` are met: after `ObserveAllTraces` has returned, a first span is started. -/
example : ∃ (s₀ s : State), Steps prog init s₀ ∧ s₀.main = .returned ∧ s₀.ann 0 = .before ∧ s₀.sp.pc 0 = .new ∧ Steps prog s₀ s ∧ s.sp.pc 0 = .running ∧ s.attached = [7] := by
  have e1 := whole (P := prog) init rfl rfl rfl
  have e2 : Step prog { init with published := true, main := .returned } { init with ann := upd init.ann 0 .call, published := true, main := .returned } :=
    .announce _ 0 rfl rfl rfl rfl
  have e3 : Step prog { init with ann := upd init.ann 0 .call, published := true, main := .returned }
      { init with ann := upd (upd init.ann 0 .call) 0 .past, published := true, attached := [7], main := .returned } := .callback _ 0 rfl
  have h : (Spans.runs Spans.chain Spans.init [0, 0, 0]).map (fun s => s.pc 0) = some .running := by rfl
  rw [Option.map_eq_some_iff] at h
  obtain ⟨sp, h1, h2⟩ := h
  have e4 := lift (P := prog) (s := { init with ann := upd (upd init.ann 0 .call) 0 .past, published := true, attached := [7], main := .returned }) (ns := [0, 0, 0])
    (by intro n hn _; simp at hn; subst hn; rfl) h1
  exact ⟨_, _, e1, rfl, rfl, rfl, (Steps.step (.step (.refl _) e2) e3).trans e4, h2, rfl⟩

end Monkit.Attach
