import Verif.Spec.CollectSpans
import Verif.Proofs.WatchSpans

/-!
# Invariants of `CollectSpans`
-/

namespace Monkit.CollectSpans
open Go
open Collector (starts finishes CallAfter)
open WatchSpans (upd_apply starts_append starts_snoc to_scas RootInv root_inv)

variable {traceOf : Nat → Nat} {idOf : Nat → Int} {parentOf : Nat → Option Int} {me x : Nat} {l : List Nat}

theorem collOf_snoc (tr : List Ev) (e : Ev) : collOf (tr ++ [e]) = collOf tr ++ (match e with | .coll e => [e] | _ => []) := by
  cases e <;> simp [collOf]

theorem from_scas {s s' : Collector.State} {e : Option Collector.Ev} (st : Collector.Step traceOf s e s') {t y : Nat} (h : s.pc t = .scas y) :
    s'.pc t = .scas y ∨ s'.pc t = .idle ∧ (e = some (.started y) ∨ s.check ≠ .unset) := by
  cases st
  all_goals simp only [upd_apply]
  all_goals grind

theorem of_started {s s' : Collector.State} {e : Option Collector.Ev} (st : Collector.Step traceOf s e s') {y : Nat} (h : e = some (.started y)) :
    ∃ t, s.pc t = .scas y ∧ s'.pc t = .idle := by
  cases st <;> simp_all [Collector.retEv]
  all_goals first
    | exact ⟨_, ‹_›, by simp⟩
    | (split at * <;> simp_all)

theorem inFinish_stop (y : Option Nat) : (Collector.PC.swap y).inFinish = y ∧ (Collector.PC.close y).inFinish = y ∧ (Collector.PC.ret y).inFinish = y := by
  cases y <;> simp [Collector.PC.inFinish]

/-- A step that can be seen makes nobody go on to swap in a span. -/
theorem seen_scas {s s' : Collector.State} {e : Option Collector.Ev} (st : Collector.Step traceOf s e s') (he : e ≠ none) {t y : Nat} (h : s'.pc t = .scas y) :
    s.pc t = .scas y := by
  cases st
  all_goals simp only [upd_apply] at h
  all_goals grind

theorem to_fin {s s' : Collector.State} {e : Option Collector.Ev} (st : Collector.Step traceOf s e s') {t y : Nat} (h : (s'.pc t).inFinish = some y) :
    (s.pc t).inFinish = some y ∨ e = some (.finishCall t y) := by
  cases st
  all_goals simp only [upd_apply] at h
  all_goals first
    | grind [Collector.PC.inFinish, inFinish_stop]
    | (split at h <;> simp_all [inFinish_stop]; done)
    | (split at h <;> simp_all [Collector.PC.inFinish])

theorem of_finishRet {s s' : Collector.State} {e : Option Collector.Ev} (st : Collector.Step traceOf s e s') {t y : Nat} (h : e = some (.finishRet t y)) :
    (s.pc t).inFinish = some y ∧ s'.pc t = .idle := by
  cases st <;> simp_all [Collector.retEv, Collector.PC.inFinish]
  all_goals (split at * <;> simp_all [Collector.PC.inFinish])

theorem of_finishCall {s s' : Collector.State} {e : Option Collector.Ev} (st : Collector.Step traceOf s e s') {t y : Nat} (h : e = some (.finishCall t y)) :
    s'.pc = upd s.pc t (.fload y) := by
  cases st <;> simp_all [Collector.retEv]
  all_goals (split at * <;> simp_all)

theorem root_keeps {tr : List Collector.Ev} {s s' : Collector.State} {e : Option Collector.Ev} (b : Collector.Base traceOf tr s)
    (st : Collector.Step traceOf s e s') (h : s.root = some x) : s'.root = some x ∧ s'.coll = s.coll := by
  cases st with
  | fsetRoot t y z hp c => rw [b.fsetRoot t y z hp] at h; simp at h
  | fsetColl t y z hp c => rw [b.fsetRoot t y z hp] at h; simp at h
  | _ => exact ⟨h, rfl⟩

/-- The result that is on its way. -/
def Main.res : Main → Option Res
  | .stop r | .stopping r | .out r => some r
  | _ => none

/-- The span has finished. -/
def Main.late : Main → Bool
  | .spans | .stop _ | .stopping _ | .out _ | .returned => true
  | _ => false

/-- `Stop` has not been called. -/
def Main.early : Main → Bool
  | .stopping _ | .out _ | .returned => false
  | _ => true

/-- Collection has been started. -/
def Main.begun : Main → Bool
  | .attach | .force | .forcing => false
  | _ => true

/-- What is known about a result. -/
def Good (traceOf : Nat → Nat) (idOf : Nat → Int) (parentOf : Nat → Option Int) (x : Nat) (tr : List Ev) : Res → Prop
  | .panic => Ev.panics ∈ tr
  | .spans out => ∃ a b s0, tr = a ++ b ∧ Exec (Collector.Step traceOf) Collector.init (collOf a) s0 ∧ (∀ t, Collector.Ev.stopCall t ∉ collOf a) ∧
      s0.root = some x ∧ Collector.SpansReturns idOf parentOf s0 out

theorem Good.mono {tr tr' : List Ev} {r : Res} (h : Good traceOf idOf parentOf x tr r) : Good traceOf idOf parentOf x (tr ++ tr') r := by
  cases r with
  | panic => exact List.mem_append_left _ h
  | spans out =>
    obtain ⟨a, b, s0, h1, h2⟩ := h
    exact ⟨a, b ++ tr', s0, by rw [h1, List.append_assoc], h2⟩

theorem CallAfter.mono {t y x : Nat} {a b : List Collector.Ev} (h : CallAfter t y x a) : CallAfter t y x (a ++ b) := by
  obtain ⟨p, q, h1, h2⟩ := h
  exact ⟨p, q ++ b, by rw [h1]; simp, h2⟩

theorem coll_exec' {s0 s : State} {tr : List Ev} (h : Exec (Step traceOf idOf parentOf me x) s0 tr s) (hm : s0.main = .returned) :
    s.main = .returned ∧ Exec (Collector.Step traceOf) s0.c (collOf tr) s.c := by
  refine Exec.induct (fun tr s => s.main = .returned ∧ Exec (Collector.Step traceOf) s0.c (collOf tr) s.c) ⟨hm, .start⟩ ?_ h
  intro tr s e s' ⟨i, j⟩ st
  rw [collOf, List.filterMap_append, ← collOf]
  cases st with
  | coll e k' st own => refine ⟨i, ?_⟩; cases e <;> exact j.step _ st
  | _ => simp_all

structure Inv (traceOf : Nat → Nat) (idOf : Nat → Int) (parentOf : Nat → Option Int) (me x : Nat) (l : List Nat) (tr : List Ev) (s : State) : Prop where
  ex : Exec (Collector.Step traceOf) Collector.init (collOf tr) s.c
  scas : ∀ t y, s.c.pc t = .scas y → t = 0 ∧ y = x ∧ s.main = .forcing
  pre : s.main = .attach ∨ s.main = .force → starts (collOf tr) = []
  forcing : s.main = .forcing → (s.c.pc 0 = .scas x ∧ starts (collOf tr) = []) ∨ (s.c.pc 0 = .idle ∧ starts (collOf tr) = [x])
  post : s.main.begun = true → starts (collOf tr) = [x]
  fin : ∀ u, (s.c.pc u).inFinish = some x → u = 0 ∧ (∃ p, s.main = .finishing p) ∧ CallAfter 0 x x (collOf tr)
  noStop : s.main.early = true → ∀ t, Collector.Ev.stopCall t ∉ collOf tr
  panicked : s.main = .finishing true → Ev.panics ∈ tr
  root : s.main.late = true → s.c.root = some x
  res : ∀ r, s.main.res = some r → Good traceOf idOf parentOf x tr r
  obs : s.obs = if s.main = .attach then l else l ++ [me]
  stopped : ∀ r, s.main = .out r → Collector.Ev.stopRet 0 ∈ collOf tr
  done : ∀ r, Ev.ret r ∈ tr → s.main = .returned

theorem inv_init : Inv traceOf idOf parentOf me x l [] (init l) := by
  constructor <;> simp [init, Collector.init, collOf, Collector.starts, Main.begun, Main.late, Main.res, Collector.PC.inFinish]
  exact .start

/-- A step of the collector that is not a call of `Stop` or of `Finish` with the span. -/
theorem inv_coll {tr : List Ev} {s : State} (i : Inv traceOf idOf parentOf me x l tr s) {e : Option Collector.Ev} {c' : Collector.State}
    (st : Collector.Step traceOf s.c e c') (own : ∀ v, e = some v → collOwn x v = true)
    (idle : s.main ≠ .work → s.c.pc 0 = .idle → c'.pc 0 = .idle) (noForce : ∀ t y, s.c.pc t = .idle ∨ s.c.pc t = .smatch y → c'.pc t ≠ .scas y) :
    Inv traceOf idOf parentOf me x l (tr ++ (e.map Ev.coll).toList) { s with c := c' } := by
  obtain ⟨h1, h2, h3, h4, h5, h6, h7, h8, h9, h10, h11, h12, h13⟩ := i
  obtain ⟨cb, ci, cj⟩ := Collector.inv_exec h1
  have hcc : collOf (tr ++ (e.map Ev.coll).toList) = collOf tr ++ e.toList := by cases e <;> simp [collOf]
  have ex' := h1.step _ st
  have unset : s.main.early = true → starts (collOf tr) = [] → s.c.check = .unset := by
    intro he hs
    cases hc : s.c.check with
    | unset => rfl
    | span z => rw [cb.span z hc] at hs; simp at hs
    | done =>
      rcases ci.ending hc with ⟨u, hu⟩ | ⟨z, hz, _⟩
      · exact absurd hu (h7 he u)
      · rw [hz] at hs; simp at hs
  have hsc : ∀ t y, c'.pc t = .scas y → s.c.pc t = .scas y := by
    intro t y hy
    rcases to_scas st hy with g | g | g
    · exact g
    · exact absurd hy (noForce t y (Or.inl g))
    · exact absurd hy (noForce t y (Or.inr g))
  have hst : starts (collOf tr ++ e.toList) = starts (collOf tr) ∨
      (starts (collOf tr ++ e.toList) = starts (collOf tr) ++ [x] ∧ s.main = .forcing ∧ s.c.pc 0 = .scas x ∧ c'.pc 0 = .idle) := by
    cases e with
    | none => left; simp
    | some e =>
      cases e with
      | started z =>
        obtain ⟨t, ht, ht'⟩ := of_started st rfl
        obtain ⟨rfl, rfl, hm⟩ := h2 t z ht
        right
        exact ⟨by rw [starts_append]; rfl, hm, ht, ht'⟩
      | _ => left; rw [starts_append]; simp [Collector.starts]
  constructor
  · simp only [hcc]; exact ex'
  · intro t y hy; exact h2 t y (hsc t y hy)
  · intro hm
    simp only [hcc]
    rcases hst with g | ⟨_, g, _⟩
    · rw [g]; exact h3 hm
    · simp only at hm; rw [g] at hm; simp at hm
  · intro hm
    simp only [hcc]
    simp only at hm
    rcases hst with g | ⟨g, _, g2, g3⟩
    · rw [g]
      rcases h4 hm with ⟨q1, q2⟩ | ⟨q1, q2⟩
      · left
        rcases from_scas st q1 with w | ⟨w, w' | w'⟩
        · exact ⟨w, q2⟩
        · exfalso
          rw [w'] at g
          rw [starts_append] at g
          simp [Collector.starts] at g
        · exact absurd (unset (by simp [hm, Main.early]) q2) w'
      · exact Or.inr ⟨idle (by simp [hm]) q1, q2⟩
    · rcases h4 hm with ⟨q1, q2⟩ | ⟨q1, q2⟩
      · right; exact ⟨g3, by rw [g, q2]; rfl⟩
      · rw [q1] at g2; simp at g2
  · intro hm
    simp only [hcc]
    rcases hst with g | ⟨_, g, _⟩
    · rw [g]; exact h5 hm
    · simp only at hm; rw [g] at hm; simp [Main.begun] at hm
  · intro u hu
    simp only [hcc]
    rcases to_fin st hu with g | g
    · obtain ⟨w1, w2, w3⟩ := h6 u g
      exact ⟨w1, w2, CallAfter.mono w3⟩
    · have := own _ g; simp [collOwn] at this
  · intro hm t ht
    simp only [hcc, List.mem_append] at ht
    rcases ht with g | g
    · exact h7 hm t g
    · have := own (.stopCall t) (by simpa using g); simp [collOwn] at this
  · intro hm; exact List.mem_append_left _ (h8 hm)
  · intro hm; exact (root_keeps cb st (h9 hm)).1
  · intro r hr; exact (h10 r hr).mono
  · exact h11
  · intro r hr; simp only [hcc]; exact List.mem_append_left _ (h12 r hr)
  · intro r hr
    rcases List.mem_append.1 hr with g | g
    · exact h13 r g
    · cases e <;> simp at g

theorem inv_step {tr : List Ev} {s s' : State} {e : Option Ev} (i : Inv traceOf idOf parentOf me x l tr s) (st : Step traceOf idOf parentOf me x s e s') :
    Inv traceOf idOf parentOf me x l (tr ++ e.toList) s' := by
  cases st with
  | coll e c' st own idle noForce => exact inv_coll i st own idle noForce
  | attach hm =>
    obtain ⟨h1, h2, h3, h4, h5, h6, h7, h8, h9, h10, h11, h12, h13⟩ := i
    constructor <;> simp only [Option.toList_none, List.append_nil] <;> first | assumption | (simp [Main.res, Main.late]; done) | skip
    · intro t y hy; have := (h2 t y hy).2.2; rw [hm] at this; simp at this
    · intro _; exact h3 (Or.inl hm)
    · simp [Main.begun]
    · intro u hu; obtain ⟨_, ⟨p, hp⟩, _⟩ := h6 u hu; rw [hm] at hp; simp at hp
    · intro _; exact h7 (by simp [hm, Main.early])
    · simp [h11, hm]
    · intro r hr; have := h13 r hr; rw [hm] at this; simp at this
  | force hm h' =>
    obtain ⟨h1, h2, h3, h4, h5, h6, h7, h8, h9, h10, h11, h12, h13⟩ := i
    have hx : Exec (Collector.Step traceOf) Collector.init (collOf tr) { s.c with pc := upd s.c.pc 0 (.scas x) } := by
      have := h1.step _ (.force s.c 0 x h'); simpa using this
    constructor <;> simp only [Option.toList_none, List.append_nil] <;> first | assumption | (simp [Main.res, Main.late]; done) | skip
    · intro t y hy
      simp only [upd_apply] at hy
      by_cases ht : t = 0
      · rw [if_pos ht] at hy; cases hy; simp [ht]
      · rw [if_neg ht] at hy; have := (h2 t y hy).2.2; rw [hm] at this; simp at this
    · intro _; left; exact ⟨by simp, h3 (Or.inr hm)⟩
    · simp [Main.begun]
    · intro u hu
      simp only [upd_apply] at hu
      by_cases ht : u = 0
      · rw [if_pos ht] at hu; simp [Collector.PC.inFinish] at hu
      · rw [if_neg ht] at hu; obtain ⟨_, ⟨p, hp⟩, _⟩ := h6 u hu; rw [hm] at hp; simp at hp
    · intro _; exact h7 (by simp [hm, Main.early])
    · simp [h11, hm]
    · intro r hr; have := h13 r hr; rw [hm] at this; simp at this
  | forced hm h' =>
    obtain ⟨h1, h2, h3, h4, h5, h6, h7, h8, h9, h10, h11, h12, h13⟩ := i
    constructor <;> simp only [Option.toList_none, List.append_nil] <;> first | assumption | (simp [Main.res, Main.late]; done) | skip
    · intro t y hy
      obtain ⟨rfl, rfl, _⟩ := h2 t y hy
      rw [h'] at hy; simp at hy
    · intro _
      rcases h4 hm with ⟨g, _⟩ | ⟨_, g⟩
      · rw [h'] at g; simp at g
      · exact g
    · intro u hu; obtain ⟨_, ⟨p, hp⟩, _⟩ := h6 u hu; rw [hm] at hp; simp at hp
    · intro _; exact h7 (by simp [hm, Main.early])
    · simp [h11, hm]
    · intro r hr; have := h13 r hr; rw [hm] at this; simp at this
  | finish c' st hm =>
    obtain ⟨h1, h2, h3, h4, h5, h6, h7, h8, h9, h10, h11, h12, h13⟩ := i
    have hst := h5 (by simp [hm, Main.begun])
    have hpc := of_finishCall st rfl
    constructor <;> simp only [Option.toList_some, collOf_snoc] <;> first | (simp [Main.res, Main.late]; done) | skip
    · exact h1.step _ st
    · intro t y hy
      rw [hpc, upd_apply] at hy
      split at hy
      · simp at hy
      · have := (h2 t y hy).2.2; rw [hm] at this; simp at this
    · intro _; rw [starts_append, hst]; rfl
    · intro u hu
      rw [hpc, upd_apply] at hu
      by_cases ht : u = 0
      · exact ⟨ht, ⟨false, rfl⟩, _, [], rfl, by simp [hst]⟩
      · rw [if_neg ht] at hu; obtain ⟨_, ⟨p, hp⟩, _⟩ := h6 u hu; rw [hm] at hp; simp at hp
    · intro _ t ht
      rcases List.mem_append.1 ht with g | g
      · exact h7 (by simp [hm, Main.early]) t g
      · simp at g
    · simp [h11, hm]
    · intro r hr
      rcases List.mem_append.1 hr with g | g
      · have := h13 r g; rw [hm] at this; simp at this
      · simp at g
  | panics hm h' =>
    obtain ⟨h1, h2, h3, h4, h5, h6, h7, h8, h9, h10, h11, h12, h13⟩ := i
    constructor <;> simp only [Option.toList_some, collOf_snoc, List.append_nil] <;> first | assumption | (simp [Main.res, Main.late]; done) | skip
    · intro t y hy; have := (h2 t y hy).2.2; rw [hm] at this; simp at this
    · intro _; exact h5 (by simp [hm, Main.begun])
    · intro u hu; obtain ⟨_, ⟨p, hp⟩, _⟩ := h6 u hu; rw [hm] at hp; simp at hp
    · intro _; exact h7 (by simp [hm, Main.early])
    · simp [h11, hm]
    · intro r hr
      rcases List.mem_append.1 hr with g | g
      · have := h13 r g; rw [hm] at this; simp at this
      · simp at g
  | finishP c' st hm =>
    obtain ⟨h1, h2, h3, h4, h5, h6, h7, h8, h9, h10, h11, h12, h13⟩ := i
    have hst := h5 (by simp [hm, Main.begun])
    have hpc := of_finishCall st rfl
    constructor <;> simp only [Option.toList_some, collOf_snoc, hm] <;> first | (simp [Main.res, Main.late]; done) | skip
    · exact h1.step _ st
    · intro t y hy
      rw [hpc, upd_apply] at hy
      split at hy
      · simp at hy
      · have := (h2 t y hy).2.2; rw [hm] at this; simp at this
    · intro _; rw [starts_append, hst]; rfl
    · intro u hu
      rw [hpc, upd_apply] at hu
      by_cases ht : u = 0
      · exact ⟨ht, ⟨true, rfl⟩, _, [], rfl, by simp [hst]⟩
      · rw [if_neg ht] at hu; exact absurd (h6 u hu).1 ht
    · intro _ t ht
      rcases List.mem_append.1 ht with g | g
      · exact h7 (by simp [hm, Main.early]) t g
      · simp at g
    · intro _; exact List.mem_append_left _ (h8 hm)
    · simp [h11, hm]
    · intro r hr
      rcases List.mem_append.1 hr with g | g
      · have := h13 r g; rw [hm] at this; simp at this
      · simp at g
  | finished p c' st hm =>
    obtain ⟨h1, h2, h3, h4, h5, h6, h7, h8, h9, h10, h11, h12, h13⟩ := i
    have hst := h5 (by simp [hm, Main.begun])
    obtain ⟨hf, hid⟩ := of_finishRet st rfl
    have hca := (h6 0 hf).2.2
    have ex' := h1.step _ st
    have hns : ∀ t, Collector.Ev.stopCall t ∉ collOf tr ++ [.finishRet 0 x] := by
      intro t ht
      rcases List.mem_append.1 ht with g | g
      · exact h7 (by simp [hm, Main.early]) t g
      · simp at g
    have hnf : ∀ u, (c'.pc u).inFinish ≠ some x := by
      intro u hu
      rcases to_fin st hu with g | g
      · have := (h6 u g).1; subst this; rw [hid] at hu; simp [Collector.PC.inFinish] at hu
      · simp at g
    obtain ⟨cb, ci, cj⟩ := Collector.inv_exec ex'
    have hcl : c'.closes = 1 := by
      refine (Collector.C34_life_cycle ex').2.2.2.2 0 x (CallAfter.mono hca) fun u => ⟨hnf u, ?_⟩
      cases hs : (c'.pc u).stopping with
      | false => rfl
      | true => obtain ⟨v, hv⟩ := ci.stopping u hs; exact absurd hv (hns v)
    have hst' : starts (collOf tr ++ [.finishRet 0 x]) = [x] := by rw [starts_append, hst]; rfl
    have hroot : c'.root = some x := by
      rcases root_inv ex' with ⟨t, ht⟩ | q
      · exact absurd ht (hns t)
      · obtain ⟨z, hz⟩ := Option.ne_none_iff_exists'.1 (q.check (cb.closed hcl))
        have := (cb.root z hz).1
        simp only [Option.toList_some] at this
        rw [hst'] at this
        simp only [List.cons.injEq, and_true] at this
        rw [hz, this]
    have hsc : ∀ t y, c'.pc t ≠ .scas y := by
      intro t y hy
      have := (h2 t y (seen_scas st (by simp) hy)).2.2; rw [hm] at this; simp at this
    have hres : ∀ r, (if p then Main.stop .panic else Main.spans).res = some r → r = .panic ∧ p = true := by
      intro r hr; cases p <;> simp_all [Main.res]
    constructor <;> simp only [Option.toList_some, collOf_snoc] <;> first | (cases p <;> simp [Main.late]; done) | skip
    · exact ex'
    · intro t y hy; exact absurd hy (hsc t y)
    · intro _; exact hst'
    · intro u hu; exact absurd hu (hnf u)
    · intro _; exact hns
    · intro _; exact hroot
    · intro r hr
      obtain ⟨rfl, rfl⟩ := hres r hr
      exact List.mem_append_left _ (h8 hm)
    · rw [h11]; cases p <;> simp [hm]
    · intro r hr
      rcases List.mem_append.1 hr with g | g
      · have := h13 r g; rw [hm] at this; simp at this
      · simp at g
  | spans out hm free hr =>
    obtain ⟨h1, h2, h3, h4, h5, h6, h7, h8, h9, h10, h11, h12, h13⟩ := i
    constructor <;> simp only [Option.toList_none, List.append_nil] <;> first | assumption | (simp; done) | skip
    · intro t y hy; have := (h2 t y hy).2.2; rw [hm] at this; simp at this
    · intro _; exact h5 (by simp [hm, Main.begun])
    · intro u hu; obtain ⟨_, ⟨p, hp⟩, _⟩ := h6 u hu; rw [hm] at hp; simp at hp
    · intro _; exact h7 (by simp [hm, Main.early])
    · intro _; exact h9 (by simp [hm, Main.late])
    · intro r hr'
      simp only [Main.res, Option.some.injEq] at hr'; subst hr'
      exact ⟨tr, [], s.c, by simp, h1, h7 (by simp [hm, Main.early]), h9 (by simp [hm, Main.late]), hr⟩
    · simp [h11, hm]
    · intro r hr; have := h13 r hr; rw [hm] at this; simp at this
  | stop r c' st hm =>
    obtain ⟨h1, h2, h3, h4, h5, h6, h7, h8, h9, h10, h11, h12, h13⟩ := i
    obtain ⟨cb, ci, cj⟩ := Collector.inv_exec h1
    have hsc : ∀ t y, c'.pc t ≠ .scas y := by
      intro t y hy
      have := (h2 t y (seen_scas st (by simp) hy)).2.2; rw [hm] at this; simp at this
    constructor <;> simp only [Option.toList_some, collOf_snoc] <;> first | (simp [Main.early]; done) | skip
    · exact h1.step _ st
    · intro t y hy; exact absurd hy (hsc t y)
    · intro _; rw [starts_append, h5 (by simp [hm, Main.begun])]; rfl
    · intro u hu
      rcases to_fin st hu with g | g
      · obtain ⟨_, ⟨p, hp⟩, _⟩ := h6 u g; rw [hm] at hp; simp at hp
      · simp at g
    · intro _; exact (root_keeps cb st (h9 (by simp [hm, Main.late]))).1
    · intro r' hr; simp only [Main.res, Option.some.injEq] at hr; subst hr; exact (h10 r (by simp [hm, Main.res])).mono
    · simp [h11, hm]
    · intro r hr
      rcases List.mem_append.1 hr with g | g
      · have := h13 r g; rw [hm] at this; simp at this
      · simp at g
  | stopped r c' st hm =>
    obtain ⟨h1, h2, h3, h4, h5, h6, h7, h8, h9, h10, h11, h12, h13⟩ := i
    obtain ⟨cb, ci, cj⟩ := Collector.inv_exec h1
    have hsc : ∀ t y, c'.pc t ≠ .scas y := by
      intro t y hy
      have := (h2 t y (seen_scas st (by simp) hy)).2.2; rw [hm] at this; simp at this
    constructor <;> simp only [Option.toList_some, collOf_snoc] <;> first | (simp [Main.early]; done) | skip
    · exact h1.step _ st
    · intro t y hy; exact absurd hy (hsc t y)
    · intro _; rw [starts_append, h5 (by simp [hm, Main.begun])]; rfl
    · intro u hu
      rcases to_fin st hu with g | g
      · obtain ⟨_, ⟨p, hp⟩, _⟩ := h6 u g; rw [hm] at hp; simp at hp
      · simp at g
    · intro _; exact (root_keeps cb st (h9 (by simp [hm, Main.late]))).1
    · intro r' hr; simp only [Main.res, Option.some.injEq] at hr; subst hr; exact (h10 r (by simp [hm, Main.res])).mono
    · simp [h11, hm]
    · intro r hr
      rcases List.mem_append.1 hr with g | g
      · have := h13 r g; rw [hm] at this; simp at this
      · simp at g
  | ret r hm =>
    obtain ⟨h1, h2, h3, h4, h5, h6, h7, h8, h9, h10, h11, h12, h13⟩ := i
    constructor <;> simp only [Option.toList_some, collOf_snoc, List.append_nil] <;> first | assumption | (simp [Main.early, Main.res]; done) | skip
    · intro t y hy; have := (h2 t y hy).2.2; rw [hm] at this; simp at this
    · intro _; exact h5 (by simp [hm, Main.begun])
    · intro u hu; obtain ⟨_, ⟨p, hp⟩, _⟩ := h6 u hu; rw [hm] at hp; simp at hp
    · intro _; exact h9 (by simp [hm, Main.late])
    · simp [h11, hm]

theorem inv_exec {tr : List Ev} {s : State} (h : Exec (Step traceOf idOf parentOf me x) (init l) tr s) : Inv traceOf idOf parentOf me x l tr s :=
  Exec.induct (Inv traceOf idOf parentOf me x l) inv_init (fun _ _ _ _ i st => inv_step i st) h

theorem of_ret {s s' : State} {e : Option Ev} {r : Res} (st : Step traceOf idOf parentOf me x s e s') (he : e = some (.ret r)) :
    s.main = .out r ∧ s'.main = .returned ∧ s'.c = s.c := by
  cases st <;> simp_all

end Monkit.CollectSpans
