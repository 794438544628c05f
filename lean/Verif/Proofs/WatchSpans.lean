import Verif.Spec.WatchSpans
import Verif.Props.Collector
import Verif.Props.AllTraces

/-!
# Invariants of `WatchForSpans`
-/

namespace Monkit.WatchSpans
open Go
open Collector (starts finishes)

variable {traceOf : Nat → Nat} {accepts : Nat → Bool} {idOf : Nat → Int} {parentOf : Nat → Option Int}

/-- As long as nobody calls `Stop`, only the finish of the root stops the collector. -/
structure RootInv (s : Collector.State) : Prop where
  check : s.check = .done → s.root ≠ none
  out : ∀ t y, s.pc t = .frootOut y → s.root ≠ none
  pc : ∀ t y, s.pc t = .swap y ∨ s.pc t = .close y ∨ s.pc t = .ret y → y ≠ none ∧ s.root ≠ none

theorem upd_apply {α : Type} (f : Nat → α) (t : Nat) (v : α) (t' : Nat) : upd f t v t' = if t' = t then v else f t' := rfl

theorem root_inv {tr : List Collector.Ev} {s : Collector.State} (h : Exec (Collector.Step traceOf) Collector.init tr s) :
    (∃ t, Collector.Ev.stopCall t ∈ tr) ∨ RootInv s := by
  refine Exec.induct (fun tr s => (∃ t, Collector.Ev.stopCall t ∈ tr) ∨ RootInv s) (Or.inr ⟨by simp [Collector.init], by simp [Collector.init], by simp [Collector.init]⟩) ?_ h
  intro tr s e s' i st
  rcases i with ⟨t, ht⟩ | i
  · exact Or.inl ⟨t, by simp [ht]⟩
  · cases st
    case stop t _ => exact Or.inl ⟨t, by simp⟩
    all_goals right
    all_goals obtain ⟨h1, h2, h3⟩ := i
    all_goals constructor
    all_goals simp only [upd_apply]
    all_goals grind

theorem coll_exec {tr : List Ev} {s : State} (h : Exec (Step traceOf accepts idOf parentOf) init tr s) : Exec (Collector.Step traceOf) Collector.init (collOf tr) s.c := by
  refine Exec.induct (fun tr s => Exec (Collector.Step traceOf) Collector.init (collOf tr) s.c) .start ?_ h
  intro tr s e s' i st
  rw [collOf, List.filterMap_append, ← collOf]
  cases st with
  | coll e k' st own => cases e <;> exact i.step _ st
  | all e f' st own => cases e <;> simpa using i
  | stop r k' st h => exact i.step _ st
  | stopped r k' st h => exact i.step _ st
  | _ => simpa using i

theorem all_exec {tr : List Ev} {s : State} (h : Exec (Step traceOf accepts idOf parentOf) init tr s) : Exec AllTraces.Step AllTraces.init (allOf tr) s.a := by
  refine Exec.induct (fun tr s => Exec AllTraces.Step AllTraces.init (allOf tr) s.a) .start ?_ h
  intro tr s e s' i st
  rw [allOf, List.filterMap_append, ← allOf]
  cases st with
  | all e k' st own => cases e <;> exact i.step _ st
  | coll e f' st own => cases e <;> simpa using i
  | cancel r k' st h => exact i.step _ st
  | cancelled r k' st h => exact i.step _ st
  | _ => simpa using i

/-- The same from any state on. -/
theorem coll_exec' {s0 : State} {tr : List Ev} {s : State} (h : Exec (Step traceOf accepts idOf parentOf) s0 tr s) : Exec (Collector.Step traceOf) s0.c (collOf tr) s.c := by
  refine Exec.induct (fun tr s => Exec (Collector.Step traceOf) s0.c (collOf tr) s.c) .start ?_ h
  intro tr s e s' i st
  rw [collOf, List.filterMap_append, ← collOf]
  cases st with
  | coll e k' st own => cases e <;> exact i.step _ st
  | all e f' st own => cases e <;> simpa using i
  | stop r k' st h => exact i.step _ st
  | stopped r k' st h => exact i.step _ st
  | _ => simpa using i

theorem all_exec' {s0 : State} {tr : List Ev} {s : State} (h : Exec (Step traceOf accepts idOf parentOf) s0 tr s) : Exec AllTraces.Step s0.a (allOf tr) s.a := by
  refine Exec.induct (fun tr s => Exec AllTraces.Step s0.a (allOf tr) s.a) .start ?_ h
  intro tr s e s' i st
  rw [allOf, List.filterMap_append, ← allOf]
  cases st with
  | all e k' st own => cases e <;> exact i.step _ st
  | coll e f' st own => cases e <;> simpa using i
  | cancel r k' st h => exact i.step _ st
  | cancelled r k' st h => exact i.step _ st
  | _ => simpa using i

/-- The result that is on its way. -/
def Main.res : Main → Option Res
  | .cancel r | .cancelling r | .stop r | .stopping r | .out r => some r
  | _ => none

/-- What is known about a result. -/
def Good (traceOf : Nat → Nat) (accepts : Nat → Bool) (idOf : Nat → Int) (parentOf : Nat → Option Int) (tr : List Ev) : Res → Prop
  | .err => Ev.ctxDone ∈ tr
  | .spans out => ∃ a b s0, tr = a ++ b ∧ Exec (Step traceOf accepts idOf parentOf) init a s0 ∧ (∀ t, Collector.Ev.stopCall t ∉ collOf a) ∧
      (∃ x, s0.c.root = some x) ∧ Collector.SpansReturns idOf parentOf s0.c out

theorem Good.mono {tr tr' : List Ev} {r : Res} (h : Good traceOf accepts idOf parentOf tr r) : Good traceOf accepts idOf parentOf (tr ++ tr') r := by
  cases r with
  | err => exact List.mem_append_left _ h
  | spans out =>
    obtain ⟨a, b, s0, h1, h2⟩ := h
    exact ⟨a, b ++ tr', s0, by rw [h1, List.append_assoc], h2⟩

structure Inv (traceOf : Nat → Nat) (accepts : Nat → Bool) (idOf : Nat → Int) (parentOf : Nat → Option Int) (tr : List Ev) (s : State) : Prop where
  scas : ∀ t y, s.c.pc t = .scas y → accepts y = true
  starts : ∀ x ∈ starts (collOf tr), accepts x = true
  ctx : s.ctxDone = true → Ev.ctxDone ∈ tr
  noStop : (∀ r, s.main ≠ .stopping r ∧ s.main ≠ .out r) → s.main ≠ .returned → ∀ t, Collector.Ev.stopCall t ∉ collOf tr
  ready : s.main = .spans → 0 < s.c.closes
  res : ∀ r, s.main.res = some r → Good traceOf accepts idOf parentOf tr r
  detached : (∀ r, s.main = .stop r ∨ s.main = .stopping r ∨ s.main = .out r → AllTraces.Ev.cancelReturn ∈ allOf tr)
  stopped : ∀ r, s.main = .out r → Collector.Ev.stopRet 0 ∈ collOf tr

theorem collOf_snoc (tr : List Ev) (e : Ev) : collOf (tr ++ [e]) = collOf tr ++ (match e with | .coll e => [e] | _ => []) := by
  cases e <;> simp [collOf]

theorem allOf_snoc (tr : List Ev) (e : Ev) : allOf (tr ++ [e]) = allOf tr ++ (match e with | .all e => [e] | _ => []) := by
  cases e <;> simp [allOf]

theorem closes_mono {s s' : Collector.State} {e : Option Collector.Ev} (st : Collector.Step traceOf s e s') : s.closes ≤ s'.closes := by
  cases st <;> simp

theorem starts_step {s s' : Collector.State} {e : Collector.Ev} {x : Nat} (st : Collector.Step traceOf s (some e) s') (h : e = .started x) : ∃ t, s.pc t = .scas x := by
  generalize he : some e = e' at st
  cases st <;> simp_all [Collector.retEv]
  all_goals first
    | exact ⟨_, ‹_›⟩
    | (split at * <;> simp_all)

theorem starts_append (a b : List Collector.Ev) : Collector.starts (a ++ b) = Collector.starts a ++ Collector.starts b := by
  induction a with
  | nil => rfl
  | cons e a ih => cases e <;> simp [Collector.starts, ih]

theorem starts_snoc (tr : List Collector.Ev) (e : Collector.Ev) (x : Nat) : x ∈ Collector.starts (tr ++ [e]) ↔ x ∈ Collector.starts tr ∨ e = .started x := by
  rw [starts_append]
  cases e <;> simp [Collector.starts, eq_comm]

/-- Where a goroutine about to swap in a span comes from. -/
theorem to_scas {s s' : Collector.State} {e : Option Collector.Ev} (st : Collector.Step traceOf s e s') {t y : Nat} (h : s'.pc t = .scas y) :
    s.pc t = .scas y ∨ s.pc t = .idle ∨ s.pc t = .smatch y := by
  cases st
  all_goals simp only [upd_apply] at h
  all_goals grind

set_option maxHeartbeats 1000000 in
theorem inv_exec {tr : List Ev} {s : State} (h : Exec (Step traceOf accepts idOf parentOf) init tr s) : Inv traceOf accepts idOf parentOf tr s := by
  refine (Exec.induct (fun tr s => Exec (Step traceOf accepts idOf parentOf) init tr s ∧ Inv traceOf accepts idOf parentOf tr s) ⟨.start, ?_⟩ ?_ h).2
  · constructor <;> simp [init, Collector.init, Main.res, collOf, Collector.starts]
  · intro tr s e s' ⟨ex, i⟩ st
    refine ⟨ex.step _ st, ?_⟩
    obtain ⟨h1, h2, h3, h4, h5, h6, h7, h8⟩ := i
    cases st with
    | coll e c' st own idle noForce yes =>
      have hs : ∀ t y, c'.pc t = .scas y → accepts y = true := by
        intro t y hy
        rcases to_scas st hy with g | g | g
        · exact h1 t y g
        · exact absurd hy (noForce t y g)
        · exact yes t y g hy
      have hm := closes_mono st
      cases e with
      | none =>
        constructor <;> simp only [Option.map_none, Option.toList_none, List.append_nil] <;> first | assumption | skip
        intro hp; have := h5 hp; omega
      | some e =>
        have ho := own e rfl
        constructor <;> simp only [Option.map_some, Option.toList_some, collOf_snoc, allOf_snoc, List.append_nil] <;> first | assumption | skip
        · intro x hx
          rcases (starts_snoc _ _ _).1 hx with g | g
          · exact h2 x g
          · obtain ⟨t, ht⟩ := starts_step st g
            exact h1 t x ht
        · intro hc; exact List.mem_append_left _ (h3 hc)
        · intro a b t ht
          rcases List.mem_append.1 ht with g | g
          · exact h4 a b t g
          · simp only [List.mem_singleton] at g; subst g; simp [collOwn] at ho
        · intro hp; have := h5 hp; omega
        · intro r hr; exact (h6 r hr).mono
        · intro r hr; exact List.mem_append_left _ (h8 r hr)
    | all e a' st own idle =>
      cases e with
      | none => constructor <;> simp only [Option.map_none, Option.toList_none, List.append_nil] <;> assumption
      | some e =>
        constructor <;> simp only [Option.map_some, Option.toList_some, collOf_snoc, allOf_snoc, List.append_nil] <;> first | assumption | skip
        · intro hc; exact List.mem_append_left _ (h3 hc)
        · intro r hr; exact (h6 r hr).mono
        · intro r hr; exact List.mem_append_left _ (h7 r hr)
    | ctxDone =>
      constructor <;> simp only [Option.toList_some, collOf_snoc, allOf_snoc, List.append_nil] <;> first | assumption | skip
      · simp
      · intro r hr; exact (h6 r hr).mono
    | selectCtx hm hc =>
      constructor <;> simp only [Option.toList_none, List.append_nil] <;> first | assumption | (simp; done) | skip
      · intro _ _; exact h4 (by simp [hm]) (by simp [hm])
      · intro r hr; simp only [Main.res, Option.some.injEq] at hr; subst hr; exact h3 hc
    | selectDone hm hc =>
      constructor <;> simp only [Option.toList_none, List.append_nil] <;> first | assumption | (simp; done) | skip
      · intro _ _; exact h4 (by simp [hm]) (by simp [hm])
      · intro _; exact hc
      · intro r hr; simp [Main.res] at hr
    | spans out hm free hr =>
      have hns := h4 (by simp [hm]) (by simp [hm])
      constructor <;> simp only [Option.toList_none, List.append_nil] <;> first | assumption | (simp; done) | skip
      · intro _ _; exact hns
      · intro r hr'
        simp only [Main.res, Option.some.injEq] at hr'; subst hr'
        refine ⟨tr, [], s, by simp, ex, hns, ?_, hr⟩
        rcases root_inv (coll_exec ex) with ⟨t, ht⟩ | q
        · exact absurd ht (hns t)
        · have hb := (Collector.inv_exec (coll_exec ex)).1
          have hc1 : s.c.closes = 1 := by have := h5 hm; have := hb.closes; omega
          exact Option.ne_none_iff_exists'.1 (q.check (hb.closed hc1))
    | cancel r a' st hm =>
      constructor <;> simp only [Option.toList_some, collOf_snoc, allOf_snoc, List.append_nil] <;> first | assumption | (simp; done) | skip
      · intro hc; exact List.mem_append_left _ (h3 hc)
      · intro _ _; exact h4 (by simp [hm]) (by simp [hm])
      · intro r' hr; simp only [Main.res, Option.some.injEq] at hr; subst hr; exact (h6 r (by simp [hm, Main.res])).mono
    | cancelled r a' st hm =>
      constructor <;> simp only [Option.toList_some, collOf_snoc, allOf_snoc, List.append_nil] <;> first | assumption | (simp; done) | skip
      · intro hc; exact List.mem_append_left _ (h3 hc)
      · intro _ _; exact h4 (by simp [hm]) (by simp [hm])
      · intro r' hr; simp only [Main.res, Option.some.injEq] at hr; subst hr; exact (h6 r (by simp [hm, Main.res])).mono
    | stop r c' st hm =>
      have hs : ∀ t y, c'.pc t = .scas y → s.c.pc t = .scas y := by
        intro t y hy
        rcases to_scas st hy with g | g | g
        · exact g
        · generalize he : some (Collector.Ev.stopCall 0) = e at st
          cases st <;> simp_all [upd_apply, Collector.retEv] <;> grind
        · generalize he : some (Collector.Ev.stopCall 0) = e at st
          cases st <;> simp_all [upd_apply, Collector.retEv] <;> grind
      constructor <;> simp only [Option.toList_some, collOf_snoc, allOf_snoc, List.append_nil] <;> first | assumption | (simp; done) | skip
      · intro t y hy; exact h1 t y (hs t y hy)
      · intro x hx
        rcases (starts_snoc _ _ _).1 hx with g | g
        · exact h2 x g
        · simp at g
      · intro hc; exact List.mem_append_left _ (h3 hc)
      · intro r' hr; simp only [Main.res, Option.some.injEq] at hr; subst hr; exact (h6 r (by simp [hm, Main.res])).mono
      · intro r' _; exact h7 r (by simp [hm])
    | stopped r c' st hm =>
      have hs : ∀ t y, c'.pc t = .scas y → s.c.pc t = .scas y := by
        intro t y hy
        rcases to_scas st hy with g | g | g
        · exact g
        · generalize he : some (Collector.Ev.stopRet 0) = e at st
          cases st <;> simp_all [upd_apply, Collector.retEv] <;> grind
        · generalize he : some (Collector.Ev.stopRet 0) = e at st
          cases st <;> simp_all [upd_apply, Collector.retEv] <;> grind
      constructor <;> simp only [Option.toList_some, collOf_snoc, allOf_snoc, List.append_nil] <;> first | assumption | (simp; done) | skip
      · intro t y hy; exact h1 t y (hs t y hy)
      · intro x hx
        rcases (starts_snoc _ _ _).1 hx with g | g
        · exact h2 x g
        · simp at g
      · intro hc; exact List.mem_append_left _ (h3 hc)
      · intro r' hr; simp only [Main.res, Option.some.injEq] at hr; subst hr; exact (h6 r (by simp [hm, Main.res])).mono
      · intro r' _; exact h7 r (by simp [hm])
    | ret r hm =>
      constructor <;> simp only [Option.toList_some, collOf_snoc, allOf_snoc, List.append_nil] <;> first | assumption | (simp; done) | skip
      · intro hc; exact List.mem_append_left _ (h3 hc)
      · intro r' hr; simp [Main.res] at hr

theorem of_ret {s s' : State} {e : Option Ev} {r : Res} (st : Step traceOf accepts idOf parentOf s e s') (he : e = some (.ret r)) :
    s.main = .out r ∧ s'.c = s.c ∧ s'.a = s.a := by
  cases st <;> simp_all

/-- What `Spans` returns when nobody has called `Stop`. -/
theorem collected {a0 b0 : List Collector.Ev} {s0 s1 : Collector.State} {x : Nat} {out : List Nat}
    (c0 : Exec (Collector.Step traceOf) Collector.init a0 s0) (c1 : Exec (Collector.Step traceOf) Collector.init (a0 ++ b0) s1)
    (hns : ∀ t, Collector.Ev.stopCall t ∉ a0) (hx : s0.root = some x) (hr : Collector.SpansReturns idOf parentOf s0 out)
    (honce : (finishes (a0 ++ b0)).Nodup) (hid : ∀ y ∈ finishes (a0 ++ b0), ∀ z ∈ finishes (a0 ++ b0), idOf y = idOf z → y = z) :
    starts (a0 ++ b0) = [x] ∧ x ∈ finishes (a0 ++ b0) ∧ out.head? = some x ∧ out.Nodup ∧
      (∀ l1 y l2, out = l1 ++ y :: l2 → l1 ≠ [] → traceOf y = traceOf x ∧ y ∈ finishes (a0 ++ b0) ∧ ∃ p ∈ l1, parentOf y = some (idOf p)) ∧
      ∀ y, InTree traceOf idOf parentOf x (a0 ++ b0) y → y ∈ out := by
  obtain ⟨cb, ci, cj⟩ := Collector.inv_exec c0
  have fin : ∀ y, y ∈ finishes a0 → y ∈ finishes (a0 ++ b0) := by
    intro y hy; rw [Collector.finishes_append]; exact List.mem_append_left _ hy
  have hxf := ci.endRoot x hx
  have hon0 : (finishes a0).Nodup := by
    rw [Collector.finishes_append] at honce; exact (List.nodup_append.1 honce).1
  have hmem : ∀ y ∈ x :: s0.coll, y ∈ finishes (a0 ++ b0) := by
    intro y hy
    rcases List.mem_cons.1 hy with rfl | hy
    · exact fin _ hxf
    · exact fin _ (ci.coll y hy).1
  obtain ⟨hst, _, hall⟩ := Collector.C35_spans c0 idOf parentOf x hx hon0 (fun y hy z hz => hid y (hmem y hy) z (hmem z hz))
  obtain ⟨g1, g2, g3, g4, g5⟩ := hall out hr
  have hsta : starts (a0 ++ b0) = [x] := by
    have := (Collector.C34_life_cycle c1).1
    rw [starts_append, hst] at this ⊢
    simp only [List.length_append, List.length_cons, List.length_nil] at this
    rw [List.length_eq_zero_iff.1 (show (starts b0).length = 0 by omega)]
    rfl
  have hxo : ∀ y ∈ out, y ∈ x :: s0.coll := by
    intro y hy
    cases (g3 y).1 hy with
    | refl => simp
    | child _ hc => exact List.mem_cons_of_mem _ hc.1
  refine ⟨hsta, fin _ hxf, g1, g2, ?_, ?_⟩
  · intro l1 y l2 hl hne
    have hy : y ∈ out := by simp [hl]
    exact ⟨(g5 y hy).1, hmem y (hxo y hy), g4 l1 y l2 hl hne⟩
  · intro y hy
    rw [g3]
    induction hy with
    | root => exact .refl
    | @child y z _ hp ht hne hw ih =>
      refine .child ih ⟨?_, hp⟩
      obtain ⟨t, p, q, c, hw1, hw2, hw3⟩ := hw
      have hw1' : a0 ++ b0 = (p ++ .finishCall t z :: q) ++ (.finishRet t z :: c) := by rw [hw1]; simp
      rcases List.append_eq_append_iff.1 hw1' with ⟨d, hd, _⟩ | ⟨d, hd, hd'⟩
      · exfalso
        apply hw3
        rw [hd, Collector.finishes_append]
        exact List.mem_append_left _ hxf
      · cases d with
        | nil =>
          exfalso; apply hw3
          rw [List.append_nil] at hd
          rw [← hd]; exact hxf
        | cons d0 d =>
          simp only [List.cons_append, List.cons.injEq] at hd'
          obtain ⟨rfl, _⟩ := hd'
          refine Collector.C35_recorded c0 t x z p q d (by rw [hd]; simp) hw2 ht hne ?_
          rintro (⟨u, hu⟩ | hu)
          · exact hns u (by rw [hd]; exact List.mem_append_left _ hu)
          · exact hw3 hu

end Monkit.WatchSpans
