import Verif.Spec.TraceQuery
import Verif.Props.KeepAlive
import Verif.Props.WatchSpans

/-!
# C93: trace queries
-/

namespace Monkit.TraceQuery
open Go
open Collector (starts finishes)

variable {traceOf : Nat → Nat} {accepts : Nat → Bool} {idOf : Nat → Int} {parentOf : Nat → Option Int} {pieces : List Nat → List Str}

theorem ka_exec {tr : List Ev} {s : State} (h : Exec (Step traceOf accepts idOf parentOf pieces) init tr s) : Exec KeepAlive.Step KeepAlive.init (kaOf tr) s.k := by
  refine Exec.induct (fun tr s => Exec KeepAlive.Step KeepAlive.init (kaOf tr) s.k) .start ?_ h
  intro tr s e s' i st
  rw [kaOf, List.filterMap_append, ← kaOf]
  cases st with
  | ka e k' st own => cases e <;> exact i.step _ st
  | watch e f' st own => cases e <;> simpa using i
  | stop r k' st h => exact i.step _ st
  | stopped r x k' st h => exact i.step _ st
  | last r k' st h => exact i.step _ st
  | lastRet r x k' st h => exact i.step _ st
  | _ => simpa using i

theorem watch_exec {tr : List Ev} {s : State} (h : Exec (Step traceOf accepts idOf parentOf pieces) init tr s) :
    Exec (WatchSpans.Step traceOf accepts idOf parentOf) WatchSpans.init (watchOf tr) s.w := by
  refine Exec.induct (fun tr s => Exec (WatchSpans.Step traceOf accepts idOf parentOf) WatchSpans.init (watchOf tr) s.w) .start ?_ h
  intro tr s e s' i st
  rw [watchOf, List.filterMap_append, ← watchOf]
  cases st with
  | watch e w' st own => cases e <;> exact i.step _ st
  | ka e f' st own => cases e <;> simpa using i
  | ctx w' st h => exact i.step _ st
  | found r w' st h => exact i.step _ st
  | _ => simpa using i

/-- The result that is on its way. -/
def Main.fin : Main → Option Fin
  | .last f | .lasting f | .got f => some f
  | _ => none

/-- `stop` has returned. -/
def Main.after : Main → Bool
  | .watching | .stop _ | .stopping _ => false
  | _ => true

def Main.res : Main → Option WatchSpans.Res
  | .stop r | .stopping r => some r
  | _ => none

/-- What is known about a result. -/
def Good (tr : List Ev) : Fin → Prop
  | .spans out => Ev.watch (.ret (.spans out)) ∈ tr ∧ Ev.ka (.stopRet 0 none) ∈ tr
  | .err e => Ev.ka (.stopRet 0 (some e)) ∈ tr
  | .ctx => False

structure Inv (pieces : List Nat → List Str) (tr : List Ev) (s : State) : Prop where
  ctx : Ev.watch .ctxDone ∈ tr → s.k.pingErr ≠ none
  res : ∀ r, s.main.res = some r → Ev.watch (.ret r) ∈ tr
  fin : ∀ f, s.main.fin = some f → Good tr f
  after : s.main.after = true → ∃ x, Ev.ka (.stopRet 0 x) ∈ tr
  before : (∀ rest, s.main ≠ .writing rest) → (∀ r, s.main ≠ .out r) → s.main ≠ .ended → ∀ e ∈ tr, (∀ out, e ≠ .doc out) ∧ ∀ p x, e ≠ .write p x
  writing : ∀ rest, s.main = .writing rest → ∃ a b out done, tr = a ++ .doc out :: b ∧ Ev.watch (.ret (.spans out)) ∈ a ∧ pieces out = done ++ rest ∧
    received b = done.flatten
  outOk : s.main = .out none → ∃ a b out, tr = a ++ .doc out :: b ∧ Ev.watch (.ret (.spans out)) ∈ a ∧ received b = (pieces out).flatten
  outErr : ∀ e, s.main = .out (some e) → Ev.ka (.stopRet 0 (some e)) ∈ tr ∨ ∃ p, Ev.write p (some e) ∈ tr
  doc : ∀ a out b, tr = a ++ .doc out :: b → Ev.ka (.stopRet 0 none) ∈ a ∧ Ev.watch (.ret (.spans out)) ∈ a
  write : ∀ a p x b, tr = a ++ .write p x :: b → ∃ y, Ev.ka (.stopRet 0 y) ∈ a

theorem ka_keeps {k k' : KeepAlive.State} {e : Option KeepAlive.Event} (st : KeepAlive.Step k e k') (h : k.pingErr ≠ none) : k'.pingErr ≠ none := by
  cases st <;> simp_all

theorem received_append (a b : List Ev) : received (a ++ b) = received a ++ received b := by
  induction a with
  | nil => rfl
  | cons e a ih =>
    match e with
    | .ka (.pong .ok) | .ka (.pong (.err _)) | .ka (.pong (.panicErr _)) | .ka (.pong (.panicVal _)) | .ka (.pong .panicNil)
    | .ka .ping | .ka .cancel | .ka .parentDone | .ka (.stopCall _) | .ka (.stopRet _ _) | .watch _ | .doc _ | .write _ none | .write _ (some _) | .ends _ => simp [received, ih]

theorem snoc_split {α : Type} {tr a b : List α} {e x : α} (h : tr ++ [e] = a ++ x :: b) : (b = [] ∧ e = x ∧ tr = a) ∨ ∃ b', b = b' ++ [e] ∧ tr = a ++ x :: b' := by
  rcases List.eq_nil_or_concat b with rfl | ⟨b', y, rfl⟩
  · left
    obtain ⟨h1, h2⟩ := List.append_inj' (s₂ := a) (t₂ := [x]) h rfl
    simp at h2
    exact ⟨rfl, h2, h1⟩
  · right
    rw [List.concat_eq_append, ← List.cons_append, ← List.append_assoc] at h
    obtain ⟨h1, h2⟩ := List.append_inj' h rfl
    simp at h2
    exact ⟨b', by simp [h2], h1⟩

theorem Good.mono {tr tr' : List Ev} {f : Fin} (h : Good tr f) : Good (tr ++ tr') f := by
  cases f <;> simp only [Good, List.mem_append] at h ⊢ <;> first | exact Or.inl h | exact h | exact ⟨Or.inl h.1, Or.inl h.2⟩

/-- A step of the parts. -/
theorem inv_part {tr : List Ev} {s s' : State} {e : Option Ev} (h : Inv pieces tr s) (hm : s'.main = s.main) (hk : s.k.pingErr ≠ none → s'.k.pingErr ≠ none)
    (hd : ∀ out, e ≠ some (.doc out)) (hw : ∀ p x, e ≠ some (.write p x)) (hc : e = some (.watch .ctxDone) → s'.k.pingErr ≠ none)
    (hr : s.main.after = true → received e.toList = []) : Inv pieces (tr ++ e.toList) s' := by
  obtain ⟨h1, h2, h3, h4, h5, h6, h7, h8, h9, h10⟩ := h
  constructor
  · intro hx
    rcases List.mem_append.1 hx with g | g
    · exact hk (h1 g)
    · exact hc (by simpa using g)
  · intro r hr'; rw [hm] at hr'; exact List.mem_append_left _ (h2 r hr')
  · intro f hf; rw [hm] at hf; exact (h3 f hf).mono
  · intro ha; rw [hm] at ha; obtain ⟨x, hx⟩ := h4 ha; exact ⟨x, List.mem_append_left _ hx⟩
  · intro a b c x hx
    rw [hm] at a b c
    rcases List.mem_append.1 hx with g | g
    · exact h5 a b c x g
    · have g : e = some x := by simpa using g
      subst g
      exact ⟨fun out ho => hd out (by rw [ho]), fun p y ho => hw p y (by rw [ho])⟩
  · intro rest hrest
    rw [hm] at hrest
    obtain ⟨a, b, out, done, g1, g2, g3, g4⟩ := h6 rest hrest
    exact ⟨a, b ++ e.toList, out, done, by rw [g1]; simp, g2, g3, by rw [received_append, g4, hr (by simp [hrest, Main.after]), List.append_nil]⟩
  · intro hrest
    rw [hm] at hrest
    obtain ⟨a, b, out, g1, g2, g3⟩ := h7 hrest
    exact ⟨a, b ++ e.toList, out, by rw [g1]; simp, g2, by rw [received_append, g3, hr (by simp [hrest, Main.after]), List.append_nil]⟩
  · intro x hx
    rw [hm] at hx
    rcases h8 x hx with g | ⟨p, g⟩
    · exact Or.inl (List.mem_append_left _ g)
    · exact Or.inr ⟨p, List.mem_append_left _ g⟩
  · intro a out b hab
    cases e with
    | none => simp at hab; exact h9 a out b hab
    | some e =>
      rcases snoc_split hab with ⟨_, g, _⟩ | ⟨b', _, g⟩
      · exact absurd (by rw [g]) (hd out)
      · exact h9 a out b' g
  · intro a p x b hab
    cases e with
    | none => simp at hab; exact h10 a p x b hab
    | some e =>
      rcases snoc_split hab with ⟨_, g, _⟩ | ⟨b', _, g⟩
      · exact absurd (by rw [g]) (hw p x)
      · exact h10 a p x b' g

/-- A change of `main` alone, without an event. -/
theorem inv_main {tr : List Ev} {s : State} {m : Main} (h : Inv pieces tr s) (h2 : ∀ r, m.res = some r → Ev.watch (.ret r) ∈ tr) (h3 : ∀ f, m.fin = some f → Good tr f)
    (h4 : m.after = true → ∃ x, Ev.ka (.stopRet 0 x) ∈ tr)
    (h5 : (∀ rest, m ≠ .writing rest) → (∀ r, m ≠ .out r) → m ≠ .ended → ∀ e ∈ tr, (∀ out, e ≠ .doc out) ∧ ∀ p x, e ≠ .write p x)
    (h6 : ∀ rest, m = .writing rest → ∃ a b out done, tr = a ++ .doc out :: b ∧ Ev.watch (.ret (.spans out)) ∈ a ∧ pieces out = done ++ rest ∧ received b = done.flatten)
    (h7 : m = .out none → ∃ a b out, tr = a ++ .doc out :: b ∧ Ev.watch (.ret (.spans out)) ∈ a ∧ received b = (pieces out).flatten)
    (h8 : ∀ e, m = .out (some e) → Ev.ka (.stopRet 0 (some e)) ∈ tr ∨ ∃ p, Ev.write p (some e) ∈ tr) : Inv pieces tr { s with main := m } :=
  ⟨h.ctx, h2, h3, h4, h5, h6, h7, h8, h.doc, h.write⟩

set_option maxHeartbeats 1000000 in
theorem inv_exec {tr : List Ev} {s : State} (h : Exec (Step traceOf accepts idOf parentOf pieces) init tr s) : Inv pieces tr s := by
  refine (Exec.induct (fun tr s => Exec (Step traceOf accepts idOf parentOf pieces) init tr s ∧ Inv pieces tr s) ⟨.start, ?_⟩ ?_ h).2
  · constructor <;> simp [init, Main.res, Main.fin, Main.after]
  · intro tr s e s' ⟨ex, i⟩ st
    refine ⟨ex.step _ st, ?_⟩
    have hk := KeepAlive.inv_exec (ka_exec ex)
    have stopped : s.main.after = true → s.k.stopped = true := by
      intro ha
      obtain ⟨x, hx⟩ := i.after ha
      exact hk.returned 0 x (List.mem_filterMap.2 ⟨_, hx, rfl⟩)
    cases st with
    | ka e k' st own =>
      refine inv_part i rfl (ka_keeps st) (by cases e <;> simp) (by cases e <;> simp) (by cases e <;> simp) ?_
      intro ha
      have g := hk.stop (stopped ha)
      cases st <;> first | rfl | (simp_all; done)
    | watch e w' st own =>
      refine inv_part i rfl id (by cases e <;> simp) (by cases e <;> simp) ?_ (by intro; cases e <;> rfl)
      cases e with
      | none => simp
      | some e => intro he; simp at he; subst he; have := own _ rfl; simp [watchOwn] at this
    | ctx w' st hc => exact inv_part i rfl id (by simp) (by simp) (fun _ => hk.cancelled hc) (fun _ => rfl)
    | found r w' st hm =>
      have j := inv_part (s' := { s with w := w' }) (e := some (.watch (.ret r))) i rfl id (by simp) (by simp) (by simp) (fun _ => rfl)
      refine inv_main (m := .stop r) j ?_ (by simp [Main.fin]) (by simp [Main.after]) ?_ (by simp) (by simp) (by simp)
      · intro r' hr'; simp [Main.res] at hr'; subst hr'; simp
      · intro _ _ _; exact j.before (by simp [hm]) (by simp [hm]) (by simp [hm])
    | stop r k' st hm =>
      have j := inv_part (s' := { s with k := k' }) (e := some (.ka (.stopCall 0))) i rfl (ka_keeps st) (by simp) (by simp) (by simp) (fun _ => rfl)
      refine inv_main (m := .stopping r) j ?_ (by simp [Main.fin]) (by simp [Main.after]) ?_ (by simp) (by simp) (by simp)
      · intro r' hr'; exact j.res r' (by simp [hm, Main.res] at hr' ⊢; exact hr')
      · intro _ _ _; exact j.before (by simp [hm]) (by simp [hm]) (by simp [hm])
    | stopped r x k' st hm =>
      have j := inv_part (s' := { s with k := k' }) (e := some (.ka (.stopRet 0 x))) i rfl (ka_keeps st) (by simp) (by simp) (by simp) (fun _ => rfl)
      have hx : x = s.k.pingErr := by cases st; exact (hk.returning 0 x ‹_›).2
      have hr := j.res r (by simp [hm, Main.res])
      refine inv_main (m := .last (fin r x)) j (by simp [Main.res]) ?_ (fun _ => ⟨x, by simp⟩) ?_ (by simp) (by simp) (by simp)
      · intro f hf
        simp only [Main.fin, Option.some.injEq] at hf
        subst hf
        cases x with
        | some e => simp [fin, Good]
        | none =>
          cases r with
          | spans out => exact ⟨hr, by simp⟩
          | err =>
            exfalso
            obtain ⟨a, b, hab⟩ := List.append_of_mem (i.res .err (by simp [hm, Main.res]))
            have hw : watchOf tr = watchOf a ++ .ret .err :: watchOf b := by rw [hab]; simp [watchOf]
            have := WatchSpans.C87_error (watch_exec ex) hw
            simp only [watchOf, List.mem_filterMap] at this
            obtain ⟨y, hy, hy'⟩ := this
            cases y <;> simp at hy'
            subst hy'
            exact i.ctx (by rw [hab]; exact List.mem_append_left _ hy) hx.symm
      · intro _ _ _; exact j.before (by simp [hm]) (by simp [hm]) (by simp [hm])
    | last f k' st hm =>
      have j := inv_part (s' := { s with k := k' }) (e := some (.ka (.stopCall 0))) i rfl (ka_keeps st) (by simp) (by simp) (by simp) (fun _ => rfl)
      refine inv_main (m := .lasting f) j (by simp [Main.res]) ?_ ?_ ?_ (by simp) (by simp) (by simp)
      · intro f' hf'; exact j.fin f' (by simp [hm, Main.fin] at hf' ⊢; exact hf')
      · intro _; exact j.after (by simp [hm, Main.after])
      · intro _ _ _; exact j.before (by simp [hm]) (by simp [hm]) (by simp [hm])
    | lastRet f x k' st hm =>
      have j := inv_part (s' := { s with k := k' }) (e := some (.ka (.stopRet 0 x))) i rfl (ka_keeps st) (by simp) (by simp) (by simp) (fun _ => rfl)
      refine inv_main (m := .got f) j (by simp [Main.res]) ?_ ?_ ?_ (by simp) (by simp) (by simp)
      · intro f' hf'; exact j.fin f' (by simp [hm, Main.fin] at hf' ⊢; exact hf')
      · intro _; exact j.after (by simp [hm, Main.after])
      · intro _ _ _; exact j.before (by simp [hm]) (by simp [hm]) (by simp [hm])
    | gotErr e hm =>
      simp only [Option.toList_none, List.append_nil]
      refine inv_main i (by simp [Main.res]) (by simp [Main.fin]) (fun _ => i.after (by simp [hm, Main.after])) (fun _ h => absurd rfl (h _)) (by simp) (by simp) ?_
      intro e' he'
      simp at he'
      subst he'
      exact Or.inl (i.fin (.err e) (by simp [hm, Main.fin]))
    | gotCtx hm => exact absurd (i.fin .ctx (by simp [hm, Main.fin])) (by simp [Good])
    | doc out hm =>
      have ha := i.after (by simp [hm, Main.after])
      obtain ⟨hf, hn⟩ : Ev.watch (.ret (.spans out)) ∈ tr ∧ Ev.ka (.stopRet 0 none) ∈ tr := i.fin (.spans out) (by simp [hm, Main.fin])
      have hb := i.before (by simp [hm]) (by simp [hm]) (by simp [hm])
      simp only [Option.toList_some]
      constructor
      · intro hx; exact i.ctx (by simpa using hx)
      · simp [Main.res]
      · simp [Main.fin]
      · intro _; obtain ⟨x, hx⟩ := ha; exact ⟨x, List.mem_append_left _ hx⟩
      · intro h; exact absurd rfl (h _)
      · intro rest hr; simp at hr; exact ⟨tr, [], out, [], rfl, hf, by simp [hr], rfl⟩
      · simp
      · simp
      · intro a out' b hab
        rcases snoc_split hab with ⟨_, g, g'⟩ | ⟨b', _, g⟩
        · simp at g; subst g; subst g'; exact ⟨hn, hf⟩
        · exact absurd rfl ((hb (.doc out') (by rw [g]; simp)).1 out')
      · intro a p x b hab
        rcases snoc_split hab with ⟨_, g, g'⟩ | ⟨b', _, g⟩
        · simp at g
        · exact absurd rfl ((hb (.write p x) (by rw [g]; simp)).2 p x)
    | write p ps hm =>
      have ha := i.after (by simp [hm, Main.after])
      obtain ⟨a0, b0, out, done, g1, g2, g3, g4⟩ := i.writing _ hm
      simp only [Option.toList_some]
      constructor
      · intro hx; exact i.ctx (by simpa using hx)
      · simp [Main.res]
      · simp [Main.fin]
      · intro _; obtain ⟨x, hx⟩ := ha; exact ⟨x, List.mem_append_left _ hx⟩
      · intro h; exact absurd rfl (h _)
      · intro rest hr; simp at hr; subst hr
        exact ⟨a0, b0 ++ [.write p none], out, done ++ [p], by rw [g1]; simp, g2, by rw [g3]; simp, by rw [received_append, g4]; simp [received]⟩
      · simp
      · simp
      · intro a out' b hab
        rcases snoc_split hab with ⟨_, g, g'⟩ | ⟨b', _, g⟩
        · simp at g
        · exact i.doc _ _ _ g
      · intro a p' x b hab
        rcases snoc_split hab with ⟨_, g, g'⟩ | ⟨b', _, g⟩
        · subst g'; exact ha
        · exact i.write _ _ _ _ g
    | writeErr p ps e hm =>
      have ha := i.after (by simp [hm, Main.after])
      simp only [Option.toList_some]
      constructor
      · intro hx; exact i.ctx (by simpa using hx)
      · simp [Main.res]
      · simp [Main.fin]
      · intro _; obtain ⟨x, hx⟩ := ha; exact ⟨x, List.mem_append_left _ hx⟩
      · intro _ h; exact absurd rfl (h _)
      · simp
      · simp
      · intro e' he'; simp at he'; subst he'; exact Or.inr ⟨p, by simp⟩
      · intro a out' b hab
        rcases snoc_split hab with ⟨_, g, g'⟩ | ⟨b', _, g⟩
        · simp at g
        · exact i.doc _ _ _ g
      · intro a p' x b hab
        rcases snoc_split hab with ⟨_, g, g'⟩ | ⟨b', _, g⟩
        · subst g'; exact ha
        · exact i.write _ _ _ _ g
    | written hm =>
      simp only [Option.toList_none, List.append_nil]
      refine inv_main i (by simp [Main.res]) (by simp [Main.fin]) (fun _ => i.after (by simp [hm, Main.after])) (fun _ h => absurd rfl (h _)) (by simp) ?_ (by simp)
      intro _
      obtain ⟨a0, b0, out, done, g1, g2, g3, g4⟩ := i.writing _ hm
      exact ⟨a0, b0, out, g1, g2, by rw [g4, g3]; simp⟩
    | ends r hm =>
      have j := inv_part (s' := s) (e := some (.ends r)) i rfl id (by simp) (by simp) (by simp) (fun _ => rfl)
      exact inv_main j (by simp [Main.res]) (by simp [Main.fin]) (fun _ => j.after (by simp [hm, Main.after])) (fun _ _ h => absurd rfl h) (by simp) (by simp) (by simp)

/-- After `stop` has returned. -/
theorem after_stop {tr : List Ev} {s : State} (h : Exec (Step traceOf accepts idOf parentOf pieces) init tr s) {a b : List Ev} {x : Option KeepAlive.Err} {c : Ev}
    (hab : tr = a ++ c :: b) (hx : Ev.ka (.stopRet 0 x) ∈ a) :
    (∀ e ∈ b, e ≠ .ka .ping ∧ ∀ o, e ≠ .ka (.pong o)) ∧ KeepAlive.Spec.begun (kaOf a) = KeepAlive.Spec.ended (kaOf a) := by
  obtain ⟨p, q, hpq⟩ := List.append_of_mem hx
  have hk : kaOf tr = kaOf p ++ .stopRet 0 x :: kaOf (q ++ c :: b) := by rw [hab, hpq]; simp [kaOf]
  have g := KeepAlive.C58_no_ping_after_stop (ka_exec h) hk
  refine ⟨fun e he => ⟨fun h' => ?_, fun o h' => ?_⟩, ?_⟩
  · subst h'; exact absurd rfl (g.1 .ping (List.mem_filterMap.2 ⟨Ev.ka .ping, by simp [he], rfl⟩)).1
  · subst h'; exact absurd rfl ((g.1 (.pong o) (List.mem_filterMap.2 ⟨Ev.ka (.pong o), by simp [he], rfl⟩)).2 o)
  · have hk' : kaOf a = kaOf p ++ .stopRet 0 x :: kaOf q := by rw [hpq]; simp [kaOf]
    have hq : ∀ e ∈ kaOf q, e ≠ .ping ∧ ∀ o, e ≠ .pong o := by
      intro e he
      refine g.1 e ?_
      simp only [kaOf, List.filterMap_append, List.mem_append]
      exact Or.inl he
    have z1 : KeepAlive.Spec.begun (kaOf q) = 0 := by
      unfold KeepAlive.Spec.begun
      rw [List.countP_eq_zero]
      intro e he; simpa using (hq e he).1
    have z2 : KeepAlive.Spec.ended (kaOf q) = 0 := by
      unfold KeepAlive.Spec.ended
      rw [List.countP_eq_zero]
      intro e he
      cases e with
      | pong o => exact absurd rfl ((hq _ he).2 o)
      | _ => simp
    rw [hk']
    simp only [KeepAlive.Spec.begun, KeepAlive.Spec.ended, List.countP_append, List.countP_cons] at z1 z2 g ⊢
    simp [g.2, z1, z2]

/-- **C93**.  When the document is begun no keep-alive newline is being written, and none is written from then on: newlines and document do not mix. -/
theorem C93_no_interleaving {tr : List Ev} {s : State} (h : Exec (Step traceOf accepts idOf parentOf pieces) init tr s) {a b : List Ev} {c : Ev} (hab : tr = a ++ c :: b)
    (hc : (∃ out, c = .doc out) ∨ ∃ p x, c = .write p x) :
    (∀ e ∈ b, e ≠ .ka .ping ∧ ∀ o, e ≠ .ka (.pong o)) ∧ KeepAlive.Spec.begun (kaOf a) = KeepAlive.Spec.ended (kaOf a) := by
  have i := inv_exec h
  obtain ⟨x, hx⟩ : ∃ x, Ev.ka (.stopRet 0 x) ∈ a := by
    rcases hc with ⟨out, rfl⟩ | ⟨p, x, rfl⟩
    · exact ⟨_, (i.doc a out b hab).1⟩
    · exact i.write a p x b hab
  exact after_stop h hab hx

theorem received_newlines {tr : List Ev} (h : ∀ e ∈ tr, ∀ p x, e ≠ .write p x) : ∃ n, received tr = List.replicate n 10 := by
  induction tr with
  | nil => exact ⟨0, rfl⟩
  | cons e tr ih =>
    obtain ⟨n, hn⟩ := ih fun e he => h e (by simp [he])
    match e with
    | .ka (.pong .ok) => exact ⟨n + 1, by simp [received, hn, List.replicate_succ]⟩
    | .write p x => exact absurd rfl (h _ (by simp) p x)
    | .ka (.pong (.err _)) | .ka (.pong (.panicErr _)) | .ka (.pong (.panicVal _)) | .ka (.pong .panicNil)
    | .ka .ping | .ka .cancel | .ka .parentDone | .ka (.stopCall _) | .ka (.stopRet _ _) | .watch _ | .doc _ | .ends _ => exact ⟨n, by simp [received, hn]⟩

theorem of_ends {s s' : State} {e : Option Ev} {r : Option KeepAlive.Err} (st : Step traceOf accepts idOf parentOf pieces s e s') (he : e = some (.ends r)) : s.main = .out r := by
  cases st with
  | ka e _ _ _ => cases e <;> simp at he
  | watch e _ _ _ => cases e <;> simp at he
  | ends r' h => simp at he; subst he; exact h
  | _ => simp at he

theorem of_doc {s s' : State} {e : Option Ev} {out : List Nat} (st : Step traceOf accepts idOf parentOf pieces s e s') (he : e = some (.doc out)) : s.main = .got (.spans out) := by
  cases st with
  | ka e _ _ _ => cases e <;> simp at he
  | watch e _ _ _ => cases e <;> simp at he
  | doc out' h => simp at he; subst he; exact h
  | _ => simp at he

/-- **C93**.  If the request returns nil, the writer was given newlines and then exactly the document of the spans that `WatchForSpans` returned. -/
theorem C93_output {tr : List Ev} {s : State} (h : Exec (Step traceOf accepts idOf parentOf pieces) init tr s) {a b : List Ev} (hab : tr = a ++ .ends none :: b) :
    ∃ n out, Ev.watch (.ret (.spans out)) ∈ a ∧ received a = List.replicate n 10 ++ (pieces out).flatten := by
  obtain ⟨s1, s2, h1, st, _⟩ := h.split a _ b hab
  have hm := of_ends st rfl
  obtain ⟨a0, b0, out, g1, g2, g3⟩ := (inv_exec h1).outOk hm
  obtain ⟨s3, s4, h3, st3, _⟩ := h1.split a0 _ b0 g1
  have hm3 := of_doc st3 rfl
  have hb := (inv_exec h3).before (by simp [hm3]) (by simp [hm3]) (by simp [hm3])
  obtain ⟨n, hn⟩ := received_newlines fun e he => (hb e he).2
  refine ⟨n, out, by rw [g1]; exact List.mem_append_left _ g2, ?_⟩
  rw [g1, received_append, hn]
  simp [received, g3]

/-- **C93**.  The document is about the right spans: as C87 says of `WatchForSpans`. -/
theorem C93_spans {tr : List Ev} {s : State} (h : Exec (Step traceOf accepts idOf parentOf pieces) init tr s) {a b : List Ev} {out : List Nat}
    (hab : tr = a ++ .doc out :: b) (honce : (finishes (WatchSpans.collOf (watchOf a))).Nodup)
    (hid : ∀ y ∈ finishes (WatchSpans.collOf (watchOf a)), ∀ z ∈ finishes (WatchSpans.collOf (watchOf a)), idOf y = idOf z → y = z) :
    ∃ x, accepts x = true ∧ out.head? = some x ∧ out.Nodup ∧
      (∀ l1 y l2, out = l1 ++ y :: l2 → l1 ≠ [] → traceOf y = traceOf x ∧ y ∈ finishes (WatchSpans.collOf (watchOf a)) ∧ ∃ p ∈ l1, parentOf y = some (idOf p)) ∧
      ∃ p q, watchOf a = p ++ .ret (.spans out) :: q ∧ ∀ y, WatchSpans.InTree traceOf idOf parentOf x (WatchSpans.collOf p) y → y ∈ out := by
  have hr := ((inv_exec h).doc a out b hab).2
  obtain ⟨s1, s2, h1, st, _⟩ := h.split a _ b hab
  obtain ⟨p, q, hpq⟩ := List.append_of_mem hr
  have hw : watchOf a = watchOf p ++ .ret (.spans out) :: watchOf q := by rw [hpq]; simp [watchOf]
  have hsub : ∀ y, y ∈ finishes (WatchSpans.collOf (watchOf p)) → y ∈ finishes (WatchSpans.collOf (watchOf a)) := by
    intro y hy
    rw [hw]
    simp only [WatchSpans.collOf, List.filterMap_append, Collector.finishes_append, List.mem_append] at hy ⊢
    exact Or.inl hy
  have hpre : (finishes (WatchSpans.collOf (watchOf p))).Nodup := by
    rw [hw] at honce
    simp only [WatchSpans.collOf, List.filterMap_append, Collector.finishes_append] at honce ⊢
    exact (List.nodup_append.1 honce).1
  obtain ⟨x, _, g2, _, g4, g5, g6, g7⟩ := WatchSpans.C87_result (watch_exec h1) hw hpre fun y hy z hz => hid y (hsub y hy) z (hsub z hz)
  exact ⟨x, g2, g4, g5, fun l1 y l2 hl hne => ⟨(g6 l1 y l2 hl hne).1, hsub y (g6 l1 y l2 hl hne).2.1, (g6 l1 y l2 hl hne).2.2⟩, _, _, hw, g7⟩

/-- **C93**.  If the request returns an error, it is that of the first newline that could not be written, or that of a write of the document; it is never
the error of the context. -/
theorem C93_error {tr : List Ev} {s : State} (h : Exec (Step traceOf accepts idOf parentOf pieces) init tr s) {a b : List Ev} {e : KeepAlive.Err}
    (hab : tr = a ++ .ends (some e) :: b) : KeepAlive.Spec.FirstError (kaOf a) e ∨ ∃ p, Ev.write p (some e) ∈ a := by
  obtain ⟨s1, s2, h1, st, _⟩ := h.split a _ b hab
  have hm := of_ends st rfl
  rcases (inv_exec h1).outErr e hm with g' | g
  · left
    obtain ⟨p, q, hpq⟩ := List.append_of_mem g'
    have hk : kaOf a = kaOf p ++ .stopRet 0 (some e) :: kaOf q := by rw [hpq]; simp [kaOf]
    have hF := ((KeepAlive.C58_stop_result (ka_exec h1) hk).1 e).1 rfl
    obtain ⟨x, o, y, g1, g2, g3⟩ := hF
    exact ⟨x, o, y ++ .stopRet 0 (some e) :: kaOf q, by rw [hk, g1]; simp, g2, g3⟩
  · exact Or.inr g

/-- **C93**.  After a newline could not be written, no document is. -/
theorem C93_no_document_after_failure {tr : List Ev} {s : State} (h : Exec (Step traceOf accepts idOf parentOf pieces) init tr s) {out : List Nat} (hd : Ev.doc out ∈ tr) :
    KeepAlive.Spec.NoError (kaOf tr) := by
  obtain ⟨a, b, hab⟩ := List.append_of_mem hd
  have hn := ((inv_exec h).doc a out b hab).1
  obtain ⟨p, q, hpq⟩ := List.append_of_mem hn
  have hk : kaOf tr = kaOf p ++ .stopRet 0 none :: kaOf (q ++ .doc out :: b) := by rw [hab, hpq]; simp [kaOf]
  have g1 := (KeepAlive.C58_stop_result (ka_exec h) hk).2.1 rfl
  have g2 := (KeepAlive.C58_no_ping_after_stop (ka_exec h) hk).1
  intro o e ho
  rw [hk] at ho
  rcases List.mem_append.1 ho with g | g
  · exact g1 o e g
  · rcases List.mem_cons.1 g with g | g
    · simp at g
    · exact absurd rfl ((g2 _ g).2 o)

/-- **C93**.  After a newline could not be written, `WatchForSpans` gives up by itself, whether or not a span ever matches: `keepAlive`'s own next steps
cancel the context, and then it leaves its `select`. -/
theorem C93_gives_up {tr : List Ev} {s : State} (h : Exec (Step traceOf accepts idOf parentOf pieces) init tr s) {o : KeepAlive.Outcome} {e : KeepAlive.Err}
    (hp : Ev.ka (.pong o) ∈ tr) (ho : KeepAlive.Spec.FailedWith o e) (hw : s.w.main = .watch) :
    ∃ t s', Exec (Step traceOf accepts idOf parentOf pieces) s t s' ∧ s'.w.main = .cancel .err ∧ s'.w.c = s.w.c ∧ s'.w.a = s.w.a ∧
      ∀ x ∈ t, x = .ka .cancel ∨ x = .watch .ctxDone := by
  have hk := KeepAlive.inv_exec (ka_exec h)
  have hfe : KeepAlive.firstErr (kaOf tr) ≠ none := by
    intro hn
    exact KeepAlive.firstErr_none.1 hn o e (List.mem_filterMap.2 ⟨_, hp, rfl⟩) ho
  have fromCancelled : ∀ s : State, s.k.cancelled = true → s.w.main = .watch → ∃ t s', Exec (Step traceOf accepts idOf parentOf pieces) s t s' ∧ s'.w.main = .cancel .err ∧
      s'.w.c = s.w.c ∧ s'.w.a = s.w.a ∧ ∀ x ∈ t, x = .ka .cancel ∨ x = .watch .ctxDone := by
    intro s hc hw
    have e1 := (Exec.start (step := Step traceOf accepts idOf parentOf pieces) (s₀ := s)).step _ (.ctx s _ (.ctxDone s.w) hc)
    have e2 := e1.step _ (.watch _ none _ (.selectCtx _ hw rfl) (by simp))
    exact ⟨_, _, e2, rfl, rfl, rfl, by simp⟩
  have fromCancel : ∀ s : State, s.k.loop = .cancel → s.w.main = .watch → ∃ t s', Exec (Step traceOf accepts idOf parentOf pieces) s t s' ∧ s'.w.main = .cancel .err ∧
      s'.w.c = s.w.c ∧ s'.w.a = s.w.a ∧ ∀ x ∈ t, x = .ka .cancel ∨ x = .watch .ctxDone := by
    intro s hc hw
    have st : Step traceOf accepts idOf parentOf pieces s (some (.ka .cancel)) { s with k := { s.k with cancelled := true, loop := .finished } } :=
      .ka s (some .cancel) _ (.cancel s.k hc) (by simp [kaOwn])
    obtain ⟨t, s', g1, g2⟩ := fromCancelled { s with k := { s.k with cancelled := true, loop := .finished } } rfl hw
    exact ⟨_, _, (Exec.start.step _ st).append g1, g2.1, g2.2.1, g2.2.2.1, by simpa using g2.2.2.2⟩
  have fromUnlock : ∀ s : State, s.k.loop = .unlockErr → s.w.main = .watch → ∃ t s', Exec (Step traceOf accepts idOf parentOf pieces) s t s' ∧ s'.w.main = .cancel .err ∧
      s'.w.c = s.w.c ∧ s'.w.a = s.w.a ∧ ∀ x ∈ t, x = .ka .cancel ∨ x = .watch .ctxDone := by
    intro s hc hw
    have st : Step traceOf accepts idOf parentOf pieces s none { s with k := { s.k with mu := none, loop := .cancel } } := .ka s none _ (.unlockErr s.k hc) (by simp)
    obtain ⟨t, s', g1, g2⟩ := fromCancel { s with k := { s.k with mu := none, loop := .cancel } } rfl hw
    exact ⟨_, _, (Exec.start.step _ st).append g1, g2.1, g2.2.1, g2.2.2.1, by simpa using g2.2.2.2⟩
  rcases hk.err with ⟨e', hl, _, _⟩ | ⟨hl, hpe⟩
  · have st : Step traceOf accepts idOf parentOf pieces s none { s with k := { s.k with pingErr := some e', loop := .unlockErr } } := .ka s none _ (.setErr s.k e' hl) (by simp)
    obtain ⟨t, s', g1, g2⟩ := fromUnlock { s with k := { s.k with pingErr := some e', loop := .unlockErr } } rfl hw
    exact ⟨_, _, (Exec.start.step _ st).append g1, g2.1, g2.2.1, g2.2.2.1, by simpa using g2.2.2.2⟩
  · have hne : s.k.pingErr ≠ none := by rw [hpe]; exact hfe
    rcases hk.after hne with g | g | g
    · exact fromUnlock s g hw
    · exact fromCancel s g hw
    · exact fromCancelled s (hk.finished g hne) hw

/-! ## Examples -/

/-- What `WatchForSpans` can do alone it can do here. -/
theorem lift_watch {k : KeepAlive.State} {m : Main} {w w' : WatchSpans.State} {tr : List WatchSpans.Ev}
    (h : Exec (WatchSpans.Step traceOf accepts idOf parentOf) w tr w') (hn : ∀ e ∈ tr, e ≠ .ctxDone ∧ ∀ r, e ≠ .ret r) :
    Exec (Step traceOf accepts idOf parentOf pieces) ⟨k, w, m⟩ (tr.map .watch) ⟨k, w', m⟩ := by
  induction h with
  | start => exact .start
  | @step tr s s' e h st ih =>
    have ih := ih fun e he => hn e (by simp [he])
    have := ih.step _ (.watch ⟨k, s, m⟩ e s' st (by
      intro x hx
      subst hx
      have := hn x (by simp)
      cases x with
      | ctxDone => exact absurd rfl this.1
      | ret r => exact absurd rfl (this.2 r)
      | _ => rfl))
    cases e <;> simpa using this

/-- Two newlines, then the document of the spans 10 and 11. -/
theorem sample_run : ∃ s a, Exec (Step (fun _ => 7) (fun y => y == 10) (fun y => y) (fun y => if y = 11 then some 10 else none) (fun _ => [b!"[", b!"]"])) init
    (a ++ [.ends none]) s ∧ Ev.doc [10, 11] ∈ a ∧ received a = b!"\n\n[]" := by
  obtain ⟨w, wa, hw, _, hn⟩ := WatchSpans.sample_run
  obtain ⟨w1, w2, hw1, st, _⟩ := hw.split wa _ [] rfl
  have e := Exec.start (step := Step (fun _ => 7) (fun y => y == 10) (fun y => y) (fun y => if y = 11 then some 10 else none) (fun _ => [b!"[", b!"]"])) (s₀ := init)
  have e := e.step _ (.ka _ none _ (.selectTick _ rfl) (by simp))
  have e := e.step _ (.ka _ none _ (.lock _ rfl rfl) (by simp))
  have e := e.step _ (.ka _ none _ (.checkGo _ rfl rfl rfl) (by simp))
  have e := e.step _ (.ka _ (some .ping) _ (.ping _ rfl) (by simp [kaOwn]))
  have e := e.step _ (.ka _ (some (.pong .ok)) _ (.pongOk _ .ok rfl rfl) (by simp [kaOwn]))
  have e := e.step _ (.ka _ none _ (.unlock _ rfl) (by simp))
  have e := e.step _ (.ka _ none _ (.selectTick _ rfl) (by simp))
  have e := e.step _ (.ka _ none _ (.lock _ rfl rfl) (by simp))
  have e := e.step _ (.ka _ none _ (.checkGo _ rfl rfl rfl) (by simp))
  have e := e.step _ (.ka _ (some .ping) _ (.ping _ rfl) (by simp [kaOwn]))
  have e := e.step _ (.ka _ (some (.pong .ok)) _ (.pongOk _ .ok rfl rfl) (by simp [kaOwn]))
  have e := e.step _ (.ka _ none _ (.unlock _ rfl) (by simp))
  have e := e.append (lift_watch hw1 hn)
  have e := e.step _ (.found _ _ _ st rfl)
  have e := e.step _ (.stop _ _ _ (.stopCall _ 0 rfl) rfl)
  have e := e.step _ (.ka _ none _ (.onceFirst _ 0 rfl rfl) (by simp))
  have e := e.step _ (.ka _ none _ (.close _ 0 rfl rfl) (by simp))
  have e := e.step _ (.ka _ none _ (.stopLock _ 0 rfl rfl) (by simp))
  have e := e.step _ (.ka _ none _ (.stopSet _ 0 rfl) (by simp))
  have e := e.step _ (.ka _ none _ (.stopRead _ 0 rfl) (by simp))
  have e := e.step _ (.stopped _ _ _ _ (.stopRet _ 0 none rfl) rfl)
  have e := e.step _ (.last _ _ _ (.stopCall _ 0 rfl) rfl)
  have e := e.step _ (.ka _ none _ (.onceDone _ 0 rfl rfl) (by simp))
  have e := e.step _ (.ka _ none _ (.stopLock _ 0 rfl rfl) (by simp))
  have e := e.step _ (.ka _ none _ (.stopSet _ 0 rfl) (by simp))
  have e := e.step _ (.ka _ none _ (.stopRead _ 0 rfl) (by simp))
  have e := e.step _ (.lastRet _ _ _ _ (.stopRet _ 0 none rfl) rfl)
  have e := e.step _ (.doc _ _ rfl)
  have e := e.step _ (.write _ _ _ rfl)
  have e := e.step _ (.write _ _ _ rfl)
  have e := e.step _ (.written _ rfl)
  have e := e.step _ (.ends _ _ rfl)
  refine ⟨_, _, e, by simp, ?_⟩
  have hz : ∀ l : List WatchSpans.Ev, received (l.map .watch) = [] := by
    intro l
    induction l with
    | nil => rfl
    | cons x l ih => simp [received, ih]
  simp [received_append, received, hz]

/-- A newline that cannot be written, while `WatchForSpans` waits. -/
example : ∃ s tr, Exec (Step (fun _ => 7) (fun y => y == 10) (fun y => y) (fun _ => none) (fun _ => [])) init tr s ∧ Ev.ka (.pong (.err 3)) ∈ tr ∧ s.w.main = .watch := by
  have e := Exec.start (step := Step (fun _ => 7) (fun y => y == 10) (fun y => y) (fun _ => none) (fun _ => [])) (s₀ := init)
  have e := e.step _ (.ka _ none _ (.selectTick _ rfl) (by simp))
  have e := e.step _ (.ka _ none _ (.lock _ rfl rfl) (by simp))
  have e := e.step _ (.ka _ none _ (.checkGo _ rfl rfl rfl) (by simp))
  have e := e.step _ (.ka _ (some .ping) _ (.ping _ rfl) (by simp [kaOwn]))
  have e := e.step _ (.ka _ (some (.pong (.err 3))) _ (.pongErr _ (.err 3) 3 rfl rfl) (by simp [kaOwn]))
  exact ⟨_, _, e, by simp, rfl⟩

end Monkit.TraceQuery
