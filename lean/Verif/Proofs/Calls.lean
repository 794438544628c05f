import Verif.Spec.Calls
import Verif.Props.Tasks

namespace Monkit.Calls
open Monkit.Spec
variable {E : Type}

/-- The calls of `end` in a log. -/
def fins : List (Nat × FuncStats.Op E) → List (Nat × Class E × Int64)
  | [] => []
  | (f, .finish err p d _) :: l => (f, classify err p, d) :: fins l
  | _ :: l => fins l

theorem fins_append (a b : List (Nat × FuncStats.Op E)) : fins (a ++ b) = fins a ++ fins b := by
  induction a with
  | nil => rfl
  | cons x xs ih =>
    obtain ⟨f, o⟩ := x
    cases o <;> simp [fins, ih]

/-- Starts minus ends of function `f`. -/
def bal (f : Nat) : List (Nat × FuncStats.Op E) → Int
  | [] => 0
  | (g, .start) :: l => (if g = f then 1 else 0) + bal f l
  | (g, .finish ..) :: l => (if g = f then -1 else 0) + bal f l
  | _ :: l => bal f l

theorem bal_append (f : Nat) (a b : List (Nat × FuncStats.Op E)) : bal f (a ++ b) = bal f a + bal f b := by
  induction a with
  | nil => simp [bal]
  | cons x xs ih =>
    obtain ⟨g, o⟩ := x
    cases o <;> simp only [List.cons_append, bal, ih] <;> omega

/-- The most that starts exceed ends by in any part of the log from its beginning. -/
def peak (f : Nat) : List (Nat × FuncStats.Op E) → Int
  | [] => 0
  | x :: l => max 0 (bal f [x] + peak f l)

theorem peak_nonneg (f : Nat) (a : List (Nat × FuncStats.Op E)) : 0 ≤ peak f a := by
  cases a <;> simp only [peak] <;> omega

theorem peak_append (f : Nat) (a b : List (Nat × FuncStats.Op E)) :
    peak f (a ++ b) = max (peak f a) (bal f a + peak f b) := by
  induction a with
  | nil => have := peak_nonneg f b; simp only [List.nil_append, peak, bal]; omega
  | cons x xs ih =>
    have := bal_append f [x] xs
    simp only [List.singleton_append] at this
    simp only [List.cons_append, peak, ih, this]
    omega

theorem bal_start (f g : Nat) : bal f [((g, .start) : Nat × FuncStats.Op E)] = if g = f then 1 else 0 := by simp [bal]

theorem bal_finish (f g : Nat) (e : Option E) (p : Bool) (d W : Int64) :
    bal f [((g, .finish e p d W) : Nat × FuncStats.Op E)] = if g = f then -1 else 0 := by simp [bal]

theorem peak_one (f : Nat) (x : Nat × FuncStats.Op E) : peak f [x] = max 0 (bal f [x]) := by simp [peak]

mutual
theorem plain_out (nilErr : Bool) : ∀ (c : Call E) (a b : Option Nat) (v w : Bool),
    (plain nilErr a v c).2 = (plain nilErr b w c).2
  | .mk f given id dur W body, a, b, v, w => by
    rw [plain, plain]
    exact plainBody_out nilErr body _ _
theorem plainBody_out (nilErr : Bool) : ∀ (x : Body E) (a b : Option Nat),
    (plainBody nilErr a x).2 = (plainBody nilErr b x).2
  | .ret err, a, b => by rw [plainBody, plainBody]
  | .panic v n, a, b => by rw [plainBody, plainBody]
  | .goexit n, a, b => by rw [plainBody, plainBody]
  | .call how c k, a, b => by
    rw [plainBody, plainBody]
    simp only
    rw [plain_out nilErr c _ (if inherits how then b else none) how.visible how.visible, plainBody_out nilErr _ a b]
end

def NoReset (log : List (Nat × FuncStats.Op E)) : Prop := ∀ x ∈ log, x.2 ≠ .reset

structure Good (st : State E) : Prop where
  running : ∀ s ∈ st.running, s < st.world.spans.length
  noOrphan : st.orphans = []
  wf : Tasks.WF st.world

/-- What a call (or a body) does to the state. -/
structure Ext (st st' : State E) (recs : List (Rec E)) (dep : Nat → Nat) : Prop where
  good : Good st'
  spans : ∃ l, st'.world.spans = st.world.spans ++ l
  fin : fins st'.log = fins st.log ++ recs.map (fun r => (r.func, r.cls, r.dur))
  bal : ∀ f, bal f st'.log = bal f st.log
  parents : st'.parents.Perm (st.parents ++ recs.map (fun r => (r.caller, r.func)))
  running : st'.running = st.running
  noReset : NoReset st.log → NoReset st'.log
  count : st'.spanCount = st.spanCount
  peak : ∀ f, peak f st'.log = max (peak f st.log) (Calls.bal f st.log + dep f)

theorem bal_le_peak (f : Nat) (a : List (Nat × FuncStats.Op E)) : bal f a ≤ peak f a := by
  induction a with
  | nil => simp [bal, peak]
  | cons x xs ih =>
    have := bal_append f [x] xs
    simp only [List.singleton_append] at this
    simp only [peak, this]
    omega

theorem Ext.refl {st : State E} (h : Good st) : Ext st st [] (fun _ => 0) := by
  refine ⟨h, ⟨[], by simp⟩, by simp, fun _ => rfl, by simp, rfl, id, rfl, fun f => ?_⟩
  have := bal_le_peak f st.log
  simp only [Int.ofNat_zero, Int.add_zero]; omega

theorem Ext.trans {a b c : State E} {r1 r2 : List (Rec E)} {d1 d2 : Nat → Nat} (h1 : Ext a b r1 d1) (h2 : Ext b c r2 d2) :
    Ext a c (r1 ++ r2) (fun f => max (d1 f) (d2 f)) := by
  obtain ⟨l1, e1⟩ := h1.spans
  obtain ⟨l2, e2⟩ := h2.spans
  refine ⟨h2.good, ⟨l1 ++ l2, by rw [e2, e1, List.append_assoc]⟩, ?_, fun f => (h2.bal f).trans (h1.bal f), ?_,
    h2.running.trans h1.running, fun h => h2.noReset (h1.noReset h), h2.count.trans h1.count, fun f => ?_⟩
  · rw [h2.fin, h1.fin]; simp
  · refine h2.parents.trans ?_
    rw [List.map_append, ← List.append_assoc]
    exact List.Perm.append_right _ h1.parents
  · rw [h2.peak f, h1.peak f, h1.bal f]
    omega

/-- The function whose span a pointer leads to. -/
def funcOf (w : Tasks.World) (p : Option (Option Ctx)) : Option Nat :=
  (Tasks.current p).bind fun q => (w.spans[q]?).map (·.func)

/-- The pointer leads to an existing span or none. -/
def Valid (w : Tasks.World) (p : Option (Option Ctx)) : Prop := ∀ q, Tasks.current p = some q → q < w.spans.length

theorem current_pass (p : Option (Option Ctx)) (how : Pass) :
    Tasks.current (pass p how) = if inherits how then Tasks.current p else none := by
  cases how <;> rcases p with _ | _ | c <;> try rfl
  show (Ctx.withValue c _ _).spanFrom = c.spanFrom
  cases c <;> rfl

theorem pass_isSome (p : Option (Option Ctx)) (how : Pass) : (pass p how).isSome = how.visible := by
  cases how <;> rfl

theorem raise_some {nilErr : Bool} {v : Nat} : raise nilErr (some v) = some v := by cases nilErr <;> rfl

theorem raise_true (v : Option Nat) : raise true v ≠ none := by simp [raise]

def outOf (x : Option E × Option (Option Nat) × Bool) : Out E :=
  match x.2.2, x.2.1 with
  | false, none => .ret x.1
  | false, some p => .panic p
  | true, none => .gone x.1 none
  | true, some p => .gone none (some p)

/-- No panic with a nil value is under way. -/
def Out.Sane (o : Out E) : Prop := o ≠ .panic none ∧ ∀ err, o ≠ .gone err (some none)

theorem funcOf_ext {w w' : Tasks.World} {l : List Tasks.SpanI} (h : w'.spans = w.spans ++ l) {p : Option (Option Ctx)}
    (hv : Valid w p) : funcOf w' p = funcOf w p := by
  unfold funcOf
  cases hc : Tasks.current p with
  | none => rfl
  | some q =>
    simp only [Option.bind_some]
    rw [h, List.getElem?_append_left (hv q hc)]

theorem valid_ext {w w' : Tasks.World} {l : List Tasks.SpanI} (h : w'.spans = w.spans ++ l) {p : Option (Option Ctx)}
    (hv : Valid w p) : Valid w' p := by
  intro q hq
  rw [h, List.length_append]
  exact Nat.lt_of_lt_of_le (hv q hq) (Nat.le_add_right _ _)

/-- The state in which the function body runs. -/
def entered (st : State E) (p : Option (Option Ctx)) (f : Nat) (id : Int64) : State E :=
  let r := Tasks.task st.world (fun _ => []) p f id
  { st with world := r.1, log := st.log ++ [(f, .start)],
            parents := st.parents ++ [(((r.1.spans[r.2.2]?).bind (·.parent)).bind fun q => (r.1.spans[q]?).map (·.func), f)],
            running := r.2.2 :: st.running,
            spanCount := Go.upd st.spanCount (traceOf r.1 r.2.2) (st.spanCount (traceOf r.1 r.2.2) + 1) }

theorem task_facts {w : Tasks.World} {p : Option (Option Ctx)} (hv : Valid w p) (f : Nat) (i : Int64) :
    let r := Tasks.task w (fun _ => []) p f i
    (∃ x, r.1.spans = w.spans ++ [x] ∧ x.func = f ∧ x.parent = Tasks.current p) ∧ r.2.2 = w.spans.length ∧
      (Tasks.current r.2.1 = if p.isSome then some w.spans.length else none) := by
  simp only [Tasks.task, Tasks.newSpan, Tasks.spanFrom_clean]
  cases hc : Tasks.current p with
  | none =>
    refine ⟨⟨_, rfl, rfl, rfl⟩, rfl, ?_⟩
    rcases p with _ | c <;> rfl
  | some q =>
    refine ⟨⟨_, rfl, rfl, rfl⟩, rfl, ?_⟩
    rcases p with _ | c <;> rfl

theorem entered_facts {st : State E} {p : Option (Option Ctx)} (hg : Good st) (hv : Valid st.world p) (f : Nat) (i : Int64) :
    Good (entered st p f i) ∧ Valid (entered st p f i).world (Tasks.task st.world (fun _ => []) p f i).2.1 ∧
    (∃ l, (entered st p f i).world.spans = st.world.spans ++ l) ∧
    (entered st p f i).parents = st.parents ++ [(funcOf st.world p, f)] ∧
    (entered st p f i).running = st.world.spans.length :: st.running ∧
    funcOf (entered st p f i).world (Tasks.task st.world (fun _ => []) p f i).2.1 = if p.isSome then some f else none := by
  obtain ⟨⟨x, h1, h2, h3⟩, h4, h5⟩ := task_facts hv f i
  have hl : (entered st p f i).world.spans = st.world.spans ++ [x] := h1
  refine ⟨⟨?_, hg.noOrphan, ?_⟩, ?_, ⟨[x], hl⟩, ?_, ?_, ?_⟩
  · intro s hs
    show s < (entered st p f i).world.spans.length
    rw [hl, List.length_append]
    rcases List.mem_cons.mp hs with rfl | hs
    · rw [h4]; simp
    · exact Nat.lt_of_lt_of_le (hg.running s hs) (Nat.le_add_right _ _)
  · exact Tasks.wf_newSpan (obs := fun _ => []) hg.wf (by rw [Tasks.spanFrom_clean]; exact hv) (by simp)
  · intro q hq
    rw [h5] at hq
    rw [hl, List.length_append]
    by_cases hp : p.isSome = true
    · rw [if_pos hp] at hq; cases hq; simp
    · rw [if_neg hp] at hq; cases hq
  · show st.parents ++ [_] = _
    rw [h1, h4, List.getElem?_append_right (Nat.le_refl _)]
    simp only [Nat.sub_self, List.getElem?_cons_zero, Option.bind_some, h3]
    congr 3
    unfold funcOf
    cases hc : Tasks.current p with
    | none => rfl
    | some q => simp only [Option.bind_some]; rw [List.getElem?_append_left (hv q hc)]
  · show (_ :: st.running) = _
    rw [h4]
  · unfold funcOf
    rw [h5, hl]
    by_cases hp : p.isSome = true
    · simp [hp, h2]
    · simp [hp]

mutual
theorem run_ext (nilErr : Bool) : ∀ (c : Call E) (st : State E) (p : Option (Option Ctx)), Good st → Valid st.world p →
    (nilErr = true ∨ NoNil c) →
    Ext st (run nilErr st p c).1 (plain nilErr (funcOf st.world p) p.isSome c).1 (fun f => depth nilErr f c) ∧
      (run nilErr st p c).2 = (plain nilErr (funcOf st.world p) p.isSome c).2 ∧ (run nilErr st p c).2.Sane
  | .mk f given id dur W body, st, p, hg, hv, hn => by
    obtain ⟨g1, g2, ⟨l, g3⟩, g4, g5, g6⟩ := entered_facts hg hv f id
    obtain ⟨b1, b2, b3⟩ := body_ext nilErr body (entered st p f id)
      (Tasks.task st.world (fun _ => []) p f id).2.1 g1 g2
      (by rcases hn with h | h
          · exact .inl h
          · exact .inr (by simpa [NoNil] using h))
    rw [g6] at b1 b2
    have er : run nilErr st p (.mk f given id dur W body) =
        (let b := runBody nilErr (entered st p f id) (Tasks.task st.world (fun _ => []) p f id).2.1 body
         let e := exit nilErr given b.2.1 b.2.2.1
         let s := (Tasks.task st.world (fun _ => []) p f id).2.2
         ({ b.1 with log := b.1.log ++ [(f, .finish e.1.1 e.1.2 dur W)],
                     orphans := b.1.orphans ++
                       b.1.running.filter (fun c => decide ((b.1.world.spans[c]?).bind (·.parent) = some s)),
                     running := b.1.running.filter (· ≠ s),
                     spanCount := Go.upd b.1.spanCount (traceOf b.1.world s) (b.1.spanCount (traceOf b.1.world s) + (-1)) },
          if b.2.2.2 then e.2.leave else e.2)) := by
      rw [run]; rfl
    have ep : plain nilErr (funcOf st.world p) p.isSome (.mk f given id dur W body) =
        (let b := plainBody nilErr (if p.isSome then some f else none) body
         (b.1 ++ [⟨funcOf st.world p, f, classOf given b.2, dur⟩], b.2)) := by
      rw [plain]
    rw [er, ep]
    generalize runBody nilErr (entered st p f id) (Tasks.task st.world (fun _ => []) p f id).2.1 body = rb at *
    generalize plainBody nilErr (if p.isSome then some f else none) body = pb at *
    obtain ⟨st1, named, pn, going⟩ := rb
    obtain ⟨recs, out⟩ := pb
    simp only at b1 b2 b3 ⊢
    -- the exit function
    have hx : classify (exit nilErr given named pn).1.1 (exit nilErr given named pn).1.2 = classOf given out ∧
        (if going then (exit nilErr given named pn).2.leave else (exit nilErr given named pn).2) = out ∧ out.Sane := by
      subst b2
      rcases pn with _ | _ | v
      · refine ⟨?_, by cases going <;> rfl, by cases going <;> simp [outOf, Out.Sane]⟩
        cases given <;> cases named <;> cases going <;> rfl
      · exact absurd rfl b3
      · refine ⟨by cases going <;> rfl, ?_, by cases going <;> simp [outOf, Out.Sane]⟩
        cases going <;> simp [exit, raise_some, outOf, Out.leave]
    obtain ⟨x1, x2, x3⟩ := hx
    obtain ⟨⟨_, h4, _⟩⟩ : Nonempty (_ ∧ _ ∧ _) := ⟨task_facts hv f id⟩
    obtain ⟨l2, e2⟩ := b1.spans
    have hrun : st1.running.filter (· ≠ (Tasks.task st.world (fun _ => []) p f id).2.2) = st.running := by
      rw [b1.running, g5, h4]
      rw [List.filter_cons_of_neg (by simp)]
      rw [List.filter_eq_self]
      intro s hs
      have := hg.running s hs
      simp; omega
    have hsl : (Tasks.task st.world (fun _ => []) p f id).2.2 < (entered st p f id).world.spans.length := by
      have := g1.running _ (List.mem_cons_self (a := (Tasks.task st.world (fun _ => []) p f id).2.2) (l := st.running))
      exact this
    have htr : traceOf st1.world (Tasks.task st.world (fun _ => []) p f id).2.2 =
        traceOf (entered st p f id).world (Tasks.task st.world (fun _ => []) p f id).2.2 := by
      unfold traceOf
      rw [e2, List.getElem?_append_left hsl]
    refine ⟨⟨⟨?_, ?_, b1.good.wf⟩, ⟨l ++ l2, ?_⟩, ?_, ?_, ?_, hrun, ?_, ?_, ?_⟩, x2, by rw [x2]; exact x3⟩
    · intro s hs
      rw [hrun] at hs
      show s < st1.world.spans.length
      rw [e2, g3, List.append_assoc, List.length_append]
      exact Nat.lt_of_lt_of_le (hg.running s hs) (Nat.le_add_right _ _)
    · show st1.orphans ++ _ = []
      rw [b1.good.noOrphan, List.nil_append, List.filter_eq_nil_iff]
      intro c hc
      rw [b1.running, g5, h4.symm] at hc
      cases hx : st1.world.spans[c]? with
      | none => simp
      | some y =>
        simp only [Option.bind_some, decide_eq_true_eq]
        intro hy
        have h1 := b1.good.wf.parent c y _ hx hy
        rcases List.mem_cons.mp hc with rfl | hc
        · exact Nat.lt_irrefl _ h1
        · have := hg.running c hc
          rw [h4] at h1
          omega
    · show st1.world.spans = _
      rw [e2, g3, List.append_assoc]
    · show fins (st1.log ++ _) = _
      rw [fins_append, b1.fin]
      have : fins (entered st p f id).log = fins st.log := by
        show fins (st.log ++ _) = _
        rw [fins_append]; simp [fins]
      rw [this]
      simp [fins, x1]
    · intro g
      show bal g (st1.log ++ _) = _
      rw [bal_append, b1.bal g]
      show bal g (st.log ++ _) + _ = _
      rw [bal_append]
      simp only [bal]
      split <;> omega
    · show st1.parents.Perm _
      refine b1.parents.trans ?_
      rw [g4, List.map_append, List.append_assoc]
      refine List.Perm.append_left _ ?_
      exact List.perm_append_comm
    · intro hr x hx
      rcases List.mem_append.mp hx with hx | hx
      · refine b1.noReset ?_ x hx
        intro y hy
        rcases List.mem_append.mp hy with hy | hy
        · exact hr y hy
        · simp at hy; subst hy; simp
      · simp at hx; subst hx; simp
    · show Go.upd st1.spanCount _ _ = _
      rw [htr, b1.count]
      show Go.upd (Go.upd st.spanCount _ _) _ _ = _
      funext t
      by_cases ht : t = traceOf (entered st p f id).world (Tasks.task st.world (fun _ => []) p f id).2.2
      · subst ht
        rw [Go.upd_same]
        show Go.upd st.spanCount (traceOf (entered st p f id).world _) _ _ + _ = _
        rw [Go.upd_same, Int64.add_assoc]
        exact Int64.add_zero _
      · rw [Go.upd_other _ _ ht]
        exact Go.upd_other _ _ ht
    · intro g
      show Calls.peak g (st1.log ++ _) = _
      have e1 : Calls.peak g (entered st p f id).log = max (Calls.peak g st.log) (Calls.bal g st.log + max 0 (if f = g then 1 else 0)) := by
        show Calls.peak g (st.log ++ _) = _
        rw [peak_append, peak_one, bal_start]
      have e2 : Calls.bal g (entered st p f id).log = Calls.bal g st.log + (if f = g then 1 else 0) := by
        show Calls.bal g (st.log ++ _) = _
        rw [bal_append, bal_start]
      rw [peak_append, peak_one, bal_finish, b1.peak g, b1.bal g, e1, e2, depth]
      have := bal_le_peak g st.log
      split <;> simp <;> omega
theorem body_ext (nilErr : Bool) : ∀ (b : Body E) (st : State E) (p : Option (Option Ctx)), Good st → Valid st.world p →
    (nilErr = true ∨ NoNilBody b) →
    Ext st (runBody nilErr st p b).1 (plainBody nilErr (funcOf st.world p) b).1 (fun f => depthBody nilErr f b) ∧
      outOf (runBody nilErr st p b).2 = (plainBody nilErr (funcOf st.world p) b).2 ∧
      (runBody nilErr st p b).2.2.1 ≠ some none
  | .ret err, st, p, hg, hv, hn => by
    simp only [runBody, plainBody, depthBody]
    exact ⟨Ext.refl hg, rfl, by simp⟩
  | .goexit named, st, p, hg, hv, hn => by
    simp only [runBody, plainBody, depthBody]
    exact ⟨Ext.refl hg, rfl, by simp⟩
  | .panic v named, st, p, hg, hv, hn => by
    simp only [runBody, plainBody, depthBody]
    refine ⟨Ext.refl hg, rfl, ?_⟩
    rcases hn with h | h
    · subst h; simp [raise]
    · rw [NoNilBody] at h
      cases v with
      | none => exact absurd rfl h
      | some v => rw [raise_some]; simp
  | .call how c k, st, p, hg, hv, hn => by
    have hv1 : Valid st.world (pass p how) := by
      intro q hq
      rw [current_pass] at hq
      by_cases hi : inherits how = true
      · rw [if_pos hi] at hq; exact hv q hq
      · rw [if_neg hi] at hq; cases hq
    obtain ⟨c1, c2, c3⟩ := run_ext nilErr c st (pass p how) hg hv1
      (by rcases hn with h | h
          · exact .inl h
          · rw [NoNilBody] at h; exact .inr h.1)
    have hf : funcOf st.world (pass p how) = if inherits how then funcOf st.world p else none := by
      unfold funcOf
      rw [current_pass]
      cases inherits how <;> rfl
    rw [hf, pass_isSome] at c1 c2
    obtain ⟨l, hl⟩ := c1.spans
    obtain ⟨d1, d2, d3⟩ := body_ext nilErr (k (run nilErr st (pass p how) c).2) (run nilErr st (pass p how) c).1 p
      c1.good (valid_ext hl hv)
      (by rcases hn with h | h
          · exact .inl h
          · rw [NoNilBody] at h; exact .inr (h.2 _ c3.1 c3.2))
    rw [funcOf_ext hl hv] at d1 d2
    have e1 : runBody nilErr st p (.call how c k) =
        (let r := run nilErr st (pass p how) c
         let b := runBody nilErr r.1 p (k r.2)
         (b.1, b.2.1, b.2.2.1, b.2.2.2 || r.2.isGone)) := by rw [runBody]
    have e2 : plainBody nilErr (funcOf st.world p) (.call how c k) =
        (let r := plain nilErr (if inherits how then funcOf st.world p else none) how.visible c
         let b := plainBody nilErr (funcOf st.world p) (k r.2)
         (r.1 ++ b.1, if r.2.isGone then b.2.leave else b.2)) := by rw [plainBody]
    rw [e1, e2]
    simp only
    rw [c2] at d1 d2 d3 ⊢
    refine ⟨?_, ?_, d3⟩
    rotate_left
    · rw [← d2]
      generalize (runBody nilErr (run nilErr st (pass p how) c).1 p (k _)).2 = b
      obtain ⟨n, pn, going⟩ := b
      generalize (plain nilErr (if inherits how then funcOf st.world p else none) how.visible c).2.isGone = gone
      cases gone <;> cases going <;> cases pn <;> rfl
    have := c1.trans d1
    simp only [depthBody]
    rw [plain_out nilErr c none (if inherits how then funcOf st.world p else none) true how.visible]
    exact this
end

end Monkit.Calls
