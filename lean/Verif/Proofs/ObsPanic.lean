import Verif.Spec.ObsPanic
import Verif.Proofs.Calls

namespace Monkit.ObsPanic
open Go Monkit.Spec
open Monkit.Calls (fins bal fins_append bal_append NoReset)
variable {E : Type}

theorem tell_snd (b : Nat → Option Nat) (l : List Nat) : (tell b l).2 = firstPanic b l := by
  induction l with
  | nil => rfl
  | cons o os ih =>
    simp only [tell, firstPanic, List.findSome?_cons] at ih ⊢
    cases h : b o with
    | none => simpa using ih
    | some v => rfl

/-- The calls that ran. -/
def endeds : List (Rec E) → List (Nat × Class E × Int64)
  | [] => []
  | .ended g cls dur :: l => (g, cls, dur) :: endeds l
  | _ :: l => endeds l

theorem endeds_append (a b : List (Rec E)) : endeds (a ++ b) = endeds a ++ endeds b := by
  induction a with
  | nil => rfl
  | cons x xs ih => cases x <;> simp [endeds, ih]

theorem cuts_append (f : Nat) (a b : List (Rec E)) : cuts f (a ++ b) = cuts f a + cuts f b := by
  induction a with
  | nil => simp [cuts]
  | cons x xs ih => cases x <;> simp [cuts, ih] <;> omega

theorem brokens_append (f : Nat) (a b : List (Rec E)) : brokens f (a ++ b) = brokens f a + brokens f b := by
  induction a with
  | nil => simp [brokens]
  | cons x xs ih => cases x <;> simp [brokens, ih] <;> omega

theorem endedOf_eq (f : Nat) (l : List (Rec E)) : endedOf f l = ((endeds l).filter (fun x => decide (x.1 = f))).map (·.2) := by
  induction l with
  | nil => rfl
  | cons x xs ih =>
    cases x with
    | ended g cls dur => by_cases h : g = f <;> simp [endedOf, endeds, h, ih]
    | cut g => simp [endedOf, endeds, ih]
    | unannounced => simp [endedOf, endeds, ih]
    | broken t => simp [endedOf, endeds, ih]

/-- The function of a span. -/
def isFunc (spans : List SpanI) (f s : Nat) : Bool := decide ((spans[s]?).map (·.func) = some f)

/-- The trace of a span. -/
def isTrace (spans : List SpanI) (t s : Nat) : Bool := decide ((spans[s]?).map (·.trace) = some t)

/-- The parent of a span. -/
def parentOf (spans : List SpanI) (s : Nat) : Option Nat := (spans[s]?).bind (·.parent)

/-- What a call made by a function with span `cur`, or its body, does to the state; `left` are the spans it leaves. -/
structure Ext (cur : Option Nat) (st st' : State E) (recs : List (Rec E)) (left : List Nat) : Prop where
  spans : ∃ l, st'.spans = st.spans ++ l
  running : st'.running = left ++ st.running
  range : ∀ s ∈ left, st.spans.length ≤ s ∧ s < st'.spans.length
  nodup : left.Nodup
  func : ∀ f, left.countP (isFunc st'.spans f) = cuts f recs
  parent : ∀ s ∈ left, ∀ q, parentOf st'.spans s = some q → some q = cur ∨ st.spans.length ≤ q
  orphans : ∃ os, st'.orphans = st.orphans ++ os ∧ ∀ s, s ∈ os ↔ s ∈ left ∧ ∃ q, parentOf st'.spans s = some q ∧ st.spans.length ≤ q
  count : ∀ t, st'.spanCount t = st.spanCount t + Int64.ofNat (left.countP (isTrace st'.spans t) + brokens t recs)
  fin : fins st'.log = fins st.log ++ endeds recs
  bal : ∀ f, Calls.bal f st'.log = Calls.bal f st.log + cuts f recs
  noReset : NoReset st.log → NoReset st'.log

theorem countP_mono {l : List SpanI} {m : List SpanI} {left : List Nat} (h : ∀ s ∈ left, s < l.length) :
    (∀ f, left.countP (isFunc (l ++ m) f) = left.countP (isFunc l f)) ∧ (∀ t, left.countP (isTrace (l ++ m) t) = left.countP (isTrace l t)) ∧
    ∀ s ∈ left, parentOf (l ++ m) s = parentOf l s := by
  refine ⟨fun f => ?_, fun t => ?_, fun s hs => ?_⟩
  · apply List.countP_congr
    intro s hs; unfold isFunc; rw [List.getElem?_append_left (h s hs)]
  · apply List.countP_congr
    intro s hs; unfold isTrace; rw [List.getElem?_append_left (h s hs)]
  · unfold parentOf; rw [List.getElem?_append_left (h s hs)]

theorem Ext.refl (cur : Option Nat) (st : State E) : Ext cur st st [] [] :=
  ⟨⟨[], by simp⟩, rfl, by simp, List.nodup_nil, fun _ => rfl, by simp, ⟨[], by simp⟩, fun t => by simp [brokens], by simp [endeds],
    fun f => by simp [cuts], id⟩

theorem Ext.len {cur : Option Nat} {st st' : State E} {r : List (Rec E)} {left : List Nat} (h : Ext cur st st' r left) :
    st.spans.length ≤ st'.spans.length := by
  obtain ⟨l, e⟩ := h.spans
  rw [e, List.length_append]; omega

theorem Ext.trans {cur : Option Nat} {a b c : State E} {r1 r2 : List (Rec E)} {l1 l2 : List Nat} (hc : ∀ q, cur = some q → q < a.spans.length)
    (h1 : Ext cur a b r1 l1) (h2 : Ext cur b c r2 l2) : Ext cur a c (r1 ++ r2) (l2 ++ l1) := by
  obtain ⟨m1, e1⟩ := h1.spans
  obtain ⟨m2, e2⟩ := h2.spans
  obtain ⟨o1, p1, p1'⟩ := h1.orphans
  obtain ⟨o2, p2, p2'⟩ := h2.orphans
  have n1 := h1.len
  have n2 := h2.len
  obtain ⟨k1, k2, k3⟩ := countP_mono (l := b.spans) (m := m2) (left := l1) fun s hs => (h1.range s hs).2
  rw [← e2] at k1 k2 k3
  refine ⟨⟨m1 ++ m2, by rw [e2, e1, List.append_assoc]⟩, by rw [h2.running, h1.running, List.append_assoc], ?_, ?_, ?_, ?_, ⟨o1 ++ o2, ?_, ?_⟩, ?_, ?_, ?_,
    fun h => h2.noReset (h1.noReset h)⟩
  · intro s hs
    rcases List.mem_append.mp hs with hs | hs
    · have := h2.range s hs; omega
    · have := h1.range s hs; omega
  · refine List.nodup_append.mpr ⟨h2.nodup, h1.nodup, ?_⟩
    intro x hx y hy e
    subst e
    have := h2.range x hx; have := h1.range x hy; omega
  · intro f
    rw [List.countP_append, h2.func, k1, h1.func, cuts_append]; omega
  · intro s hs q hq
    rcases List.mem_append.mp hs with hs | hs
    · rcases h2.parent s hs q hq with h | h
      · exact .inl h
      · exact .inr (by omega)
    · rw [k3 s hs] at hq
      exact h1.parent s hs q hq
  · rw [p2, p1, List.append_assoc]
  · intro s
    rw [List.mem_append, List.mem_append, p1', p2']
    constructor
    · rintro (⟨h, q, h', h''⟩ | ⟨h, q, h', h''⟩)
      · exact ⟨.inr h, q, by rw [k3 s h]; exact h', h''⟩
      · exact ⟨.inl h, q, h', by omega⟩
    · rintro ⟨h | h, q, h', h''⟩
      · refine .inr ⟨h, q, h', ?_⟩
        rcases h2.parent s h q h' with e | e
        · have := hc q e.symm; omega
        · exact e
      · rw [k3 s h] at h'
        exact .inl ⟨h, q, h', h''⟩
  · intro t
    rw [h2.count, h1.count, List.countP_append, k2, brokens_append, Int64.add_assoc, ← Int64.ofNat_add]
    congr 2; omega
  · rw [h2.fin, h1.fin, endeds_append, List.append_assoc]
  · intro f
    rw [h2.bal, h1.bal, cuts_append]; push_cast; omega

/-- Another caller: what is left has either no parent, or one inside, or was left by a callee of `cur`. -/
theorem Ext.nil {cur : Option Nat} {st st' : State E} {r : List (Rec E)} {left : List Nat} (h : Ext none st st' r left) : Ext cur st st' r left :=
  ⟨h.spans, h.running, h.range, h.nodup, h.func, fun s hs q hq => .inr ((h.parent s hs q hq).resolve_left (by simp)), h.orphans, h.count, h.fin, h.bal, h.noReset⟩

theorem Ext.unann {cur : Option Nat} {st st' : State E} {left : List Nat} (h : Ext cur st st' [] left) : Ext cur st st' [.unannounced] left :=
  ⟨h.spans, h.running, h.range, h.nodup, h.func, h.parent, h.orphans, h.count, h.fin, h.bal, h.noReset⟩

theorem Ext.broke {cur : Option Nat} {st st' : State E} {left : List Nat} (h : Ext cur st st' [] left) : Ext cur st st' [.broken none] left :=
  ⟨h.spans, h.running, h.range, h.nodup, h.func, h.parent, h.orphans, fun t => by simpa [brokens] using h.count t, h.fin, h.bal, h.noReset⟩

theorem isTrace_iff {spans : List SpanI} {s : Nat} (h : s < spans.length) (t : Nat) : isTrace spans t s = decide (traceOf spans s = t) := by
  unfold isTrace traceOf
  rw [List.getElem?_eq_getElem h]
  simp

/-- A span that starts. -/
theorem start_ext (obs : Nat → List Nat) (st : State E) (parent : Option Nat) (t f : Nat) (on : Nat → Option Nat) (hv : ∀ q, parent = some q → q < st.spans.length) :
    Ext parent st (startSpan obs st parent t f on).1 [.cut f] [st.spans.length] ∧
      (startSpan obs st parent t f on).1.spans = st.spans ++ [⟨f, t, parent⟩] := by
  have hp : parentOf (st.spans ++ [⟨f, t, parent⟩]) st.spans.length = parent := by
    unfold parentOf; simp
  refine ⟨⟨⟨_, rfl⟩, rfl, ?_, by simp, ?_, ?_, ⟨[], ?_, ?_⟩, ?_, ?_, ?_, ?_⟩, rfl⟩
  · intro s hs
    rw [List.mem_singleton] at hs
    subst hs
    exact ⟨Nat.le_refl _, by show _ < (st.spans ++ [_]).length; simp⟩
  · intro g
    show List.countP (isFunc (st.spans ++ [_]) g) _ = _
    by_cases h : f = g <;> simp [isFunc, cuts, h]
  · intro s hs q hq
    rw [List.mem_singleton] at hs
    subst hs
    exact .inl (hq.symm.trans hp)
  · simp [startSpan]
  · intro s
    simp only [List.not_mem_nil, List.mem_singleton, false_iff]
    rintro ⟨rfl, q, h, h'⟩
    have := hv q (hp.symm.trans h); omega
  · intro u
    show upd st.spanCount t _ u = _ + Int64.ofNat (List.countP (isTrace (st.spans ++ [_]) u) _ + _)
    by_cases h : u = t
    · subst h; simp [isTrace, brokens]
    · rw [upd_other _ _ h]; simp [isTrace, brokens, Ne.symm h]
  · show fins (st.log ++ _) = _
    rw [fins_append]; rfl
  · intro g
    show Calls.bal g (st.log ++ _) = _
    rw [bal_append]
    simp [Calls.bal, cuts]
  · intro h x hx
    rcases List.mem_append.mp hx with hx | hx
    · exact h x hx
    · simp at hx; subst hx; simp

/-- A span that ends after its body. -/
theorem exit_ext (obs : Nat → List Nat) {st st1 : State E} {parent : Option Nat} {t f : Nat} {on : Nat → Option Nat} (given : Bool) (dur W : Int64)
    (onF : Nat → Option Nat) (o : Out E) (named : Option E) (hv : ∀ q, parent = some q → q < st.spans.length) (hr : ∀ s ∈ st.running, s < st.spans.length)
    {recs : List (Rec E)} {left : List Nat} (hn : ∀ e, o = .ret e → named = e)
    (hb : Ext (some st.spans.length) (startSpan obs st parent t f on).1 st1 recs left)
    (hroot : ∀ s ∈ st.running, parentOf st.spans s ≠ some st.spans.length) :
    Ext parent st (exitSpan obs st1 st.spans.length t f given dur W onF o named).1 (recs ++ [.ended f (classOf given o) dur]) left := by
  obtain ⟨ha, hs⟩ := start_ext obs st parent t f on hv
  obtain ⟨l, hl⟩ := hb.spans
  have hlen : (startSpan obs st parent t f on).1.spans.length = st.spans.length + 1 := by rw [hs]; simp
  obtain ⟨os, ho, ho'⟩ := hb.orphans
  have hrun1 : st1.running = left ++ st.spans.length :: st.running := by rw [hb.running, ha.running]; rfl
  have hmem : st1.spans[st.spans.length]? = some ⟨f, t, parent⟩ := by
    rw [hl, hs, List.append_assoc, List.getElem?_append_right (Nat.le_refl _)]; simp
  refine ⟨⟨⟨f, t, parent⟩ :: l, ?_⟩, ?_, ?_, hb.nodup, ?_, ?_,
    ⟨os ++ st1.running.filter (fun c => decide ((st1.spans[c]?).bind (·.parent) = some st.spans.length)), ?_, ?_⟩, ?_, ?_, ?_, ?_⟩
  · show st1.spans = _
    rw [hl, hs, List.append_assoc]; rfl
  · show st1.running.filter _ = _
    rw [hrun1, List.filter_append, List.filter_cons_of_neg (by simp)]
    congr 1
    · rw [List.filter_eq_self]
      intro s h
      have := (hb.range s h).1
      simp; omega
    · rw [List.filter_eq_self]
      intro s h
      have := hr s h
      simp; omega
  · intro s h
    have := hb.range s h
    exact ⟨by omega, this.2⟩
  · intro g
    rw [cuts_append]
    exact hb.func g
  · intro s h q hq
    rcases hb.parent s h q hq with e | e
    · cases e; exact .inr (Nat.le_refl _)
    · exact .inr (by omega)
  · show st1.orphans ++ _ = _
    rw [ho, List.append_assoc]
    rfl
  · intro s
    show _ ↔ _ ∧ ∃ q, parentOf st1.spans s = some q ∧ _
    rw [List.mem_append, List.mem_filter, ho', hrun1, List.mem_append, List.mem_cons, decide_eq_true_eq]
    constructor
    · rintro (⟨h, q, h1, h2⟩ | ⟨h, h1⟩)
      · exact ⟨h, q, h1, by omega⟩
      · rcases h with h | rfl | h
        · exact ⟨h, _, h1, Nat.le_refl _⟩
        · rw [hmem] at h1
          have := hv _ h1; omega
        · exfalso
          apply hroot s h
          have e : st1.spans[s]? = st.spans[s]? := by
            rw [hl, hs, List.append_assoc, List.getElem?_append_left (hr s h)]
          rw [e] at h1
          exact h1
    · rintro ⟨h, q, h1, h2⟩
      rcases hb.parent s h q h1 with e | e
      · cases e; exact .inr ⟨.inl h, h1⟩
      · exact .inl ⟨h, q, h1, e⟩
  · intro u
    show upd st1.spanCount t _ u = _ + Int64.ofNat (List.countP (isTrace st1.spans u) _ + _)
    have e1 := hb.count u
    have e0 : (startSpan obs st parent t f on).1.spanCount u = upd st.spanCount t (st.spanCount t + 1) u := rfl
    rw [brokens_append]
    show _ = _ + Int64.ofNat (_ + (_ + 0))
    rw [Nat.add_zero]
    by_cases h : u = t
    · subst h
      rw [upd_same, e1, e0, upd_same]
      generalize Int64.ofNat _ = x
      rw [Int64.add_assoc, Int64.add_assoc, Int64.add_comm 1, Int64.add_assoc x]
      have : (-1 : Int64) + 1 = 0 := by decide
      rw [this, Int64.add_zero]
    · rw [upd_other _ _ h, e1, e0, upd_other _ _ h]
  · show fins (st1.log ++ _) = _
    rw [fins_append, hb.fin, ha.fin, endeds_append]
    simp only [endeds, List.append_nil, fins, List.append_assoc]
    cases o with
    | panic v => rfl
    | ret e => cases hn e rfl; cases given <;> cases named <;> rfl
  · intro g
    show Calls.bal g (st1.log ++ _) = _
    rw [bal_append, hb.bal, ha.bal, cuts_append]
    simp only [Calls.bal, cuts]
    by_cases h : f = g <;> simp [h] <;> omega
  · intro h x hx
    rcases List.mem_append.mp hx with hx | hx
    · exact hb.noReset (ha.noReset h) x hx
    · simp at hx; subst hx; simp

/-- Spans are listed once made, and are made after their parents. -/
structure Good (st : State E) : Prop where
  running : ∀ s ∈ st.running, s < st.spans.length
  parent : ∀ s q, parentOf st.spans s = some q → q < s

theorem Good.root {st : State E} (h : Good st) : ∀ s ∈ st.running, parentOf st.spans s ≠ some st.spans.length := by
  intro s hs he
  have := h.running s hs
  have := h.parent s _ he
  omega

theorem Good.start {obs : Nat → List Nat} {st : State E} (h : Good st) {parent : Option Nat} {t f : Nat} {on : Nat → Option Nat}
    (hv : ∀ q, parent = some q → q < st.spans.length) : Good (startSpan obs st parent t f on).1 := by
  obtain ⟨ha, hs⟩ := start_ext obs st parent t f on hv
  constructor
  · intro s hs'
    rw [ha.running, List.singleton_append, List.mem_cons] at hs'
    rw [hs, List.length_append]
    rcases hs' with rfl | h'
    · simp
    · have := h.running s h'; omega
  · intro s q hq
    rw [hs] at hq
    unfold parentOf at hq
    by_cases hlt : s < st.spans.length
    · rw [List.getElem?_append_left hlt] at hq
      exact h.parent s q hq
    · by_cases he : s = st.spans.length
      · subst he
        simp at hq
        exact hv q hq
      · rw [List.getElem?_eq_none (by simp; omega)] at hq
        cases hq

theorem run_mk (obs : Nat → List Nat) (st : State E) (parent : Option Nat) (f : Nat) (given : Bool) (dur W : Int64) (watch : Option Nat)
    (on onF : Nat → Option Nat) (body : Body E) :
    run obs st parent (.mk f given dur W watch on onF body) =
      (let t := match parent with | some q => traceOf st.spans q | none => st.traces
       let st := match parent with | some _ => st | none => { st with traces := st.traces + 1 }
       match (match parent with | some _ => none | none => watch) with
       | some v => (st, .panic v)
       | none =>
         match (startSpan obs st parent t f on).2 with
         | some v => ((startSpan obs st parent t f on).1, .panic v)
         | none =>
           let b := runBody obs (startSpan obs st parent t f on).1 st.spans.length body
           exitSpan obs b.1 st.spans.length t f given dur W onF b.2.1 b.2.2) := by rw [run.eq_def]; cases parent <;> cases watch <;> rfl

theorem Ext.same {cur : Option Nat} {st st' st'' : State E} {r : List (Rec E)} {left : List Nat} (h : Ext cur st' st'' r left)
    (h1 : st'.spans = st.spans) (h2 : st'.running = st.running) (h3 : st'.orphans = st.orphans) (h4 : st'.spanCount = st.spanCount) (h5 : st'.log = st.log) :
    Ext cur st st'' r left := by
  obtain ⟨a1, a2, a3, a4, a5, a6, a7, a8, a9, a10, a11⟩ := h
  rw [h1] at a1 a3 a6 a7
  rw [h2] at a2
  rw [h3] at a7
  rw [h4] at a8
  rw [h5] at a9 a10 a11
  exact ⟨a1, a2, a3, a4, a5, a6, a7, a8, a9, a10, a11⟩

mutual
theorem run_ext (obs : Nat → List Nat) : ∀ (c : Call E) (st : State E) (parent : Option Nat), Good st → (∀ q, parent = some q → q < st.spans.length) →
    let r := run obs st parent c
    let p := plain obs (parent.map (traceOf st.spans)) st.traces c
    (∃ left, Ext parent st r.1 p.1 left) ∧ Good r.1 ∧ r.1.traces = p.2.1 ∧ r.2 = p.2.2
  | .mk f given dur W watch on onF body, st, parent, hg, hv => by
    intro r p
    -- the state in which the span starts
    have key : ∀ (st0 : State E) (t : Nat), st0.spans = st.spans → st0.running = st.running → st0.orphans = st.orphans → st0.spanCount = st.spanCount →
        st0.log = st.log →
        (r = match (startSpan obs st0 parent t f on).2 with
         | some v => ((startSpan obs st0 parent t f on).1, .panic v)
         | none =>
           let b := runBody obs (startSpan obs st0 parent t f on).1 st0.spans.length body
           exitSpan obs b.1 st0.spans.length t f given dur W onF b.2.1 b.2.2) →
        (p = match firstPanic on (obs t) with
          | some v => ([.cut f], st0.traces, .panic v)
          | none =>
            let b := plainBody obs t st0.traces body
            (b.1 ++ [.ended f (classOf given b.2.2) dur], b.2.1,
              match firstPanic onF (obs t) with | some v => .panic v | none => b.2.2)) →
        (∃ left, Ext parent st r.1 p.1 left) ∧ Good r.1 ∧ r.1.traces = p.2.1 ∧ r.2 = p.2.2 := by
      intro st0 t e1 e2 e3 e4 e5 er ep
      have hg0 : Good st0 := ⟨by rw [e1, e2]; exact hg.running, by rw [e1]; exact hg.parent⟩
      have hv0 : ∀ q, parent = some q → q < st0.spans.length := by rw [e1]; exact hv
      obtain ⟨ha, hs⟩ := start_ext obs st0 parent t f on hv0
      have hgs : Good (startSpan obs st0 parent t f on).1 := hg0.start hv0
      have e0 : (startSpan obs st0 parent t f on).2 = firstPanic on (obs t) := tell_snd _ _
      rw [er, ep, e0]
      cases hfp : firstPanic on (obs t) with
      | some v => exact ⟨⟨_, ha.same e1 e2 e3 e4 e5⟩, hgs, rfl, rfl⟩
      | none =>
        dsimp only
        have ht : traceOf (startSpan obs st0 parent t f on).1.spans st0.spans.length = t := by
          rw [hs]; unfold traceOf; simp
        obtain ⟨⟨left, b1⟩, b2, b3, b4, b5⟩ := body_ext obs body (startSpan obs st0 parent t f on).1 st0.spans.length hgs
          (by rw [hs]; simp)
        rw [ht] at b1 b3 b4
        generalize hrb : runBody obs (startSpan obs st0 parent t f on).1 st0.spans.length body = rb at *
        have htr : (startSpan obs st0 parent t f on).1.traces = st0.traces := rfl
        rw [htr] at b1 b3 b4
        generalize plainBody obs t st0.traces body = pb at *
        have hx := exit_ext obs (on := on) given dur W onF rb.2.1 rb.2.2 hv0 hg0.running b5 b1 hg0.root
        have hxs := hx
        rw [b4] at hx
        refine ⟨⟨left, ?_⟩, ?_, ?_, ?_⟩
        · rw [b4]
          exact hx.same e1 e2 e3 e4 e5
        · constructor
          · intro s hs'
            rw [hxs.running] at hs'
            rcases List.mem_append.mp hs' with h | h
            · exact (hxs.range s h).2
            · have := hg0.running s h
              have := hxs.len
              omega
          · exact b2.parent
        · exact b3
        · show (match (tell onF (obs t)).2 with | some v => Out.panic v | none => rb.2.1) = _
          rw [tell_snd, b4]
    have er : r = _ := run_mk obs st parent f given dur W watch on onF body
    cases parent with
    | some q =>
      exact key st (traceOf st.spans q) rfl rfl rfl rfl rfl er (by show plain obs _ _ _ = _; rw [plain.eq_def]; rfl)
    | none =>
      cases watch with
      | some v =>
        have ep : p = ([.unannounced], st.traces + 1, .panic v) := by show plain obs _ _ _ = _; rw [plain.eq_def]; rfl
        rw [er, ep]
        exact ⟨⟨[], ((Ext.refl none { st with traces := st.traces + 1 }).same (st := st) rfl rfl rfl rfl rfl).unann⟩, ⟨hg.running, hg.parent⟩, rfl, rfl⟩
      | none => exact key { st with traces := st.traces + 1 } st.traces rfl rfl rfl rfl rfl er (by show plain obs _ _ _ = _; rw [plain.eq_def]; rfl)
  | .broken v, st, parent, hg, hv => by
    intro r p
    cases parent with
    | none =>
      have er : r = ({ st with traces := st.traces + 1 }, .panic v) := by show run obs _ _ _ = _; rw [run.eq_def]
      have ep : p = ([.broken none], st.traces + 1, .panic v) := by show plain obs _ _ _ = _; rw [plain.eq_def]; rfl
      rw [er, ep]
      exact ⟨⟨[], ((Ext.refl none { st with traces := st.traces + 1 }).same (st := st) rfl rfl rfl rfl rfl).broke⟩, ⟨hg.running, hg.parent⟩, rfl, rfl⟩
    | some q =>
      have er : r = ({ st with spanCount := upd st.spanCount (traceOf st.spans q) (st.spanCount (traceOf st.spans q) + 1) }, .panic v) := by
        show run obs _ _ _ = _; rw [run.eq_def]
      have ep : p = ([.broken (some (traceOf st.spans q))], st.traces, .panic v) := by show plain obs _ _ _ = _; rw [plain.eq_def]; rfl
      rw [er, ep]
      refine ⟨⟨[], ⟨[], by simp⟩, rfl, by simp, List.nodup_nil, fun _ => rfl, by simp, ⟨[], by simp⟩, fun t => ?_, by simp [endeds], fun f => by simp [cuts], id⟩,
        ⟨hg.running, hg.parent⟩, rfl, rfl⟩
      show upd st.spanCount _ _ t = _
      by_cases h : t = traceOf st.spans q
      · subst h; simp [brokens]
      · rw [upd_other _ _ h]; simp [brokens, Ne.symm h]
theorem body_ext (obs : Nat → List Nat) : ∀ (b : Body E) (st : State E) (s : Nat), Good st → s < st.spans.length →
    let r := runBody obs st s b
    let p := plainBody obs (traceOf st.spans s) st.traces b
    (∃ left, Ext (some s) st r.1 p.1 left) ∧ Good r.1 ∧ r.1.traces = p.2.1 ∧ r.2.1 = p.2.2 ∧ ∀ e, r.2.1 = .ret e → r.2.2 = e
  | .ret err, st, s, hg, hs => by
    intro r p
    have er : r = (st, .ret err, err) := by show runBody obs st s _ = _; rw [runBody]
    have ep : p = ([], st.traces, .ret err) := by show plainBody obs _ _ _ = _; rw [plainBody]
    rw [er, ep]
    exact ⟨⟨[], Ext.refl _ _⟩, hg, rfl, rfl, fun e he => by cases he; rfl⟩
  | .panic v named, st, s, hg, hs => by
    intro r p
    have er : r = (st, .panic v, named) := by show runBody obs st s _ = _; rw [runBody]
    have ep : p = ([], st.traces, .panic v) := by show plainBody obs _ _ _ = _; rw [plainBody]
    rw [er, ep]
    exact ⟨⟨[], Ext.refl _ _⟩, hg, rfl, rfl, fun e he => by cases he⟩
  | .call inherit c k, st, s, hg, hs => by
    intro r p
    have er : r = (let r := run obs st (if inherit then some s else none) c
      runBody obs r.1 s (k r.2)) := by show runBody obs st s _ = _; rw [runBody]
    have ep : p = (let r := plain obs (if inherit then some (traceOf st.spans s) else none) st.traces c
      let b := plainBody obs (traceOf st.spans s) r.2.1 (k r.2.2)
      (r.1 ++ b.1, b.2)) := by show plainBody obs _ _ _ = _; rw [plainBody]
    rw [er, ep]
    obtain ⟨⟨l1, c1⟩, c2, c3, c4⟩ := run_ext obs c st (if inherit then some s else none) hg
      (by intro q hq; cases inherit <;> simp at hq; omega)
    have hm : (if inherit then some s else none).map (traceOf st.spans) = if inherit then some (traceOf st.spans s) else none := by
      cases inherit <;> rfl
    rw [hm] at c1 c3 c4
    dsimp only
    generalize run obs st (if inherit then some s else none) c = rc at *
    generalize plain obs (if inherit then some (traceOf st.spans s) else none) st.traces c = pc at *
    have c1' : Ext (some s) st rc.1 pc.1 l1 := by cases inherit; exact c1.nil; exact c1
    obtain ⟨⟨l2, d1⟩, d2, d3, d4, d5⟩ := body_ext obs (k rc.2) rc.1 s c2 (by have := c1'.len; omega)
    obtain ⟨m, hm⟩ := c1'.spans
    have ht : traceOf rc.1.spans s = traceOf st.spans s := by
      unfold traceOf; rw [hm, List.getElem?_append_left hs]
    rw [ht, c3, c4] at d1 d3 d4
    rw [c4] at d2 d5
    rw [c4]
    exact ⟨⟨_, c1'.trans (by intro q hq; cases hq; exact hs) d1⟩, d2, d3, d4, d5⟩
end

end Monkit.ObsPanic
