import Verif.Proofs.ObsPanic

namespace Monkit.ObsPanic
open Go Monkit.Spec
variable {E : Type}

theorem tell_all {b : Nat → Option Nat} (h : ∀ o, b o = none) (l : List Nat) : tell b l = (l, none) := by
  induction l with
  | nil => rfl
  | cons o os ih => simp only [tell, h o, ih]

theorem tell_count {b : Nat → Option Nat} {o : Nat} (h : ∀ p, p ≠ o → b p = none) : ∀ (l : List Nat), l.Nodup → (tell b l).1.count o = l.count o
  | [], _ => rfl
  | p :: l, hn => by
    have hn' := List.nodup_cons.mp hn
    simp only [tell]
    cases hb : b p with
    | none => simp only [List.count_cons, tell_count h l hn'.2]
    | some v =>
      have : p = o := by
        by_cases e : p = o
        · exact e
        · rw [h p e] at hb; cases hb
      subst this
      rw [List.count_cons, List.count_cons, List.count_nil, List.count_eq_zero.mpr hn'.1]

/-- What an observer `o` that should be told of every span was told between two states. -/
structure ToldExt (obs : Nat → List Nat) (o : Nat) (st st' : State E) : Prop where
  told : ∃ ts, st'.told = st.told ++ ts ∧ ∀ x,
    ts.count (.start o x) = (if st.spans.length ≤ x ∧ x < st'.spans.length then (obs (traceOf st'.spans x)).count o else 0) ∧
    ts.count (.finish o x) = (if st.spans.length ≤ x ∧ x < st'.spans.length then (obs (traceOf st'.spans x)).count o else 0)

theorem traceOf_append {l m : List SpanI} {x : Nat} (h : x < l.length) : traceOf (l ++ m) x = traceOf l x := by
  unfold traceOf; rw [List.getElem?_append_left h]

theorem ToldExt.trans {obs : Nat → List Nat} {o : Nat} {a b c : State E} (h1 : ToldExt obs o a b) (h2 : ToldExt obs o b c)
    (e1 : ∃ l, b.spans = a.spans ++ l) (e2 : ∃ l, c.spans = b.spans ++ l) : ToldExt obs o a c := by
  obtain ⟨t1, p1, q1⟩ := h1
  obtain ⟨t2, p2, q2⟩ := h2
  obtain ⟨l1, e1⟩ := e1
  obtain ⟨l2, e2⟩ := e2
  have n1 : a.spans.length ≤ b.spans.length := by rw [e1, List.length_append]; omega
  have n2 : b.spans.length ≤ c.spans.length := by rw [e2, List.length_append]; omega
  refine ⟨t1 ++ t2, by rw [p2, p1, List.append_assoc], fun x => ?_⟩
  rw [List.count_append, List.count_append, (q1 x).1, (q1 x).2, (q2 x).1, (q2 x).2]
  by_cases h : x < b.spans.length
  · rw [e2, traceOf_append h, ← e2]
    by_cases ha : a.spans.length ≤ x
    · have : ¬ b.spans.length ≤ x := by omega
      simp only [ha, h, this, show x < c.spans.length by omega, true_and, false_and, if_true, if_false, Nat.add_zero, and_self]
    · have : ¬ b.spans.length ≤ x := by omega
      simp only [ha, this, false_and, if_false, and_self]
  · have : b.spans.length ≤ x := by omega
    have ha : a.spans.length ≤ x := by omega
    simp only [h, this, ha, and_false, true_and, if_false, Nat.zero_add, and_self]

theorem ToldExt.refl (obs : Nat → List Nat) (o : Nat) (st st' : State E) (h : st'.told = st.told) (h' : st'.spans = st.spans) : ToldExt obs o st st' :=
  ⟨[], by simp [h], fun x => by rw [h']; have : ¬ (st.spans.length ≤ x ∧ x < st.spans.length) := by omega
                                simp [this]⟩

theorem count_map_start (l : List Nat) (o s x : Nat) : (l.map fun o => Told.start o s).count (.start o x) = if x = s then l.count o else 0 := by
  induction l with
  | nil => simp
  | cons p l ih =>
    rw [List.map_cons, List.count_cons, ih, List.count_cons]
    by_cases h : x = s
    · subst h; by_cases h2 : p = o <;> simp [h2]
    · simp [h, Ne.symm h]

theorem count_map_finish (l : List Nat) (o s x : Nat) : (l.map fun o => Told.finish o s).count (.finish o x) = if x = s then l.count o else 0 := by
  induction l with
  | nil => simp
  | cons p l ih =>
    rw [List.map_cons, List.count_cons, ih, List.count_cons]
    by_cases h : x = s
    · subst h; by_cases h2 : p = o <;> simp [h2]
    · simp [h, Ne.symm h]

theorem count_start_finish (l : List Nat) (o s x : Nat) :
    (l.map fun o => Told.start o s).count (.finish o x) = 0 ∧ (l.map fun o => Told.finish o s).count (.start o x) = 0 := by
  constructor <;> (rw [List.count_eq_zero]; simp)

mutual
theorem run_told (obs : Nat → List Nat) (o : Nat) (hnd : ∀ t, (obs t).Nodup) : ∀ (c : Call E) (st : State E) (parent : Option Nat), Good st →
    (∀ q, parent = some q → q < st.spans.length) → StartsReturn c → OthersReturn o c → ToldExt obs o st (run obs st parent c).1
  | .mk f given dur W watch on onF body, st, parent, hg, hv, hs, ho => by
    have hs' : (∀ o, on o = none) ∧ StartsReturnBody body := by simpa [StartsReturn] using hs
    have ho' : (∀ p, p ≠ o → onF p = none) ∧ OthersReturnBody o body := by simpa [OthersReturn] using ho
    have key : ∀ (st0 : State E) (t : Nat), st0.spans = st.spans → st0.running = st.running → st0.told = st.told →
        ToldExt obs o st (exitSpan obs (runBody obs (startSpan obs st0 parent t f on).1 st0.spans.length body).1 st0.spans.length t f given dur W onF
          (runBody obs (startSpan obs st0 parent t f on).1 st0.spans.length body).2.1 (runBody obs (startSpan obs st0 parent t f on).1 st0.spans.length body).2.2).1 := by
      intro st0 t e1 e2 e3
      have hg0 : Good st0 := ⟨by rw [e1, e2]; exact hg.running, by rw [e1]; exact hg.parent⟩
      have hv0 : ∀ q, parent = some q → q < st0.spans.length := by rw [e1]; exact hv
      obtain ⟨ha, hsp⟩ := start_ext obs st0 parent t f on hv0
      have hgs : Good (startSpan obs st0 parent t f on).1 := hg0.start hv0
      have hlt : st0.spans.length < (startSpan obs st0 parent t f on).1.spans.length := by rw [hsp]; simp
      obtain ⟨ts, h1, h2⟩ := body_told obs o hnd body (startSpan obs st0 parent t f on).1 st0.spans.length hgs hlt hs'.2 ho'.2
      obtain ⟨⟨left, b1⟩, -⟩ := body_ext obs body (startSpan obs st0 parent t f on).1 st0.spans.length hgs hlt
      obtain ⟨l, hl⟩ := b1.spans
      have hst : (startSpan obs st0 parent t f on).1.told = st.told ++ (obs t).map fun o => .start o st.spans.length := by
        show st0.told ++ (tell on (obs t)).1.map _ = _
        rw [tell_all hs'.1, e3, e1]
      generalize (runBody obs (startSpan obs st0 parent t f on).1 st0.spans.length body) = rb at *
      refine ⟨(obs t).map (fun o => .start o st.spans.length) ++ ts ++ (tell onF (obs t)).1.map (fun o => .finish o st.spans.length), ?_, fun x => ?_⟩
      · show rb.1.told ++ _ = _
        rw [h1, hst, e1, List.append_assoc, List.append_assoc, List.append_assoc]
      · show _ = (if st.spans.length ≤ x ∧ x < rb.1.spans.length then (obs (traceOf rb.1.spans x)).count o else 0) ∧
          _ = (if st.spans.length ≤ x ∧ x < rb.1.spans.length then (obs (traceOf rb.1.spans x)).count o else 0)
        simp only [List.count_append, count_map_start, count_map_finish, (count_start_finish _ _ _ _).1, (count_start_finish _ _ _ _).2, (h2 x).1, (h2 x).2,
          tell_count ho'.1 (obs t) (hnd t)]
        have hlen : (startSpan obs st0 parent t f on).1.spans.length = st.spans.length + 1 := by rw [hsp, ← e1]; simp
        rw [hlen]
        have hle : st.spans.length + 1 ≤ rb.1.spans.length := by rw [hl, List.length_append, hlen]; omega
        by_cases hx : x = st.spans.length
        · subst hx
          have ht : traceOf rb.1.spans st.spans.length = t := by
            rw [hl, hsp, ← e1]; unfold traceOf; simp
          have : ¬ st.spans.length + 1 ≤ st.spans.length := by omega
          simp [this, ht, show st.spans.length < rb.1.spans.length by omega]
        · by_cases h : st.spans.length ≤ x
          · simp [hx, h, show st.spans.length + 1 ≤ x by omega]
          · simp [hx, h, show ¬ st.spans.length + 1 ≤ x by omega]
    have er := run_mk obs st parent f given dur W watch on onF body
    rw [er]
    have e0 : ∀ (st0 : State E) t, (startSpan obs st0 parent t f on).2 = none := by
      intro st0 t
      show (tell on (obs t)).2 = none
      rw [tell_all hs'.1]
    cases parent with
    | some q =>
      dsimp only
      rw [e0]
      exact key st (traceOf st.spans q) rfl rfl rfl
    | none =>
      cases watch with
      | some v => exact ToldExt.refl obs o st _ rfl rfl
      | none =>
        dsimp only
        rw [e0]
        exact key { st with traces := st.traces + 1 } st.traces rfl rfl rfl
  | .broken v, st, parent, hg, hv, hs, ho => by
    exact absurd hs (by simp [StartsReturn])
theorem body_told (obs : Nat → List Nat) (o : Nat) (hnd : ∀ t, (obs t).Nodup) : ∀ (b : Body E) (st : State E) (s : Nat), Good st → s < st.spans.length →
    StartsReturnBody b → OthersReturnBody o b → ToldExt obs o st (runBody obs st s b).1
  | .ret err, st, s, hg, hs, h1, h2 => by rw [runBody]; exact ToldExt.refl obs o st st rfl rfl
  | .panic v named, st, s, hg, hs, h1, h2 => by rw [runBody]; exact ToldExt.refl obs o st st rfl rfl
  | .call inherit c k, st, s, hg, hs, h1, h2 => by
    have h1' : StartsReturn c ∧ ∀ o, StartsReturnBody (k o) := by simpa [StartsReturnBody] using h1
    have h2' : OthersReturn o c ∧ ∀ x, OthersReturnBody o (k x) := by simpa [OthersReturnBody] using h2
    rw [runBody]
    have hv : ∀ q, (if inherit then some s else none) = some q → q < st.spans.length := by intro q hq; cases inherit <;> simp at hq; omega
    have c1 := run_told obs o hnd c st (if inherit then some s else none) hg hv h1'.1 h2'.1
    obtain ⟨⟨l1, d1⟩, d2, -⟩ := run_ext obs c st (if inherit then some s else none) hg hv
    have hs2 : s < (run obs st (if inherit then some s else none) c).1.spans.length := by have := d1.len; omega
    have c2 := body_told obs o hnd (k (run obs st (if inherit then some s else none) c).2) (run obs st (if inherit then some s else none) c).1 s d2 hs2
      (h1'.2 _) (h2'.2 _)
    obtain ⟨⟨l2, f1⟩, -⟩ := body_ext obs (k (run obs st (if inherit then some s else none) c).2) (run obs st (if inherit then some s else none) c).1 s d2 hs2
    exact c1.trans c2 d1.spans f1.spans
end

end Monkit.ObsPanic
