import Verif.Spec.Present
import Verif.Props.Dot

/-!
# Lemmas about listings
-/

namespace Monkit.Present
open Go
open Monkit.ListWriter (Writer WriteResult)
open Spec

/-! ## Numbers -/

theorem decimal_eq (n : Nat) : Dot.decimal n = digits n := by
  have dig : ∀ d, d < 10 → [UInt8.ofNat (48 + d)] = ([d.digitChar] : List Char).map fun c => UInt8.ofNat c.toNat := by decide
  induction n using Nat.strongRecOn with
  | _ n ih =>
    rw [Dot.decimal, digits]
    split
    · rename_i h
      rw [Nat.toDigits_of_lt_base h]
      exact dig n h
    · rename_i h
      rw [Nat.toDigits_of_base_le (by omega) (by omega), List.map_append, ih (n / 10) (by omega)]
      rw [dig (n % 10) (by omega)]
      rfl

theorem fmtInt_eq (i : Int64) : fmtInt i = num i := by
  have hi : i < 0 ↔ i.toInt < 0 := by rw [Int64.lt_iff_toInt_lt]; rfl
  unfold fmtInt num
  rw [decimal_eq]
  split
  · rename_i h
    have h := hi.1 h
    rw [if_pos h]
    congr 2
    omega
  · rename_i h
    have h : ¬ i.toInt < 0 := fun h' => h (hi.2 h')
    rw [if_neg h]
    congr 1
    omega

theorem joinComma_eq (l : List Str) : joinComma l = commas l := by
  induction l with
  | nil => rfl
  | cons a l ih =>
    cases l with
    | nil => simp [joinComma, commas]
    | cons b l =>
      rw [joinComma, ih]
      · simp [commas]
      · simp

theorem escape_append (a b : Str) : Dot.escapeDotLabel (a ++ b) = Dot.escapeDotLabel a ++ Dot.escapeDotLabel b := by
  induction a with
  | nil => rfl
  | cons x a ih => simp [Dot.escapeDotLabel, ih]

theorem escape_flatMap {α : Type} (f : α → Str) (l : List α) : Dot.escapeDotLabel (l.flatMap f) = l.flatMap fun a => Dot.escapeDotLabel (f a) := by
  induction l with
  | nil => rfl
  | cons a l ih => simp [escape_append, ih]

/-! ## Writing pieces -/

/-- Writing pieces until one is refused. -/
def send (w : Writer) (s : Out) (ps : List Str) : Out := each (fprint w) s ps

theorem andThen_ok {s : Out} (h : s.err = none) (f : Out → Out) : andThen s f = f s := by simp [andThen, h]

theorem andThen_err {s : Out} (h : s.err ≠ none) (f : Out → Out) : andThen s f = s := by simp [andThen, h]

theorem each_err {α : Type} (f : Out → α → Out) {s : Out} (h : s.err ≠ none) (l : List α) : each f s l = s := by
  induction l with
  | nil => rfl
  | cons x l ih => rw [each, andThen_err h, ih]

theorem send_err (w : Writer) {s : Out} (h : s.err ≠ none) (ps : List Str) : send w s ps = s := each_err _ h ps

theorem send_nil (w : Writer) (s : Out) : send w s [] = s := rfl

theorem send_one (w : Writer) (s : Out) (p : Str) : send w s [p] = andThen s fun s => fprint w s p := rfl

theorem fprint_send (w : Writer) {s : Out} (h : s.err = none) (p : Str) : fprint w s p = send w s [p] := by rw [send_one, andThen_ok h]

theorem send_append (w : Writer) (s : Out) (a b : List Str) : send w s (a ++ b) = send w (send w s a) b := by
  induction a generalizing s with
  | nil => rfl
  | cons x a ih => exact ih _

/-- A sequence of two parts. -/
theorem andThen_send (w : Writer) (s : Out) (f : Out → Out) (ps : List Str) (h : ∀ s, s.err = none → f s = send w s ps) :
    andThen s f = send w s ps := by
  by_cases hs : s.err = none
  · rw [andThen_ok hs, h s hs]
  · rw [andThen_err hs, send_err w hs]

/-- A loop. -/
theorem each_send {α : Type} (w : Writer) (f : Out → α → Out) (ps : α → List Str) (l : List α)
    (h : ∀ x ∈ l, ∀ s, s.err = none → f s x = send w s (ps x)) (s : Out) : each f s l = send w s (l.flatMap ps) := by
  induction l generalizing s with
  | nil => rfl
  | cons x l ih =>
    rw [each, ih (fun y hy => h y (List.mem_cons_of_mem _ hy)), List.flatMap_cons, send_append]
    rw [andThen_send w s _ (ps x) (h x (List.mem_cons_self ..))]

/-- What `send` does. -/
theorem send_wrote (w : Writer) (ps : List Str) (s : Out) (hs : s.err = none) :
    (∃ o, Wrote (fun i => w (s.calls + i)) ps o ∧ send w s ps = ⟨s.out ++ o.out, s.calls + o.calls, o.err⟩) := by
  induction ps generalizing s with
  | nil =>
    refine ⟨_, .all (by simp), ?_⟩
    cases s
    cases hs
    simp [send, each]
  | cons p ps ih =>
    have e : send w s (p :: ps) = send w (fprint w s p) ps := by
      rw [show p :: ps = [p] ++ ps from rfl, send_append, ← fprint_send w hs]
    cases hw : w s.calls with
    | ok =>
      have e1 : fprint w s p = ⟨s.out ++ p, s.calls + 1, none⟩ := by simp [fprint, hw]
      obtain ⟨o, ho, h⟩ := ih (fprint w s p) (by rw [e1])
      rw [e, h, e1]
      rw [e1] at ho
      cases ho with
      | all h0 =>
        refine ⟨_, .all (pieces := p :: ps) ?_, ?_⟩
        · intro i hi
          cases i with
          | zero => exact hw
          | succ i => have := h0 i (by simpa using hi); simpa [Nat.add_assoc, Nat.add_comm 1] using this
        · simp [Nat.add_assoc, Nat.add_comm 1]
      | failed k m x hk h0 h1 =>
        refine ⟨_, .failed (pieces := p :: ps) (k + 1) m x (by simpa using hk) ?_ ?_, ?_⟩
        · intro i hi
          cases i with
          | zero => exact hw
          | succ i => have := h0 i (by omega); simpa [Nat.add_assoc, Nat.add_comm 1] using this
        · simpa [Nat.add_assoc, Nat.add_comm 1] using h1
        · simp [Nat.add_assoc, Nat.add_comm 1]
    | fail m x =>
      have e1 : fprint w s p = ⟨s.out ++ p.take m, s.calls + 1, some x⟩ := by simp [fprint, hw]
      refine ⟨_, .failed (pieces := p :: ps) 0 m x (by simp) (by simp) hw, ?_⟩
      rw [e, send_err w (by simp [e1]), e1]
      simp

theorem wrote (w : Writer) (ps : List Str) : Wrote w ps (send w .start ps) := by
  obtain ⟨o, ho, h⟩ := send_wrote w ps .start rfl
  rw [h]
  simpa [Out.start] using ho

/-! ## Spans -/

/-- The pieces of the node of a span. -/
def nodePieces (id : Int64) (name : Str) (args : List Str) (elapsed : Str) (orphaned : Bool) (annotations : List (Str × Str)) : List Str :=
  [dotHead id name args elapsed orphaned] ++ annotations.map dotAnnotation ++ [b!"\"];\n"]

def dotPieces : SpanView → List Str
  | .mk id _ name args elapsed orphaned annotations children => nodePieces id name args elapsed orphaned annotations ++ go id children
where
  go (id : Int64) : List SpanView → List Str
    | [] => []
    | c :: cs => dotPieces c ++ [dotEdge id c.id] ++ go id cs

mutual
theorem dot_send (w : Writer) (s : Out) (hs : s.err = none) : (v : SpanView) → outputDotSpan w s v = send w s (dotPieces v)
  | .mk id tr name args elapsed orphaned annotations children => by
    rw [outputDotSpan, fprint_send w hs, dotPieces, nodePieces, send_append, send_append, send_append]
    refine andThen_send w _ _ (annotations.map dotAnnotation ++ [b!"\"];\n"] ++ dotPieces.go id children) ?_ |>.trans ?_
    · intro s hs
      rw [each_send w _ (fun a => [dotAnnotation a]) annotations (fun a _ s hs => fprint_send w hs _)]
      rw [List.append_assoc, send_append, ← List.map_eq_flatMap]
      refine andThen_send w _ _ ([b!"\"];\n"] ++ dotPieces.go id children) ?_
      intro s hs
      rw [fprint_send w hs, send_append]
      exact andThen_send w _ _ _ fun s _ => dot_send_go w id s children
    · rw [send_append, send_append]
theorem dot_send_go (w : Writer) (id : Int64) (s : Out) : (cs : List SpanView) → outputDotSpan.go w id s cs = send w s (dotPieces.go id cs)
  | [] => rfl
  | c :: cs => by
    rw [outputDotSpan.go, dot_send_go w id _ cs, dotPieces.go, send_append]
    congr 1
    refine andThen_send w s _ _ ?_
    intro s hs
    rw [dot_send w s hs c, send_append]
    exact andThen_send w _ _ _ fun s hs => fprint_send w hs _
end

def textPieces (d : Nat) : SpanView → List Str
  | .mk id tr name args elapsed orphaned annotations children =>
    [textLine (List.replicate d 32) id tr name args elapsed orphaned] ++ annotations.map (textAnnotation (List.replicate d 32)) ++ go (d + 1) children
where
  go (d : Nat) : List SpanView → List Str
    | [] => []
    | c :: cs => textPieces d c ++ go d cs

mutual
theorem text_send (w : Writer) (d : Nat) (s : Out) (hs : s.err = none) :
    (v : SpanView) → outputTextSpan w (List.replicate d 32) s v = send w s (textPieces d v)
  | .mk id tr name args elapsed orphaned annotations children => by
    rw [outputTextSpan, fprint_send w hs, textPieces, List.append_assoc, send_append]
    refine andThen_send w _ _ _ ?_
    intro s hs
    rw [each_send w _ (fun a => [textAnnotation _ a]) annotations (fun a _ s hs => fprint_send w hs _), ← List.map_eq_flatMap, send_append]
    refine andThen_send w _ _ _ ?_
    intro s hs
    have : (List.replicate d 32 ++ b!" " : Str) = List.replicate (d + 1) 32 := by rw [List.replicate_succ']
    rw [this]
    exact text_send_go w (d + 1) s children
theorem text_send_go (w : Writer) (d : Nat) (s : Out) :
    (cs : List SpanView) → outputTextSpan.go w (List.replicate d 32) s cs = send w s (textPieces.go d cs)
  | [] => rfl
  | c :: cs => by
    rw [outputTextSpan.go, text_send_go w d _ cs, textPieces.go, send_append]
    congr 1
    exact andThen_send w s _ _ fun s hs => text_send w d s hs c
end

/-- The pieces of `SpansText`. -/
theorem spansText_send (w : Writer) (roots : List SpanView) :
    spansText w roots = send w .start (roots.flatMap fun r => textPieces 0 r ++ [b!"\n"]) := by
  unfold spansText
  rw [each_send w _ (fun r => textPieces 0 r ++ [b!"\n"]) roots ?_]
  intro r _ s hs
  have := text_send w 0 s hs r
  rw [List.replicate_zero] at this
  rw [this, send_append]
  exact andThen_send w _ _ _ fun s hs => fprint_send w hs _

/-- The pieces of a file with this contents. -/
theorem graph_send {α : Type} (w : Writer) (f : Out → α → Out) (ps : α → List Str) (l : List α)
    (h : ∀ x ∈ l, ∀ s, s.err = none → f s x = send w s (ps x)) :
    (andThen (fprint w .start b!"digraph G {\n node [shape=box];\n") fun s => andThen (each f s l) fun s => fprint w s b!"}\n") =
      send w .start ([b!"digraph G {\n node [shape=box];\n"] ++ l.flatMap ps ++ [b!"}\n"]) := by
  rw [fprint_send w rfl, List.append_assoc, send_append]
  refine andThen_send w _ _ _ ?_
  intro s hs
  rw [each_send w f ps l h, send_append]
  exact andThen_send w _ _ _ fun s hs => fprint_send w hs _

theorem spansDot_send (w : Writer) (roots : List SpanView) :
    spansDot w roots = send w .start ([b!"digraph G {\n node [shape=box];\n"] ++ roots.flatMap dotPieces ++ [b!"}\n"]) :=
  graph_send w _ _ roots fun r _ s hs => dot_send w s hs r

mutual
theorem text_flat (d : Nat) : (v : SpanView) → (textPieces d v).flatten = (walk d v).flatMap fun x => lines x.1 x.2
  | .mk id tr name args elapsed orphaned annotations children => by
    rw [textPieces, walk, List.flatten_append, text_flat_go (d + 1) children, List.flatMap_cons]
    congr 1
    simp only [lines, textLine, fmtInt_eq, joinComma_eq, List.flatten_append, List.flatten_cons, List.flatten_nil, List.append_nil, List.map_eq_flatMap]
    congr 1
    induction annotations with
    | nil => rfl
    | cons a l ih =>
      have : (List.replicate d 32 ++ b!"  " : Str) = List.replicate (d + 2) 32 := by
        rw [List.replicate_succ', List.replicate_succ', List.append_assoc]; rfl
      rw [List.flatMap_cons, List.flatten_append, ih]
      simp only [textAnnotation, this, List.flatten_cons, List.flatten_nil, List.append_nil]
      rfl
theorem text_flat_go (d : Nat) : (cs : List SpanView) → (textPieces.go d cs).flatten = (walk.go d cs).flatMap fun x => lines x.1 x.2
  | [] => rfl
  | c :: cs => by rw [textPieces.go, walk.go, List.flatten_append, text_flat d c, text_flat_go d cs, List.flatMap_append]
end

/-- The statements about the spans of a tree. -/
def spanStmts : SpanView → List Stmt
  | .mk id tr name args elapsed orphaned annotations children =>
    .node id (spanLabel (.mk id tr name args elapsed orphaned annotations children)) :: go id children
where
  go (id : Int64) : List SpanView → List Stmt
    | [] => []
    | c :: cs => spanStmts c ++ [.edge id c.id] ++ go id cs

theorem edge_render (a b : Int64) : dotEdge a b = (Stmt.edge a b).render := by simp only [dotEdge, Stmt.render, fmtInt_eq]

mutual
theorem dot_flat : (v : SpanView) → (dotPieces v).flatten = (spanStmts v).flatMap Stmt.render
  | .mk id tr name args elapsed orphaned annotations children => by
    rw [dotPieces, spanStmts, List.flatten_append, dot_flat_go id children, List.flatMap_cons]
    congr 1
    have : (annotations.map dotAnnotation).flatten = Dot.escapeDotLabel (annotations.flatMap fun a => a.1 ++ b!": " ++ a.2 ++ b!"\n") := by
      rw [escape_flatMap, List.flatMap_def]; rfl
    simp only [nodePieces, Stmt.render, spanLabel, dotHead, List.flatten_append, List.flatten_cons, List.flatten_nil, List.append_nil, this,
      escape_append, fmtInt_eq, joinComma_eq, List.append_assoc, SpanView.name, SpanView.args, SpanView.elapsed, SpanView.orphaned, SpanView.annotations]
    rfl
theorem dot_flat_go (id : Int64) : (cs : List SpanView) → (dotPieces.go id cs).flatten = (spanStmts.go id cs).flatMap Stmt.render
  | [] => rfl
  | c :: cs => by
    rw [dotPieces.go, spanStmts.go, List.flatten_append, List.flatten_append, dot_flat c, dot_flat_go id cs, edge_render]
    simp
end

/-! ## Functions -/

theorem foldl_sum (l : List (Str × Int64)) (n : Int64) : l.foldl (fun n x => n + x.2) n = n + (l.map Prod.snd).sum := by
  induction l generalizing n with
  | nil => simp
  | cons x l ih => simp [ih, Int64.add_assoc]

theorem total_eq (f : FuncView) : totalErrors f = errorSum f := by
  rw [totalErrors, foldl_sum]; simp [errorSum]

/-- A buffer as a list of pieces. -/
def bufPieces (b : Str) : List Str := if b = [] then [] else [b]

theorem bufPieces_flat (b : Str) : (bufPieces b).flatten = b := by
  unfold bufPieces; split <;> simp_all

theorem writeTo_send (w : Writer) {s : Out} (hs : s.err = none) (b : Str) : writeTo w s b = send w s (bufPieces b) := by
  unfold writeTo bufPieces
  split
  · cases s; cases hs; rfl
  · exact fprint_send w hs _

theorem ite_send (w : Writer) {s : Out} (hs : s.err = none) (c : Prop) [Decidable c] (b : Str) :
    (if c then fprint w s b else s) = send w s (if c then [b] else []) := by
  split
  · exact fprint_send w hs _
  · rfl

/-- The pieces about one function in a graph. -/
def dotFuncPieces (f : FuncView) : List Str :=
  [dotFuncHead f] ++ (bufPieces (dotErrors f) ++
  ((if f.success > 0 then [Dot.escapeDotLabel (b!"success times:\n" ++ f.successTimes b!"        ")] else []) ++
  ((if totalErrors f + f.panics > 0 then [Dot.escapeDotLabel (b!"failure times:\n" ++ f.failureTimes b!"        ")] else []) ++
  ([b!"\"];\n"] ++ f.parents.flatMap fun p => [dotParent f p]))))

theorem dotFunc_send (w : Writer) (f : FuncView) (s : Out) (hs : s.err = none) : dotFunc w s f = send w s (dotFuncPieces f) := by
  unfold dotFunc dotFuncPieces
  rw [fprint_send w hs, send_append]
  refine andThen_send w _ _ _ fun s hs => ?_
  rw [writeTo_send w hs, send_append]
  refine andThen_send w _ _ _ fun s hs => ?_
  rw [ite_send w hs, send_append]
  refine andThen_send w _ _ _ fun s hs => ?_
  rw [ite_send w hs, send_append]
  refine andThen_send w _ _ _ fun s hs => ?_
  rw [fprint_send w hs, send_append]
  refine andThen_send w _ _ _ fun s hs => ?_
  exact each_send w _ (fun p => [dotParent f p]) f.parents (fun p _ s hs => fprint_send w hs _) s

theorem funcsDot_send (w : Writer) (fs : List FuncView) :
    funcsDot w fs = send w .start ([b!"digraph G {\n node [shape=box];\n"] ++ fs.flatMap dotFuncPieces ++ [b!"}\n"]) :=
  graph_send w _ _ fs fun f _ s hs => dotFunc_send w f s hs

theorem dotFunc_flat (f : FuncView) : (dotFuncPieces f).flatten = (funcStmts f).flatMap Stmt.render := by
  have h1 : (f.parents.flatMap fun p => [dotParent f p]).flatten =
      (f.parents.flatMap fun | some p => [Stmt.edge p f.id] | none => [Stmt.entry f.id, Stmt.entryEdge f.id f.id]).flatMap Stmt.render := by
    rw [List.flatMap_assoc]
    induction f.parents with
    | nil => rfl
    | cons p l ih =>
      simp only [List.flatMap_cons, List.flatten_append, ih]
      congr 1
      cases p with
      | none => simp [dotParent, Stmt.render, fmtInt_eq]
      | some p => simp [dotParent, edge_render]
  have h2 : ∀ (c : Prop) [Decidable c] (b : Str), (if c then [Dot.escapeDotLabel b] else []).flatten = Dot.escapeDotLabel (if c then b else []) := by
    intro c _ b; split <;> simp [Dot.escapeDotLabel]
  unfold dotFuncPieces funcStmts
  simp only [List.flatMap_cons, List.flatten_append, h1, h2, bufPieces_flat, total_eq]
  simp only [Stmt.render, funcLabel, dotFuncHead, dotErrors, escape_append, escape_flatMap, List.flatten_cons, List.flatten_nil, List.append_nil,
    List.append_assoc, fmtInt_eq, total_eq]
  rfl

/-- The pieces of the parents of a function in a text. -/
def parentPieces : Bool → List (Option Int64) → List Str
  | _, [] => []
  | printed, p :: ps => (if printed then [b!", "] else []) ++ [textParent p] ++ parentPieces true ps

theorem textParents_send (w : Writer) (b : Bool) (ps : List (Option Int64)) (s : Out) : textParents w s b ps = send w s (parentPieces b ps) := by
  induction ps generalizing s b with
  | nil => rfl
  | cons p ps ih =>
    rw [textParents]
    split
    · rename_i hs
      rw [ih, parentPieces, send_append, send_append, ite_send w hs]
      congr 1
    · rename_i hs
      rw [ih, send_err w hs, send_err w hs]

def textFuncPieces (f : FuncView) : List Str :=
  [textFuncHead f] ++ (parentPieces false f.parents ++ ([textStatus f] ++ (bufPieces (textErrors f) ++ [textTimes f])))

theorem parent_flat (b : Bool) (ps : List (Option Int64)) :
    (parentPieces b ps).flatten = (if b ∧ ps ≠ [] then b!", " else []) ++ commas (ps.map caller) := by
  have h : ∀ p, textParent p = caller p := by
    intro p; cases p <;> simp [textParent, caller, fmtInt_eq]
  induction ps generalizing b with
  | nil => simp [parentPieces, commas]
  | cons p ps ih =>
    rw [parentPieces, List.flatten_append, List.flatten_append, ih, h]
    cases ps with
    | nil => cases b <;> simp [commas]
    | cons q ps => cases b <;> simp [commas]

theorem textFunc_flat (f : FuncView) : (textFuncPieces f).flatten = funcText f := by
  unfold textFuncPieces funcText
  simp only [List.flatten_append, bufPieces_flat, parent_flat]
  simp only [textFuncHead, textStatus, textErrors, textTimes, fmtInt_eq, total_eq, List.flatten_cons, List.flatten_nil, List.append_nil, List.append_assoc]
  simp

theorem dotFuncs_flat (fs : List FuncView) : (fs.flatMap dotFuncPieces).flatten = (fs.flatMap funcStmts).flatMap Stmt.render := by
  induction fs with
  | nil => rfl
  | cons f fs ih => rw [List.flatMap_cons, List.flatten_append, ih, List.flatMap_cons, List.flatMap_append, dotFunc_flat]

theorem textFuncs_flat (fs : List FuncView) : (fs.flatMap textFuncPieces).flatten = fs.flatMap funcText := by
  induction fs with
  | nil => rfl
  | cons f fs ih => rw [List.flatMap_cons, List.flatten_append, ih, List.flatMap_cons, textFunc_flat]

/-! ## Writers that stay broken -/

/-- An error comes from a call that failed. -/
theorem send_failed (w : Writer) (ps : List Str) (s : Out) (hs : s.err = none) (e : Nat) (he : (send w s ps).err = some e) :
    ∃ i m, i < (send w s ps).calls ∧ w i = .fail m e := by
  obtain ⟨o, ho, h⟩ := send_wrote w ps s hs
  rw [h] at he ⊢
  cases ho with
  | all => simp at he
  | failed k m x hk h0 h1 =>
    have he : x = e := by simpa using he
    exact ⟨s.calls + k, m, by simp only; omega, he ▸ h1⟩

/-- The same but for the number of calls after an error. -/
def Same (a b : Out) : Prop := a.out = b.out ∧ a.err = b.err ∧ (a.err = none → a = b)

theorem textFunc_send (w : Writer) (hw : Sticky w) (f : FuncView) (s : Out) (hs : s.err = none) : Same (textFunc w s f) (send w s (textFuncPieces f)) := by
  unfold textFunc textFuncPieces
  rw [fprint_send w hs, send_append]
  generalize send w s [textFuncHead f] = s1
  by_cases h1 : s1.err = none
  · rw [andThen_ok h1, textParents_send, send_append]
    cases h2 : (send w s1 (parentPieces false f.parents)).err with
    | none =>
      rw [fprint_send w h2, send_append, andThen_send w (send w (send w s1 (parentPieces false f.parents)) [textStatus f]) _ (bufPieces (textErrors f) ++ [textTimes f])]
      · exact ⟨rfl, rfl, fun _ => rfl⟩
      · intro s hs
        rw [writeTo_send w hs, send_append]
        exact andThen_send w _ _ _ fun s hs => fprint_send w hs _
    | some e =>
      obtain ⟨i, m, hi, hf⟩ := send_failed w _ s1 h1 e h2
      have := hw i _ m e hi hf
      have e1 : fprint w (send w s1 (parentPieces false f.parents)) (textStatus f) =
          ⟨(send w s1 (parentPieces false f.parents)).out, (send w s1 (parentPieces false f.parents)).calls + 1, some e⟩ := by
        simp [fprint, this]
      rw [e1, send_err w (s := send w s1 (parentPieces false f.parents)) (by simp [h2]), andThen_err (by simp)]
      exact ⟨rfl, h2.symm, by simp⟩
  · rw [andThen_err h1, send_err w h1]
    exact ⟨rfl, rfl, fun _ => rfl⟩

theorem funcsText_send (w : Writer) (hw : Sticky w) (fs : List FuncView) (s : Out) :
    Same (each (textFunc w) s fs) (send w s (fs.flatMap textFuncPieces)) := by
  induction fs generalizing s with
  | nil => exact ⟨rfl, rfl, fun _ => rfl⟩
  | cons f fs ih =>
    rw [each, List.flatMap_cons, send_append]
    by_cases hs : s.err = none
    · rw [andThen_ok hs]
      obtain ⟨h1, h2, h3⟩ := textFunc_send w hw f s hs
      by_cases h : (textFunc w s f).err = none
      · rw [← h3 h]
        exact ih _
      · rw [each_err _ h, send_err w (by rw [← h2]; exact h)]
        exact ⟨h1, h2, h3⟩
    · rw [andThen_err hs, each_err _ hs, send_err w hs, send_err w hs]
      exact ⟨rfl, rfl, fun _ => rfl⟩

/-! ## Reading graphs -/

/-- The bytes of numbers. -/
def NumByte (b : UInt8) : Prop := b = 45 ∨ (48 ≤ b ∧ b ≤ 57)

instance (b : UInt8) : Decidable (NumByte b) := by unfold NumByte; infer_instance

theorem digits_step (n : Nat) : digits n = if n < 10 then [UInt8.ofNat (48 + n)] else digits (n / 10) ++ [UInt8.ofNat (48 + n % 10)] := by
  rw [← decimal_eq, Dot.decimal, ← decimal_eq]

theorem digits_bytes (n : Nat) : ∀ b ∈ digits n, 48 ≤ b ∧ b ≤ 57 := by
  have dig : ∀ d, d < 10 → 48 ≤ UInt8.ofNat (48 + d) ∧ UInt8.ofNat (48 + d) ≤ 57 := by decide
  induction n using Nat.strongRecOn with
  | _ n ih =>
    intro b hb
    rw [digits_step] at hb
    split at hb
    · rw [List.mem_singleton.1 hb]; exact dig n (by assumption)
    · rcases List.mem_append.1 hb with hb | hb
      · exact ih _ (by omega) b hb
      · rw [List.mem_singleton.1 hb]; exact dig _ (by omega)

theorem number_digits (n : Nat) : Dot.number (digits n) = n := by
  have dig : ∀ d, d < 10 → (UInt8.ofNat (48 + d)).toNat - 48 = d := by decide
  induction n using Nat.strongRecOn with
  | _ n ih =>
    rw [digits_step]
    split
    · rename_i h; simp only [Dot.number, List.foldl_cons, List.foldl_nil]; rw [dig n h]; omega
    · have := ih (n / 10) (by omega)
      unfold Dot.number at this ⊢
      rw [List.foldl_append, this]
      simp only [List.foldl_cons, List.foldl_nil]
      rw [dig _ (by omega)]; omega

theorem digits_injective {m n : Nat} (h : digits m = digits n) : m = n := by
  rw [← number_digits m, h, number_digits]

theorem num_bytes (i : Int64) : ∀ b ∈ num i, NumByte b := by
  intro b hb
  unfold num at hb
  split at hb
  · rcases List.mem_append.1 hb with hb | hb
    · left; simpa using hb
    · exact Or.inr (digits_bytes _ b hb)
  · exact Or.inr (digits_bytes _ b hb)

theorem num_injective {i j : Int64} (h : num i = num j) : i = j := by
  have key : ∀ m n : Nat, b!"-" ++ digits m ≠ digits n := by
    intro m n h
    have : (45 : UInt8) ∈ digits n := by rw [← h]; simp
    exact absurd (digits_bytes n 45 this) (by decide)
  apply Int64.toInt_inj.1
  unfold num at h
  split at h <;> split at h
  · have := digits_injective (List.append_cancel_left h); omega
  · exact absurd h (key _ _)
  · exact absurd h.symm (key _ _)
  · have := digits_injective h; omega

/-- Two texts that end where the bytes of one kind end. -/
theorem split_at {P : UInt8 → Prop} {u v : Str} {x y : UInt8} {t t' : Str} (hu : ∀ b ∈ u, P b) (hv : ∀ b ∈ v, P b) (hx : ¬ P x) (hy : ¬ P y)
    (h : u ++ x :: t = v ++ y :: t') : u = v ∧ x = y ∧ t = t' := by
  induction u generalizing v with
  | nil =>
    cases v with
    | nil => simpa using h
    | cons b v => simp at h; exact absurd (hv b (by simp)) (h.1 ▸ hx)
  | cons a u ih =>
    cases v with
    | nil => simp at h; exact absurd (hu a (by simp)) (h.1 ▸ hy)
    | cons b v =>
      simp at h
      obtain ⟨h1, h2⟩ := ih (fun c hc => hu c (by simp [hc])) (fun c hc => hv c (by simp [hc])) h.2
      exact ⟨by rw [h.1, h1], h2⟩

theorem num_split {i j : Int64} {x y : UInt8} {t t' : Str} (hx : ¬ NumByte x) (hy : ¬ NumByte y) (h : num i ++ x :: t = num j ++ y :: t') :
    i = j ∧ x = y ∧ t = t' := by
  obtain ⟨h1, h2⟩ := split_at (num_bytes i) (num_bytes j) hx hy h
  exact ⟨num_injective h1, h2⟩

theorem render_injective {a b : Stmt} (h : a.render = b.render) : a = b := by
  have sp : ¬ NumByte 32 := by decide
  have sc : ¬ NumByte 59 := by decide
  cases a <;> cases b <;> simp only [Stmt.render, List.append_assoc, List.cons_append, List.nil_append, List.cons.injEq, true_and] at h <;>
    first | (exact absurd h.1 (by decide)) | obtain ⟨rfl, -, h⟩ := num_split sp sp h
  · simp at h; rw [Dot.C54_injective _ _ h]
  · simp at h
  · simp at h
  · simp at h; rw [num_injective h]
  · rfl
  · simp at h
  · simp at h
  · simp at h; rw [num_injective h]

/-- A statement is one line. -/
theorem render_line (a : Stmt) : ∃ l, a.render = 32 :: l ++ [10] ∧ (10 : UInt8) ∉ l := by
  have hn : ∀ i, (10 : UInt8) ∉ num i := fun i h => absurd (num_bytes i _ h) (by decide)
  have he := fun s => (Dot.C54_no_quote s).2
  cases a with
  | node i l =>
    refine ⟨b!"f" ++ num i ++ b!" [label=\"" ++ Dot.escapeDotLabel l ++ b!"\"];", by simp [Stmt.render], ?_⟩
    simp [hn, he]
  | edge i j => exact ⟨b!"f" ++ num i ++ b!" -> f" ++ num j ++ b!";", by simp [Stmt.render], by simp [hn]⟩
  | entry i => exact ⟨b!"r" ++ num i ++ b!" [label=\"entry\"];", by simp [Stmt.render], by simp [hn]⟩
  | entryEdge i j => exact ⟨b!"r" ++ num i ++ b!" -> f" ++ num j ++ b!";", by simp [Stmt.render], by simp [hn]⟩

theorem lines_injective (ss ss' : List Stmt) (h : ss.flatMap Stmt.render ++ b!"}\n" = ss'.flatMap Stmt.render ++ b!"}\n") : ss = ss' := by
  induction ss generalizing ss' with
  | nil =>
    cases ss' with
    | nil => rfl
    | cons s ss' =>
      obtain ⟨l, e, -⟩ := render_line s
      rw [List.flatMap_cons, e] at h
      simp at h
  | cons s ss ih =>
    obtain ⟨l, e, hl⟩ := render_line s
    cases ss' with
    | nil => rw [List.flatMap_cons, e] at h; simp at h
    | cons s' ss' =>
      obtain ⟨l', e', hl'⟩ := render_line s'
      rw [List.flatMap_cons, List.flatMap_cons, e, e'] at h
      have h : l ++ 10 :: (ss.flatMap Stmt.render ++ b!"}\n") = l' ++ 10 :: (ss'.flatMap Stmt.render ++ b!"}\n") := by simpa using h
      obtain ⟨h1, -, h2⟩ := split_at (P := fun b => b ≠ 10) (fun b hb hx => hl (hx ▸ hb)) (fun b hb hx => hl' (hx ▸ hb)) (by simp) (by simp) h
      rw [ih ss' h2, render_injective (a := s) (b := s') (by rw [e, e', h1])]

/-! ## What the graph of spans contains -/

mutual
theorem spanStmts_nodes (d : Nat) : (v : SpanView) → nodes (spanStmts v) = (walk d v).map fun x => (x.2.id, spanLabel x.2)
  | .mk id tr name args elapsed orphaned annotations children => by
    rw [spanStmts, walk, List.map_cons, ← spanStmts_nodes_go (d + 1) id children]
    rfl
theorem spanStmts_nodes_go (d : Nat) (id : Int64) : (cs : List SpanView) → nodes (spanStmts.go id cs) = (walk.go d cs).map fun x => (x.2.id, spanLabel x.2)
  | [] => rfl
  | c :: cs => by
    have ap : ∀ a b, nodes (a ++ b) = nodes a ++ nodes b := fun a b => List.filterMap_append
    rw [spanStmts.go, walk.go, ap, ap, List.map_append, ← spanStmts_nodes d c, ← spanStmts_nodes_go d id cs]
    simp [nodes]
end

/-- The parent-child pairs of a tree. -/
theorem edges_append (a b : List Stmt) : edges (a ++ b) = edges a ++ edges b := List.filterMap_append

mutual
theorem spanStmts_edges (d : Nat) : (v : SpanView) →
    (edges (spanStmts v)).Perm ((walk d v).flatMap fun x => x.2.children.map fun c => (x.2.id, c.id))
  | .mk id tr name args elapsed orphaned annotations children => by
    rw [spanStmts, walk, List.flatMap_cons]
    exact spanStmts_edges_go (d + 1) id children
theorem spanStmts_edges_go (d : Nat) (id : Int64) : (cs : List SpanView) →
    (edges (spanStmts.go id cs)).Perm ((cs.map fun c => (id, c.id)) ++ (walk.go d cs).flatMap fun x => x.2.children.map fun c => (x.2.id, c.id))
  | [] => List.Perm.refl _
  | c :: cs => by
    rw [spanStmts.go, walk.go, edges_append, edges_append, List.map_cons, List.flatMap_append]
    have h1 := spanStmts_edges d c
    have h2 := spanStmts_edges_go d id cs
    rw [List.perm_iff_count] at *
    intro x
    have h1 := h1 x
    have h2 := h2 x
    simp only [List.count_append, List.count_cons, List.count_nil, edges, List.filterMap_cons, List.filterMap_nil] at *
    omega
end

mutual
theorem walk_within (d : Nat) (u : SpanView) : (v : SpanView) → (∃ k, (k, u) ∈ walk d v) → Within u v
  | .mk id tr name args elapsed orphaned annotations children => by
    rintro ⟨k, h⟩
    rw [walk] at h
    rcases List.mem_cons.1 h with h | h
    · cases h; exact .self _
    · obtain ⟨c, hc, hw⟩ := walk_within_go (d + 1) u children ⟨k, h⟩
      exact .child hc hw
theorem walk_within_go (d : Nat) (u : SpanView) : (cs : List SpanView) → (∃ k, (k, u) ∈ walk.go d cs) → ∃ c ∈ cs, Within u c
  | [] => by rintro ⟨k, h⟩; simp [walk.go] at h
  | c :: cs => by
    rintro ⟨k, h⟩
    rw [walk.go] at h
    rcases List.mem_append.1 h with h | h
    · exact ⟨c, by simp, walk_within d u c ⟨k, h⟩⟩
    · obtain ⟨c', hc, hw⟩ := walk_within_go d u cs ⟨k, h⟩
      exact ⟨c', by simp [hc], hw⟩
end

theorem within_walk {u v : SpanView} (h : Within u v) (d : Nat) : ∃ k, (k, u) ∈ walk d v := by
  have go : ∀ (d : Nat) (cs : List SpanView) (c : SpanView), c ∈ cs → ∀ x ∈ walk d c, x ∈ walk.go d cs := by
    intro d cs c hc x hx
    induction cs with
    | nil => simp at hc
    | cons a cs ih =>
      rw [walk.go]
      rcases List.mem_cons.1 hc with rfl | hc
      · exact List.mem_append_left _ hx
      · exact List.mem_append_right _ (ih hc)
  induction h generalizing d with
  | self => cases u; exact ⟨d, by simp [walk]⟩
  | @child v c hc _ ih =>
    obtain ⟨k, hk⟩ := ih (d + 1)
    cases v with
    | mk id tr name args elapsed orphaned annotations children =>
      refine ⟨k, ?_⟩
      rw [walk]
      exact List.mem_cons_of_mem _ (go _ _ _ hc _ hk)

theorem stmts_length (ss : List Stmt) (h : ∀ s ∈ ss, (∃ i l, s = .node i l) ∨ ∃ a b, s = .edge a b) :
    ss.length = (nodes ss).length + (edges ss).length := by
  induction ss with
  | nil => rfl
  | cons s ss ih =>
    have ih := ih fun x hx => h x (List.mem_cons_of_mem _ hx)
    rcases h s (List.mem_cons_self ..) with ⟨i, l, rfl⟩ | ⟨a, b, rfl⟩ <;> simp only [nodes, edges, List.filterMap_cons, List.length_cons] at ih ⊢ <;> omega

mutual
theorem spanStmts_kinds : (v : SpanView) → ∀ s ∈ spanStmts v, (∃ i l, s = .node i l) ∨ ∃ a b, s = .edge a b
  | .mk id tr name args elapsed orphaned annotations children => by
    intro s hs
    rw [spanStmts] at hs
    rcases List.mem_cons.1 hs with rfl | hs
    · exact Or.inl ⟨_, _, rfl⟩
    · exact spanStmts_kinds_go id children s hs
theorem spanStmts_kinds_go (id : Int64) : (cs : List SpanView) → ∀ s ∈ spanStmts.go id cs, (∃ i l, s = .node i l) ∨ ∃ a b, s = .edge a b
  | [] => by intro s hs; simp [spanStmts.go] at hs
  | c :: cs => by
    intro s hs
    rw [spanStmts.go] at hs
    rcases List.mem_append.1 hs with hs | hs
    · rcases List.mem_append.1 hs with hs | hs
      · exact spanStmts_kinds c s hs
      · exact Or.inr ⟨_, _, List.mem_singleton.1 hs⟩
    · exact spanStmts_kinds_go id cs s hs
end

end Monkit.Present
