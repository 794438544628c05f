import Verif.Proofs.Present

/-!
# C73-C75: listings of spans and functions
-/

namespace Monkit.Present
open Go
open Monkit.ListWriter (Writer WriteResult)
open Spec

/-- A writer that takes everything. -/
def takesAll : Writer := fun _ => .ok

theorem takesAll_wrote {ps : List Str} {o : Out} (h : Wrote takesAll ps o) : o = ⟨ps.flatten, ps.length, none⟩ := by
  cases h with
  | all => rfl
  | failed k m e hk h0 h1 => simp [takesAll] at h1

/-- **C73**: the walk the listings are about meets every span of a tree and nothing else. -/
theorem C73_walk (u v : SpanView) (d : Nat) : (∃ k, (k, u) ∈ walk d v) ↔ Within u v :=
  ⟨walk_within d u v, fun h => within_walk h d⟩

/-- **C73**, text: the listing has, for each root, the lines of each span of its tree, indented by its depth, a span before its children. -/
theorem C73_text (roots : List SpanView) : (spansText takesAll roots).out = spansTextDoc roots ∧ (spansText takesAll roots).err = none := by
  have h := wrote takesAll (roots.flatMap fun r => textPieces 0 r ++ [b!"\n"])
  rw [← spansText_send] at h
  have e : (roots.flatMap fun r => textPieces 0 r ++ [b!"\n"]).flatten = spansTextDoc roots := by
    unfold spansTextDoc
    induction roots with
    | nil => rfl
    | cons r roots ih =>
      have ih := ih (spansText_send takesAll roots ▸ wrote takesAll _)
      rw [List.flatMap_cons, List.flatten_append, ih, List.flatMap_cons, List.flatten_append, text_flat]
      rfl
  rw [takesAll_wrote h]
  exact ⟨e, rfl⟩

/-- **C73**, graph: the file is a graph that has exactly one node for each span, in the order of the walk, which says what is known about the
span, one edge for each span and child of it, and nothing else. -/
theorem C73_dot (roots : List SpanView) : ∃ ss, (spansDot takesAll roots).out = graph ss ∧ (spansDot takesAll roots).err = none ∧
    nodes ss = (roots.flatMap (walk 0)).map (fun x => (x.2.id, spanLabel x.2)) ∧
    (edges ss).Perm ((roots.flatMap (walk 0)).flatMap fun x => x.2.children.map fun c => (x.2.id, c.id)) ∧
    ss.length = (nodes ss).length + (edges ss).length := by
  refine ⟨roots.flatMap spanStmts, ?_⟩
  have h := wrote takesAll ([b!"digraph G {\n node [shape=box];\n"] ++ roots.flatMap dotPieces ++ [b!"}\n"])
  rw [← spansDot_send] at h
  have e : ([b!"digraph G {\n node [shape=box];\n"] ++ roots.flatMap dotPieces ++ [b!"}\n"]).flatten = graph (roots.flatMap spanStmts) := by
    unfold graph
    rw [List.flatten_append, List.flatten_append]
    have : (roots.flatMap dotPieces).flatten = (roots.flatMap spanStmts).flatMap Stmt.render := by
      clear h
      induction roots with
      | nil => rfl
      | cons r roots ih => rw [List.flatMap_cons, List.flatten_append, ih, List.flatMap_cons, List.flatMap_append, dot_flat]
    rw [this]
    simp
  refine ⟨?_, ?_, ?_, ?_, ?_⟩
  · rw [takesAll_wrote h, e]
  · rw [takesAll_wrote h]
  · clear h e
    induction roots with
    | nil => rfl
    | cons r roots ih =>
      rw [List.flatMap_cons, List.flatMap_cons, List.map_append, ← ih, ← spanStmts_nodes]
      exact List.filterMap_append
  · clear h e
    induction roots with
    | nil => exact List.Perm.refl _
    | cons r roots ih =>
      rw [List.flatMap_cons, List.flatMap_cons, List.flatMap_append, edges_append]
      exact (spanStmts_edges 0 r).append ih
  · clear h e
    exact stmts_length _ (by
      intro s hs
      obtain ⟨r, -, hr⟩ := List.mem_flatMap.1 hs
      exact spanStmts_kinds r s hr)

/-- **C73**, **C74**: the file of a graph can be read in only one way, whatever the texts of its nodes contain. -/
theorem C73_unambiguous (ss ss' : List Stmt) (h : graph ss = graph ss') : ss = ss' := by
  unfold graph at h
  rw [List.append_assoc, List.append_assoc] at h
  exact lines_injective ss ss' (List.append_cancel_left h)

/-- A span with an annotation and two children, one of them orphaned and with an argument that contains quotes. -/
def exampleSpan : SpanView :=
  .mk 1 7 b!"main.f" [] b!"2s" false [(b!"k", b!"v")]
    [.mk 2 7 b!"main.g" [b!"1", b!"\"a\""] b!"1s" true [] [], .mk 3 7 b!"main.h" [] b!"1ms" false [] []]

example : spansTextDoc [exampleSpan] =
    b!"[1,7] main.f() (elapsed: 2s)\n  k: v\n [2,7] main.g(1, \"a\") (elapsed: 1s, orphaned)\n [3,7] main.h() (elapsed: 1ms)\n\n" := by
  decide +kernel

example : (spansDot takesAll [exampleSpan]).out =
    b!"digraph G {\n node [shape=box];\n f1 [label=\"main&#46;f&#40;&#41;\\lelapsed&#58; 2s\\lk&#58; v\\l\"];\n f2 [label=\"main&#46;g&#40;1&#44; &#34;a&#34;&#41;\\lelapsed&#58; 1s\\lorphaned\\l\"];\n f1 -> f2;\n f3 [label=\"main&#46;h&#40;&#41;\\lelapsed&#58; 1ms\\l\"];\n f1 -> f3;\n}\n" := by
  decide +kernel

/-- **C74**, graph: for each function there is one node, which shows its statistics, and for each caller an edge from it (from an "entry" node
for calls from outside), and nothing else. -/
theorem C74_dot (fs : List FuncView) :
    (funcsDot takesAll fs).out = graph (fs.flatMap funcStmts) ∧ (funcsDot takesAll fs).err = none := by
  have h := wrote takesAll ([b!"digraph G {\n node [shape=box];\n"] ++ fs.flatMap dotFuncPieces ++ [b!"}\n"])
  rw [← funcsDot_send] at h
  have e : ([b!"digraph G {\n node [shape=box];\n"] ++ fs.flatMap dotFuncPieces ++ [b!"}\n"]).flatten = graph (fs.flatMap funcStmts) := by
    unfold graph
    rw [List.flatten_append, List.flatten_append, dotFuncs_flat]
    simp
  rw [takesAll_wrote h]
  exact ⟨e, rfl⟩

/-- **C74**, text: the listing is the text of each function. -/
theorem C74_text (fs : List FuncView) : (funcsText takesAll fs).out = fs.flatMap funcText ∧ (funcsText takesAll fs).err = none := by
  obtain ⟨h1, h2, -⟩ := funcsText_send takesAll (by intro i j m e _ h; simp [takesAll] at h) fs .start
  have h := wrote takesAll (fs.flatMap textFuncPieces)
  unfold funcsText
  rw [h1, h2]
  rw [takesAll_wrote h]
  exact ⟨textFuncs_flat fs, rfl⟩

/-- **C74**: the total number of errors does not depend on the order in which the map of errors is walked. -/
theorem C74_total (f g : FuncView) (h : f.errors.Perm g.errors) : errorSum f = errorSum g := by
  unfold errorSum
  have hp := h.map Prod.snd
  generalize f.errors.map Prod.snd = l at hp ⊢
  generalize g.errors.map Prod.snd = l' at hp ⊢
  induction hp with
  | nil => rfl
  | cons x _ ih => simp [ih]
  | swap x y l => simp only [List.sum_cons]; rw [← Int64.add_assoc, ← Int64.add_assoc, Int64.add_comm x y]
  | trans _ _ h1 h2 => exact h1.trans h2

/-- A function with two kinds of errors, called by function 3 and from outside. -/
def exampleFunc : FuncView := ⟨4, b!"main.f", 1, 2, 3, 0, [(b!"EOF", 2), (b!"x", -1)], [some 3, none], fun _ => b!"S\n", fun _ => b!"F\n"⟩

example : funcText exampleFunc =
    b!"[4] main.f\n  parents: 3, entry\n  current: 1, highwater: 2, success: 3, errors: 1, panics: 0\n  error EOF: 2\n  error x: -1\n  success times:\nS\n  failure times:\nF\n\n" := by
  decide +kernel

/-- **C75** for `SpansText`: there are pieces that make up the listing, and whatever the writer does, it is given those pieces in order, until it
fails; the listing returns its error, or nil if everything was taken. -/
theorem C75_spans_text (roots : List SpanView) : ∃ pieces : List Str, pieces.flatten = spansTextDoc roots ∧ ∀ w, Wrote w pieces (spansText w roots) := by
  refine ⟨roots.flatMap fun r => textPieces 0 r ++ [b!"\n"], ?_, fun w => ?_⟩
  · unfold spansTextDoc
    induction roots with
    | nil => rfl
    | cons r roots ih =>
      rw [List.flatMap_cons, List.flatten_append, ih, List.flatMap_cons, List.flatten_append, text_flat]
      rfl
  · rw [spansText_send]
    exact wrote w _

/-- **C75** for `SpansDot`. -/
theorem C75_spans_dot (roots : List SpanView) :
    ∃ pieces : List Str, pieces.flatten = (spansDot takesAll roots).out ∧ ∀ w, Wrote w pieces (spansDot w roots) := by
  refine ⟨[b!"digraph G {\n node [shape=box];\n"] ++ roots.flatMap dotPieces ++ [b!"}\n"], ?_, fun w => ?_⟩
  · rw [spansDot_send]
    rw [takesAll_wrote (wrote takesAll _)]
  · rw [spansDot_send]
    exact wrote w _

/-- **C75** for `FuncsDot`. -/
theorem C75_funcs_dot (fs : List FuncView) :
    ∃ pieces : List Str, pieces.flatten = graph (fs.flatMap funcStmts) ∧ ∀ w, Wrote w pieces (funcsDot w fs) := by
  refine ⟨[b!"digraph G {\n node [shape=box];\n"] ++ fs.flatMap dotFuncPieces ++ [b!"}\n"], ?_, fun w => ?_⟩
  · unfold graph
    rw [List.flatten_append, List.flatten_append, dotFuncs_flat]
    simp
  · rw [funcsDot_send]
    exact wrote w _

/-- **C75** for `FuncsText`, partial: for writers that stay broken once they fail, such as a `bufio.Writer`.  What is missing: other writers. -/
theorem C75_funcs_text_partial (fs : List FuncView) :
    ∃ pieces : List Str, pieces.flatten = fs.flatMap funcText ∧ ∀ w, Sticky w →
      ∃ o, Wrote w pieces o ∧ (funcsText w fs).out = o.out ∧ (funcsText w fs).err = o.err := by
  refine ⟨fs.flatMap textFuncPieces, textFuncs_flat fs, fun w hw => ?_⟩
  obtain ⟨h1, h2, -⟩ := funcsText_send w hw fs .start
  exact ⟨_, wrote w _, h1, h2⟩

/-- **C75**, violated: a writer fails while `FuncsText` lists the callers of a function; the listing goes on, and returns nil although a part of
it was never written. -/
theorem C75_funcs_text_violated : ∃ (w : Writer) (fs : List FuncView), (∃ i m e, w i = .fail m e ∧ i < (funcsText w fs).calls) ∧
    (funcsText w fs).err = none ∧ (funcsText w fs).out ≠ fs.flatMap funcText := by
  refine ⟨fun i => if i = 1 then .fail 0 5 else .ok, [exampleFunc], ⟨1, 0, 5, rfl, ?_⟩, ?_, ?_⟩ <;> decide +kernel

/-- A writer that fails at its third call and from then on. -/
example : ∃ w : Writer, Sticky w ∧ ∃ e, (funcsText w [exampleFunc]).err = some e := by
  refine ⟨fun i => if i < 2 then .ok else .fail 0 1, ?_, 1, by decide +kernel⟩
  intro i j m e hij h
  by_cases hi : i < 2
  · simp [hi] at h
  · have hj : ¬ j < 2 := by omega
    simp [hi] at h
    simp [hj, h.2]

end Monkit.Present
