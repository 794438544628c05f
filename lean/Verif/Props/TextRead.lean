import Verif.Proofs.TextRead
import Verif.Props.Present

/-!
# C124: the text lists of running spans and of functions can be read in only one way

`SpansText` (present/spans.go:85-126) and `FuncsText` (present/funcs.go:121-180), modelled in `Model/Present.lean`, write names, arguments,
annotations and the names of errors as they are.
-/

namespace Monkit.TextRead
open Go
open Monkit.Present (SpanView FuncView spansText funcsText takesAll C73_text C74_text)
open Monkit.Present.Spec (Within commas num walk lines spansTextDoc funcText)
open Spec

/-- **C124**: two lists of trees of spans with the same text are, to a reader, the same: they have as many trees, of the same shape, and
spans at the same place have the same number, trace, call, time and orphan mark and the same annotations, provided that names, arguments
and annotations have no line breaks.  Nothing else is asked of them: they may contain brackets, parentheses, spaces, or text that looks like a span. -/
theorem C124_text_partial (roots roots' : List SpanView) (hr : ∀ v ∈ roots, Tidy v) (hr' : ∀ v ∈ roots', Tidy v)
    (h : (spansText takesAll roots).out = (spansText takesAll roots').out) : roots.map reading = roots'.map reading := by
  rw [(C73_text roots).1, (C73_text roots').1] at h
  have step : ∀ v (vs : List SpanView), spansTextDoc (v :: vs) =
      head v ++ 10 :: (notesText 2 (v.annotations.map fun a => a.1 ++ b!": " ++ a.2) ++ (forest 1 v.children ++ (10 :: spansTextDoc vs))) := by
    intro v vs
    rw [spansTextDoc, List.flatMap_cons, tree_eq, lines_eq]
    simp [spansTextDoc]
  have low : ∀ t : Str, Low 1 (10 :: t) := fun t => ⟨0, 10 :: t, by omega, rfl, by simp⟩
  induction roots generalizing roots' with
  | nil =>
    cases roots' with
    | nil => rfl
    | cons v vs =>
      rw [step] at h
      simp [spansTextDoc, head] at h
  | cons u us ih =>
    cases roots' with
    | nil =>
      rw [step] at h
      simp [spansTextDoc, head] at h
    | cons v vs =>
      rw [step, step] at h
      have hu := hr u (List.mem_cons_self ..)
      have hv := hr' v (List.mem_cons_self ..)
      obtain ⟨e, h⟩ := line_split (head_line (hu u (.self u))) (head_line (hv v (.self v))) h
      obtain ⟨e', h⟩ := notes_split (notes_line (hu u (.self u))) (notes_line (hv v (.self v)))
        (forest_low _ (by omega) ((low _).mono (by omega))) (forest_low _ (by omega) ((low _).mono (by omega))) h
      obtain ⟨e'', h⟩ := forest_split 1 u.children v.children _ _ (fun c hc => Tidy.child hu hc) (fun c hc => Tidy.child hv hc) (low _) (low _) h
      rw [List.map_cons, List.map_cons, reading_of (hu u (.self u)) (hv v (.self v)) e e' e'',
        ih vs (fun c h => hr c (List.mem_cons_of_mem _ h)) (fun c h => hr' c (List.mem_cons_of_mem _ h)) (List.cons.inj h).2]

/-- An annotation that looks like a span is no line break. -/
def oddSpan : SpanView :=
  .mk 1 7 b!"main.(*T).f" [b!"\"a, b\""] b!"2s" false [(b!" [9,7] main.g() (elapsed", b!" 1s)")] [.mk 2 7 b!"main.g" [] b!"1s" true [] []]

example : Tidy oddSpan ∧ (spansText takesAll [oddSpan]).out =
    b!"[1,7] main.(*T).f(\"a, b\") (elapsed: 2s)\n   [9,7] main.g() (elapsed:  1s)\n [2,7] main.g() (elapsed: 1s, orphaned)\n\n" := by
  refine ⟨?_, by decide +kernel⟩
  have t1 : Tidy1 oddSpan := ⟨by decide, by decide, by decide, by decide⟩
  have t2 : Tidy1 (.mk 2 7 b!"main.g" [] b!"1s" true [] []) := ⟨by decide, by decide, by decide, by decide⟩
  intro u hu
  cases hu with
  | self => exact t1
  | child hc hu =>
    rw [List.mem_singleton.1 hc] at hu
    cases hu with
    | self => exact t2
    | child hc _ => cases hc

/-- A span whose annotation has a line break, and what follows it looks like a child. -/
def forged : SpanView := .mk 1 7 b!"main.f" [] b!"2s" false [(b!"user", b!"x\n [2,7] main.g() (elapsed: 1s)")] []

/-- A span with an annotation and a child. -/
def honest : SpanView := .mk 1 7 b!"main.f" [] b!"2s" false [(b!"user", b!"x")] [.mk 2 7 b!"main.g" [] b!"1s" false [] []]

/-- **C124** fails if an annotation has a line break: a process with one running span writes what a process with two would write.
The value of an annotation can so make up a span that does not exist. -/
theorem C124_text_violated : (spansText takesAll [forged]).out = (spansText takesAll [honest]).out ∧ size forged = 1 ∧ size honest = 2 := by
  decide +kernel

/-- **C124**, functions: two lists of functions with the same text are the same: as many functions, with the same numbers, names, callers,
counters, errors and times, provided that the names of functions and errors have no line breaks. -/
theorem C124_funcs_partial (fs gs : List FuncView) (hf : ∀ f ∈ fs, TidyFunc f) (hg : ∀ g ∈ gs, TidyFunc g)
    (h : (funcsText takesAll fs).out = (funcsText takesAll gs).out) : fs.map funcReading = gs.map funcReading := by
  rw [(C74_text fs).1, (C74_text gs).1] at h
  induction fs generalizing gs with
  | nil =>
    cases gs with
    | nil => rfl
    | cons g gs => rw [List.flatMap_cons, funcText_eq] at h; cases h
  | cons f fs ih =>
    cases gs with
    | nil => rw [List.flatMap_cons, funcText_eq] at h; cases h
    | cons g gs =>
      rw [List.flatMap_cons, List.flatMap_cons] at h
      obtain ⟨e, h⟩ := funcText_split (hf f (List.mem_cons_self ..)) (hg g (List.mem_cons_self ..)) h
      rw [List.map_cons, List.map_cons, e, ih gs (fun x hx => hf x (List.mem_cons_of_mem _ hx)) (fun x hx => hg x (List.mem_cons_of_mem _ hx)) h]

/-- A function that is called by function 3 and from outside, with an error whose name looks like the end of a line. -/
def exF : FuncView :=
  ⟨1, b!"main.f", 1, 2, 5, 0, [(b!"E: 7", 2)], [some 3, none], fun i => i ++ b!"avg: 1s\n" ++ i ++ b!"sum: 5s\n", fun i => i ++ b!"avg: 2s\n"⟩

def exG : FuncView := ⟨2, b!"main.g", 0, 1, 1, 0, [], [some 1], fun i => i ++ b!"avg: 3s\n", fun i => i ++ b!"avg: 0s\n"⟩

example : TidyFunc exF ∧ TidyFunc exG :=
  ⟨⟨by decide, by decide, ⟨[b!"avg: 1s", b!"sum: 5s"], by decide, by decide⟩, ⟨[b!"avg: 2s"], by decide, by decide⟩⟩,
    ⟨by decide, by decide, ⟨[b!"avg: 3s"], by decide, by decide⟩, ⟨[b!"avg: 0s"], by decide, by decide⟩⟩⟩

/-- Function 1 with a name that consists of the name of `exF`, what is written about it, and the start of what is written about `exG`. -/
def forgedF : FuncView := { exG with id := 1, name := (funcText exF).drop 4 ++ b!"[2] main.g" }

/-- **C124** fails for functions if a name has a line break: a process with one function writes what a process with two would write. -/
theorem C124_funcs_violated : (funcsText takesAll [forgedF]).out = (funcsText takesAll [exF, exG]).out := by
  decide +kernel

end Monkit.TextRead
