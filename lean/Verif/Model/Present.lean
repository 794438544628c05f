import Verif.Model.Dot
import Verif.Model.ListWriter

/-!
# present/spans.go and present/funcs.go: listings of spans and functions as text and as dot graphs

A listing is written piece by piece; every `fmt.Fprintf`, `fmt.Fprint` and non-empty `Buffer.WriteTo` is one call of `Write`.  What a
listing says about one span or function is taken from a view, the values its accessors returned during the walk.
-/

namespace Monkit.Present
open Go
open Monkit.ListWriter (Writer WriteResult)

/-- `%d` (present/spans.go:30-32, 57). -/
def fmtInt (i : Int64) : Str := if i < 0 then b!"-" ++ Dot.decimal i.toInt.natAbs else Dot.decimal i.toInt.natAbs

/-- What the writer has taken, how often it was called, and the variable `err` (present/spans.go:67-83, 114-126). -/
structure Out where
  out : Str
  calls : Nat
  err : Option Nat
  deriving DecidableEq

/-- Nothing written yet (present/spans.go:67, 114). -/
def Out.start : Out := ⟨[], 0, none⟩

/-- `_, err = fmt.Fprint(w, …)` (present/spans.go:30, 68, 90). -/
def fprint (w : Writer) (s : Out) (data : Str) : Out :=
  match w s.calls with
  | .ok => ⟨s.out ++ data, s.calls + 1, none⟩
  | .fail n e => ⟨s.out ++ data.take n, s.calls + 1, some e⟩

/-- `if err != nil { return err }; …` (present/spans.go:69-71). -/
def andThen (s : Out) (f : Out → Out) : Out := if s.err = none then f s else s

/-- `for _, x := range xs { …; if err != nil { return err } }`, and callbacks that begin with `if err != nil { return }`
(present/spans.go:38-61, 72-77). -/
def each {α : Type} (f : Out → α → Out) (s : Out) : List α → Out
  | [] => s
  | x :: xs => each f (andThen s fun s => f s x) xs

/-- `strings.Join(s, ", ")` (present/spans.go:33, 91). -/
def joinComma : List Str → Str
  | [] => []
  | [a] => a
  | a :: as => a ++ b!", " ++ joinComma as

/-- What the accessors of a span returned; `children` in the order of `Children` (span.go:64-193). -/
inductive SpanView where
  | mk (id trace : Int64) (name : Str) (args : List Str) (elapsed : Str) (orphaned : Bool) (annotations : List (Str × Str))
      (children : List SpanView)

namespace SpanView
/-- `Id` (span.go:153). -/
def id : SpanView → Int64 | mk i _ _ _ _ _ _ _ => i
/-- `Trace().Id()` (span.go:169). -/
def trace : SpanView → Int64 | mk _ t _ _ _ _ _ _ => t
/-- `Func().FullName()` (span.go:166, func.go:56-58). -/
def name : SpanView → Str | mk _ _ n _ _ _ _ _ => n
/-- `Args` (span.go:107-124). -/
def args : SpanView → List Str | mk _ _ _ a _ _ _ _ => a
/-- `Duration`, formatted (span.go:64-66). -/
def elapsed : SpanView → Str | mk _ _ _ _ e _ _ _ => e
/-- `Orphaned` (span.go:188-193). -/
def orphaned : SpanView → Bool | mk _ _ _ _ _ o _ _ => o
/-- `Annotations` (span.go:173-178). -/
def annotations : SpanView → List (Str × Str) | mk _ _ _ _ _ _ a _ => a
/-- `Children` (span.go:88-103). -/
def children : SpanView → List SpanView | mk _ _ _ _ _ _ _ c => c
end SpanView

/-- spans.go:26-34: the beginning of the node of a span. -/
def dotHead (id : Int64) (name : Str) (args : List Str) (elapsed : Str) (orphaned : Bool) : Str :=
  b!" f" ++ fmtInt id ++ b!" [label=\"" ++
    Dot.escapeDotLabel (name ++ b!"(" ++ joinComma args ++ b!")\nelapsed: " ++ elapsed ++ b!"\n" ++ if orphaned then b!"orphaned\n" else [])

/-- spans.go:38-44: one annotation in the label. -/
def dotAnnotation (a : Str × Str) : Str := Dot.escapeDotLabel (a.1 ++ b!": " ++ a.2 ++ b!"\n")

/-- spans.go:57: an edge. -/
def dotEdge (a b : Int64) : Str := b!" f" ++ fmtInt a ++ b!" -> f" ++ fmtInt b ++ b!";\n"

/-- spans.go:25-63 `outputDotSpan`. -/
def outputDotSpan (w : Writer) (s : Out) : SpanView → Out
  | .mk id _ name args elapsed orphaned annotations children =>
    andThen (fprint w s (dotHead id name args elapsed orphaned)) fun s =>
    andThen (each (fun s a => fprint w s (dotAnnotation a)) s annotations) fun s =>
    andThen (fprint w s b!"\"];\n") fun s =>
    go id s children
where
  /-- the callback given to `Children` -/
  go (id : Int64) (s : Out) : List SpanView → Out
    | [] => s
    | c :: cs => go id (andThen s fun s => andThen (outputDotSpan w s c) fun s => fprint w s (dotEdge id c.id)) cs

/-- spans.go:67-83 `SpansDot`, for the views of the root spans. -/
def spansDot (w : Writer) (roots : List SpanView) : Out :=
  andThen (fprint w .start b!"digraph G {\n node [shape=box];\n") fun s =>
  andThen (each (outputDotSpan w) s roots) fun s =>
  fprint w s b!"}\n"

/-- spans.go:86-92: the line of a span. -/
def textLine (indent : Str) (id trace : Int64) (name : Str) (args : List Str) (elapsed : Str) (orphaned : Bool) : Str :=
  indent ++ b!"[" ++ fmtInt id ++ b!"," ++ fmtInt trace ++ b!"] " ++ name ++ b!"(" ++ joinComma args ++ b!") (elapsed: " ++ elapsed ++
    (if orphaned then b!", orphaned" else []) ++ b!")\n"

/-- spans.go:97-98: the line of an annotation. -/
def textAnnotation (indent : Str) (a : Str × Str) : Str := indent ++ b!"  " ++ a.1 ++ b!": " ++ a.2 ++ b!"\n"

/-- spans.go:85-110 `outputTextSpan`. -/
def outputTextSpan (w : Writer) (indent : Str) (s : Out) : SpanView → Out
  | .mk id trace name args elapsed orphaned annotations children =>
    andThen (fprint w s (textLine indent id trace name args elapsed orphaned)) fun s =>
    andThen (each (fun s a => fprint w s (textAnnotation indent a)) s annotations) fun s =>
    go (indent ++ b!" ") s children
where
  /-- the callback given to `Children` -/
  go (indent : Str) (s : Out) : List SpanView → Out
    | [] => s
    | c :: cs => go indent (andThen s fun s => outputTextSpan w indent s c) cs

/-- spans.go:114-126 `SpansText`. -/
def spansText (w : Writer) (roots : List SpanView) : Out :=
  each (fun s r => andThen (outputTextSpan w [] s r) fun s => fprint w s b!"\n") .start roots

/-- What the accessors of a `Func` returned; `errors` in the order of iteration of the map, `parents` in the order of `Parents` with
`none` for the nil parent; the times as `formatDist` formats them with the indentation used (func.go:53-70, funcstats.go:109-191). -/
structure FuncView where
  id : Int64
  name : Str
  current : Int64
  highwater : Int64
  success : Int64
  panics : Int64
  errors : List (Str × Int64)
  parents : List (Option Int64)
  /-- funcs.go:25-34 `formatDist(f.SuccessTimes(), indent)` -/
  successTimes : Str → Str
  /-- `formatDist(f.FailureTimes(), indent)` -/
  failureTimes : Str → Str

/-- funcs.go:51-58 `total_errors` -/
def totalErrors (f : FuncView) : Int64 := f.errors.foldl (fun n x => n + x.2) 0

/-- `err_out.WriteTo(w)`: an empty buffer is not written (present/funcs.go:69-75). -/
def writeTo (w : Writer) (s : Out) (buf : Str) : Out := if buf = [] then { s with err := none } else fprint w s buf

/-- funcs.go:60-63 -/
def dotFuncHead (f : FuncView) : Str :=
  b!" f" ++ fmtInt f.id ++ b!" [label=\"" ++
    Dot.escapeDotLabel (f.name ++ b!"\ncurrent: " ++ fmtInt f.current ++ b!", highwater: " ++ fmtInt f.highwater ++ b!", success: " ++
      fmtInt f.success ++ b!", errors: " ++ fmtInt (totalErrors f) ++ b!", panics: " ++ fmtInt f.panics ++ b!"\n")

/-- funcs.go:51-53 -/
def dotErrors (f : FuncView) : Str := f.errors.flatMap fun x => Dot.escapeDotLabel (b!"error " ++ x.1 ++ b!": " ++ fmtInt x.2 ++ b!"\n")

/-- funcs.go:98-109: the edge from a caller. -/
def dotParent (f : FuncView) : Option Int64 → Str
  | some p => dotEdge p f.id
  | none => b!" r" ++ fmtInt f.id ++ b!" [label=\"entry\"];\n r" ++ fmtInt f.id ++ b!" -> f" ++ fmtInt f.id ++ b!";\n"

/-- funcs.go:43-112: the callback of `FuncsDot`. -/
def dotFunc (w : Writer) (s : Out) (f : FuncView) : Out :=
  andThen (fprint w s (dotFuncHead f)) fun s =>
  andThen (writeTo w s (dotErrors f)) fun s =>
  andThen (if f.success > 0 then fprint w s (Dot.escapeDotLabel (b!"success times:\n" ++ f.successTimes b!"        ")) else s) fun s =>
  andThen (if totalErrors f + f.panics > 0 then fprint w s (Dot.escapeDotLabel (b!"failure times:\n" ++ f.failureTimes b!"        ")) else s) fun s =>
  andThen (fprint w s b!"\"];\n") fun s =>
  each (fun s p => fprint w s (dotParent f p)) s f.parents

/-- funcs.go:38-118 `FuncsDot`. -/
def funcsDot (w : Writer) (fs : List FuncView) : Out :=
  andThen (fprint w .start b!"digraph G {\n node [shape=box];\n") fun s =>
  andThen (each (dotFunc w) s fs) fun s =>
  fprint w s b!"}\n"

/-- funcs.go:127 -/
def textFuncHead (f : FuncView) : Str := b!"[" ++ fmtInt f.id ++ b!"] " ++ f.name ++ b!"\n  parents: "

/-- funcs.go:144-154 -/
def textParent : Option Int64 → Str
  | some p => fmtInt p
  | none => b!"entry"

/-- funcs.go:131-155: the loop over the parents; `printed` tells whether one was printed before. -/
def textParents (w : Writer) (s : Out) : Bool → List (Option Int64) → Out
  | _, [] => s
  | printed, p :: ps =>
    if s.err = none then
      textParents w (andThen (if printed then fprint w s b!", " else s) fun s => fprint w s (textParent p)) true ps
    else textParents w s printed ps

/-- funcs.go:158-164 -/
def textErrors (f : FuncView) : Str := f.errors.flatMap fun x => b!"  error " ++ x.1 ++ b!": " ++ fmtInt x.2 ++ b!"\n"

/-- funcs.go:165-167 -/
def textStatus (f : FuncView) : Str :=
  b!"\n  current: " ++ fmtInt f.current ++ b!", highwater: " ++ fmtInt f.highwater ++ b!", success: " ++ fmtInt f.success ++
    b!", errors: " ++ fmtInt (totalErrors f) ++ b!", panics: " ++ fmtInt f.panics ++ b!"\n"

/-- funcs.go:175-177 -/
def textTimes (f : FuncView) : Str :=
  b!"  success times:\n" ++ f.successTimes b!"    " ++ b!"  failure times:\n" ++ f.failureTimes b!"    " ++ b!"\n"

/-- funcs.go:124-178: the callback of `FuncsText`.  `err` is not looked at between the loop over the parents and the next write,
which overwrites it. -/
def textFunc (w : Writer) (s : Out) (f : FuncView) : Out :=
  andThen (fprint w s (textFuncHead f)) fun s =>
  andThen (fprint w (textParents w s false f.parents) (textStatus f)) fun s =>
  andThen (writeTo w s (textErrors f)) fun s =>
  fprint w s (textTimes f)

/-- funcs.go:122-180 `FuncsText`. -/
def funcsText (w : Writer) (fs : List FuncView) : Out := each (textFunc w) .start fs

end Monkit.Present
