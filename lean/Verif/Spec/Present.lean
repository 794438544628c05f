import Verif.Model.Present

/-!
# What listings should say (C73-C75)

Written without the functions of the model that produce output; the views, `Dot.escapeDotLabel` (which C54 is about) and the outcome `Out`
are those of the model.
-/

namespace Monkit.Present.Spec
open Go
open Monkit.ListWriter (Writer WriteResult)

/-- The decimal digits of a number, without leading zeros. -/
def digits (n : Nat) : Str := (Nat.toDigits 10 n).map fun c => UInt8.ofNat c.toNat

/-- A number as people write it. -/
def num (i : Int64) : Str := if i.toInt < 0 then b!"-" ++ digits (-i.toInt).toNat else digits i.toInt.toNat

/-- Words with commas between them. -/
def commas (l : List Str) : Str := (l.intersperse b!", ").flatten

/-! ## Walking over spans -/

/-- All spans of a tree, a span before its children, with their depths. -/
def walk (d : Nat) : SpanView → List (Nat × SpanView)
  | .mk id tr n a e o an cs => (d, .mk id tr n a e o an cs) :: go (d + 1) cs
where
  go (d : Nat) : List SpanView → List (Nat × SpanView)
    | [] => []
    | c :: cs => walk d c ++ go d cs

/-- The span is somewhere in the tree. -/
inductive Within : SpanView → SpanView → Prop where
  | self (v : SpanView) : Within v v
  | child {u v c : SpanView} : c ∈ v.children → Within u c → Within u v

/-! ## Text -/

/-- The lines about one span at depth `d`. -/
def lines (d : Nat) (v : SpanView) : Str :=
  List.replicate d 32 ++ b!"[" ++ num v.id ++ b!"," ++ num v.trace ++ b!"] " ++ v.name ++ b!"(" ++ commas v.args ++ b!") (elapsed: " ++
    v.elapsed ++ (if v.orphaned then b!", orphaned" else b!"") ++ b!")\n" ++
  v.annotations.flatMap fun a => List.replicate (d + 2) 32 ++ a.1 ++ b!": " ++ a.2 ++ b!"\n"

/-- The text about spans: for each root, the lines of all spans of its tree, then an empty line. -/
def spansTextDoc (roots : List SpanView) : Str :=
  roots.flatMap fun r => (walk 0 r).flatMap (fun x => lines x.1 x.2) ++ b!"\n"

/-! ## Graphs -/

/-- A statement of a graph; nodes are `f` and `r` nodes, each with a number. -/
inductive Stmt where
  /-- node `f id` with this text -/
  | node (id : Int64) (label : Str)
  /-- an edge from `f a` to `f b` -/
  | edge (a b : Int64)
  /-- node `r id` with the text "entry" -/
  | entry (id : Int64)
  /-- an edge from `r a` to `f b` -/
  | entryEdge (a b : Int64)
  deriving DecidableEq

/-- How a statement is written. -/
def Stmt.render : Stmt → Str
  | .node id label => b!" f" ++ num id ++ b!" [label=\"" ++ Dot.escapeDotLabel label ++ b!"\"];\n"
  | .edge a b => b!" f" ++ num a ++ b!" -> f" ++ num b ++ b!";\n"
  | .entry id => b!" r" ++ num id ++ b!" [label=\"entry\"];\n"
  | .entryEdge a b => b!" r" ++ num a ++ b!" -> f" ++ num b ++ b!";\n"

/-- The file of a graph. -/
def graph (ss : List Stmt) : Str := b!"digraph G {\n node [shape=box];\n" ++ ss.flatMap Stmt.render ++ b!"}\n"

/-- The nodes of a graph, in order. -/
def nodes (ss : List Stmt) : List (Int64 × Str) := ss.filterMap fun | .node i l => some (i, l) | _ => none

/-- The edges of a graph, in order. -/
def edges (ss : List Stmt) : List (Int64 × Int64) := ss.filterMap fun | .edge a b => some (a, b) | _ => none

/-- The entry nodes and edges of a graph, in order. -/
def entries (ss : List Stmt) : List Stmt := ss.filter fun | .entry _ => true | .entryEdge _ _ => true | _ => false

/-- What the node of a span should say. -/
def spanLabel (v : SpanView) : Str :=
  v.name ++ b!"(" ++ commas v.args ++ b!")\nelapsed: " ++ v.elapsed ++ b!"\n" ++ (if v.orphaned then b!"orphaned\n" else b!"") ++
    v.annotations.flatMap fun a => a.1 ++ b!": " ++ a.2 ++ b!"\n"

/-- The sum of the numbers of errors, as an int64. -/
def errorSum (f : FuncView) : Int64 := (f.errors.map Prod.snd).sum

/-- What the node of a function should say. -/
def funcLabel (f : FuncView) : Str :=
  f.name ++ b!"\ncurrent: " ++ num f.current ++ b!", highwater: " ++ num f.highwater ++ b!", success: " ++ num f.success ++ b!", errors: " ++
    num (errorSum f) ++ b!", panics: " ++ num f.panics ++ b!"\n" ++
    (f.errors.flatMap fun e => b!"error " ++ e.1 ++ b!": " ++ num e.2 ++ b!"\n") ++
    (if f.success > 0 then b!"success times:\n" ++ f.successTimes b!"        " else b!"") ++
    (if errorSum f + f.panics > 0 then b!"failure times:\n" ++ f.failureTimes b!"        " else b!"")

/-- The statements about one function: its node, then for each caller an edge, and a node with an edge if it was called from outside. -/
def funcStmts (f : FuncView) : List Stmt :=
  .node f.id (funcLabel f) :: f.parents.flatMap fun
    | some p => [.edge p f.id]
    | none => [.entry f.id, .entryEdge f.id f.id]

/-- A caller: its number, or "entry" for a call from outside. -/
def caller : Option Int64 → Str
  | some p => num p
  | none => b!"entry"

/-- The text about one function. -/
def funcText (f : FuncView) : Str :=
  b!"[" ++ num f.id ++ b!"] " ++ f.name ++ b!"\n  parents: " ++
    commas (f.parents.map caller) ++
    b!"\n  current: " ++ num f.current ++ b!", highwater: " ++ num f.highwater ++ b!", success: " ++ num f.success ++
    b!", errors: " ++ num (errorSum f) ++ b!", panics: " ++ num f.panics ++ b!"\n" ++
    (f.errors.flatMap fun e => b!"  error " ++ e.1 ++ b!": " ++ num e.2 ++ b!"\n") ++
    b!"  success times:\n" ++ f.successTimes b!"    " ++ b!"  failure times:\n" ++ f.failureTimes b!"    " ++ b!"\n"

/-! ## Writers -/

/-- What should happen when a document is given to a writer in these pieces: everything is taken and there is no error; or some piece is
refused, its error is returned, and the writer, which took all pieces before it and some bytes of it, is not called again. -/
inductive Wrote (w : Writer) (pieces : List Str) : Out → Prop where
  | all : (∀ i, i < pieces.length → w i = .ok) → Wrote w pieces ⟨pieces.flatten, pieces.length, none⟩
  | failed (k m e : Nat) (hk : k < pieces.length) : (∀ i, i < k → w i = .ok) → w k = .fail m e →
      Wrote w pieces ⟨(pieces.take k).flatten ++ pieces[k].take m, k + 1, some e⟩

/-- Once it has failed it fails forever, with the same error and taking nothing. -/
def Sticky (w : Writer) : Prop := ∀ i j m e, i < j → w i = .fail m e → w j = .fail 0 e

end Monkit.Present.Spec
