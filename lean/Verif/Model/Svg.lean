import Verif.Go.Map
import Verif.Go.Str

/-!
# present/trace.go: drawing spans

present/trace.go:141-371.  Modelled: the layout and the numbers of every bar.  Not modelled: colours, names, the templates.
A time is its `UnixNano`: all times come from `monotime.Now`, so comparing them and comparing these numbers is the same.
`Children` is written and never read; it is left out.
A panic, here also a recursion that does not end, is `none`.
-/

namespace Monkit.Svg
open Go

/-- collect/collect.go:28-33 `FinishedSpan`, as far as it is drawn. -/
structure FSpan where
  id : Int64
  parent : Option Int64
  start : Int64
  finish : Int64
  deriving DecidableEq

/-- trace.go:141-149 `spanInformation`; `Row` is kept apart. -/
structure Info where
  /-- 0 if there is none -/
  parent : Int64
  /-- `none`: the zero time, which is before all others -/
  largest : Option Int64
  layout : Bool
  rows : List (List Int64)
  deriving DecidableEq

/-- The map from span ids to what is known of the span (present/trace.go:152). -/
abbrev Tree := Map Int64 Info

/-- `new(spanInformation)` (present/trace.go:141-149). -/
def Info.new : Info := ⟨0, none, false, []⟩

/-- `t.After(u)` for a time `u` that may be zero (present/trace.go:160, 172). -/
def after (t : Int64) : Option Int64 → Bool
  | none => true
  | some u => t > u

/-- trace.go:160-162 and 172-174. -/
def Info.raise (i : Info) (t : Int64) : Info := if after t i.largest then { i with largest := some t } else i

/-- trace.go:153-176: the loop body of `computeSpanTree`. -/
def addSpan (t : Tree) (s : FSpan) : Tree :=
  let i := ((t.get s.id).getD .new).raise s.finish
  match s.parent with
  | none => t.set s.id i
  | some pid =>
    let t := t.set s.id { i with parent := pid }
    t.set pid (((t.get pid).getD .new).raise s.finish)

/-- trace.go:151-178 `computeSpanTree`. -/
def computeSpanTree (spans : List FSpan) : Tree := spans.foldl addSpan []

/-- trace.go:217-223: put `id` into the first row that is free from `start` on. -/
def addToRows (t : Tree) (id start : Int64) : List (List Int64) → Option (List (List Int64))
  | [] => some [[id]]
  | children :: rest =>
    match children.getLast? with
    | none => some ((children ++ [id]) :: rest)
    | some c => match t.get c with
      | none => none
      | some i => if after start i.largest then some ((children ++ [id]) :: rest) else (addToRows t id start rest).map (children :: ·)

/-- trace.go:196-227 `includeSpanInLayoutInformation`.  Its call of itself can never be reached: the parent's entry exists there. -/
def includeSpan (t : Tree) (s : FSpan) : Option Tree :=
  match t.get s.id with
  | none => none
  | some si =>
    if si.layout then some t
    else
      let t := t.set s.id { si with layout := true }
      match s.parent with
      | none => some t
      | some p => match t.get p with
        | none => some t
        | some psi => (addToRows t s.id s.start psi.rows).map fun rows => t.set p { psi with rows := rows }

/-- Assignments to `Row`, oldest first (present/trace.go:230). -/
abbrev Asg := List (Int64 × Nat)

/-- trace.go:233-239: the children of one row; `m` is `maxHeight`. -/
def oneRow (rec : Int64 → Option (Asg × Nat)) (a : Asg) (m : Nat) : List Int64 → Option (Asg × Nat)
  | [] => some (a, m)
  | child :: rest => match rec child with
    | none => none
    | some r => oneRow rec (a ++ r.1) (if r.2 > m then r.2 else m) rest

/-- trace.go:232-241: all rows. -/
def allRows (rec : Int64 → Nat → Option (Asg × Nat)) (a : Asg) (used : Nat) : List (List Int64) → Option (Asg × Nat)
  | [] => some (a, used)
  | children :: rest => match oneRow (fun c => rec c used) a 0 children with
    | none => none
    | some r => allRows rec r.1 (used + r.2) rest

/-- trace.go:229-243 `computeRow`: the assignments it makes and what it returns.  `fuel` bounds the depth of the recursion. -/
def computeRow (t : Tree) : Nat → Int64 → Nat → Option (Asg × Nat)
  | 0, _, _ => none
  | fuel + 1, id, start =>
    match t.get id with
    | none => none
    | some si => (allRows (computeRow t fuel) [(id, start)] (start + 1) si.rows).map fun x => (x.1, x.2 - start)

/-- trace.go:186-191: the keys of the map in the order in which it is ranged over. -/
def rootRows (t : Tree) (a : Asg) (used : Nat) : List Int64 → Option (Asg × Nat)
  | [] => some (a, used)
  | id :: rest => match t.get id with
    | none => none
    | some i =>
      if i.parent = 0 then
        match computeRow t (t.length + 1) id used with
        | none => none
        | some r => rootRows t (a ++ r.1) (used + r.2) rest
      else rootRows t a used rest

/-- trace.go:182-184. -/
def includeAll (t : Tree) : List FSpan → Option Tree
  | [] => some t
  | s :: rest => match includeSpan t s with
    | none => none
    | some t => includeAll t rest

/-- trace.go:180-194 `computeLayoutInformation`: the assignments of rows and the number of rows. -/
def computeLayout (spans : List FSpan) (order : List Int64) : Option (Asg × Nat) :=
  match includeAll (computeSpanTree spans) spans with
  | none => none
  | some t => (rootRows t [] 1 order).map fun x => (x.1, x.2 + 1)

/-- `lis[id].Row` in the end (present/trace.go:229-243). -/
def rowOf (a : Asg) (id : Int64) : Nat := (List.lookup id a.reverse).getD 0

/-- trace.go:253-260: `minStart` and `maxEnd`, zero to begin with. -/
def widen (acc : Option (Int64 × Int64)) (s : FSpan) : Option (Int64 × Int64) :=
  match acc with
  | none => some (s.start, s.finish)
  | some (lo, hi) => some (if s.start < lo then s.start else lo, if s.finish > hi then s.finish else hi)

/-- trace.go:251-261: the earliest start and the latest finish. -/
def bounds (spans : List FSpan) : Option (Int64 × Int64) := spans.foldl widen none

/-- trace.go:272-275 `timeToX`: dividing by zero panics. -/
def timeToX (b : Int64 × Int64) (t : Int64) : Option Int64 :=
  if b.2 - b.1 = 0 then none else some ((t - b.1) * 1200 / (b.2 - b.1))

/-- What is drawn of a span (present/trace.go:292-364). -/
structure Bar where
  id : Int64
  left : Int64
  top : Nat
  width : Int64
  height : Nat
  /-- id, left and middle of the parent, zero if it is not drawn -/
  parent : Int64 × Int64 × Nat
  deriving DecidableEq

/-- trace.go:292-364: one bar. -/
def drawBar (byId : Map Int64 FSpan) (b : Int64 × Int64) (asg : Asg) (s : FSpan) : Option Bar :=
  match timeToX b s.start, timeToX b s.finish with
  | some l, some r =>
    let bar : Bar := ⟨s.id, l, rowOf asg s.id * 16, if r - l > 1 then r - l else 1, 15, (0, 0, 0)⟩
    match s.parent with
    | none => some bar
    | some p => match byId.get p with
      | none => some bar
      | some ps => (timeToX b ps.start).map fun pl => { bar with parent := (p, pl, 7 + rowOf asg p * 16) }
  | _, _ => none

/-- trace.go:247-371 `SpansToSVG`: height and bars.  `sorted` is `spans` after sorting. -/
def draw (spans sorted : List FSpan) (order : List Int64) : Option (Nat × List Bar) :=
  match computeLayout sorted order with
  | none => none
  | some (asg, maxRow) =>
    let byId := spans.foldl (fun (m : Map Int64 FSpan) s => m.set s.id s) []
    (sorted.mapM (drawBar byId ((bounds spans).getD (0, 0)) asg)).map fun bars => (16 * maxRow + 20, bars)

end Monkit.Svg
