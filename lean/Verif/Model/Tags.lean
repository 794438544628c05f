import Verif.Go.Map
import Verif.Go.Sort
import Verif.Go.StrOrd
import Verif.Model.Basic

/-!
# tags.go and the series keys of stats.go

Tag sets are shared by pointer and cache their string, so they live in a heap here: a list, a pointer is a position
(`none`: nil).  `range` over a map visits the entries in any order; the orders are arguments.
-/

namespace Monkit.Tags
open Go

/-- tags.go:34-37 `TagSet`. -/
structure TagSet where
  all : Map Str Str
  str : Str

/-- The tag sets made so far (tags.go:34-37). -/
abbrev Heap := List TagSet
/-- A `*TagSet` (tags.go:34-37). -/
abbrev Ptr := Option Nat

/-- The map a pointer leads to; a nil pointer counts as empty everywhere (tags.go:41, 50, 58, 70-73, 84-87). -/
def allOf (h : Heap) (p : Ptr) : Map Str Str :=
  match p with
  | none => []
  | some i => ((h[i]?).map (·.all)).getD []

/-- tags.go:40-45 `Get`. -/
def get (h : Heap) (p : Ptr) (k : Str) : Str := (Map.get (allOf h p) k).getD []

/-- tags.go:57-62 `Len`. -/
def len (h : Heap) (p : Ptr) : Nat := (allOf h p).length

/-- `for key, value := range m { all[key] = value }` (tags.go:84-95). -/
def setAllFrom (all : Map Str Str) (ord : List (Str × Str)) : Map Str Str := ord.foldl (fun m x => Map.set m x.1 x.2) all

/-- tags.go:70-81 `SetTags` and 84-95 `SetAll`: `ord` is the order in which `t.all` is visited; `kvs` is the slice, or the other
map in the order in which it is visited. -/
def setTags (h : Heap) (ord kvs : List (Str × Str)) : Heap × Ptr :=
  (h ++ [⟨setAllFrom (setAllFrom [] ord) kvs, []⟩], some h.length)

/-- `strings.IndexByte(s, c) == -1` (tags.go:137-138, 155-157). -/
def noByte (s : Str) (c : UInt8) : Bool := !s.contains c

/-- tags.go:154-171 `writeTag`: what it writes.  44 is ',', 61 '=', 32 ' ', 92 '\\'. -/
def writeTag (tag : Str) : Str :=
  if noByte tag 44 && noByte tag 61 && noByte tag 32 then tag
  else tag.flatMap fun c => if c = 44 ∨ c = 61 ∨ c = 32 then [92, c] else [c]

/-- tags.go:136-151 `writeMeasurement`: what it writes. -/
def writeMeasurement (m : Str) : Str :=
  if noByte m 44 && noByte m 32 then m
  else m.flatMap fun c => if c = 44 ∨ c = 32 then [92, c] else [c]

/-- tags.go:124-132: the loop over the sorted pairs, from index `i`. -/
def writeKvs : Nat → List (Str × Str) → Str
  | _, [] => []
  | i, x :: xs => (if i > 0 then [44] else []) ++ writeTag x.1 ++ [61] ++ writeTag x.2 ++ writeKvs (i + 1) xs

/-- tags.go:111-133 `writeTags`; `ord` is the order in which the map is visited.  `sort.Slice` sorts by key; keys are distinct, so
there is one result (`sort_unique` in Proofs/Tags). -/
def writeTags (ord : List (Str × Str)) : Str := writeKvs 0 (sortBy (fun a b => strLe a.1 b.1) ord)

/-- tags.go:98-108 `String`. -/
def string (h : Heap) (p : Ptr) (ord : List (Str × Str)) : Heap × Str :=
  match p with
  | none => (h, [])
  | some i =>
    match h[i]? with
    | none => (h, [])
    | some t =>
      let t' : TagSet := if t.str = [] then { t with str := writeTags ord } else t
      (h.set i t', t'.str)

/-- stats.go:46-54 `SeriesKey.String`. -/
def keyString (h : Heap) (m : Str) (p : Ptr) (ord : List (Str × Str)) : Heap × Str :=
  if len h p > 0 then
    let r := string h p ord
    (r.1, writeMeasurement m ++ [44] ++ r.2)
  else (h, writeMeasurement m)

/-- stats.go:56-62 `WithField`. -/
def withField (h : Heap) (m : Str) (p : Ptr) (field : Str) (ord : List (Str × Str)) : Heap × Str :=
  let r := keyString h m p ord
  (r.1, r.2 ++ [32] ++ writeTag field)

/-- What can happen to the tag sets of a process: a set is made from another, or a string is asked for.  (`Set` is `SetAll` of
one pair, tags.go:65-67; `WithTag` and `WithTags`, stats.go:33-42, are `Set` and `SetTags`.) -/
inductive Step : Heap → Heap → Prop where
  | setTags (h : Heap) (p : Ptr) (ord kvs : List (Str × Str)) : ord.Perm (allOf h p) → Step h (setTags h ord kvs).1
  | string (h : Heap) (p : Ptr) (ord : List (Str × Str)) : ord.Perm (allOf h p) → Step h (string h p ord).1

/-- What programs do with tag sets (tags.go:40-133). -/
inductive Steps : Heap → Heap → Prop where
  | refl (h : Heap) : Steps h h
  | step {a b c : Heap} : Steps a b → Step b c → Steps a c

/-- stats.go:77-83 `Collect`, of a source that reports `l`; `str` is what `WithField` gives for each. -/
def collect {V S : Type} (str : S → Str) (l : List (S × V)) : Map Str V := l.foldl (fun m x => Map.set m (str x.1) x.2) []

end Monkit.Tags
