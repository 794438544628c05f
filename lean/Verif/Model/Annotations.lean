import Verif.Go.Sys
import Verif.Go.Str

/-!
# span.go:173-185: annotations of a span

`Annotate` appends to a slice under the span's mutex; `Annotations` reads the slice header under the mutex and copies the elements
after releasing it, while other goroutines may be appending to the same array.  Arrays live in a heap.
-/

namespace Monkit.Annotations
open Go

/-- span.go:33-36 `Annotation` -/
structure Annotation where
  name : Str
  value : Str
  deriving DecidableEq

/-- A slice header: the array's address, length and capacity (no slice here starts inside an array) (ctx.go:45). -/
structure Header where
  arr : Nat
  len : Nat
  cap : Nat
  deriving DecidableEq

/-- The two methods (span.go:173-185). -/
inductive Op where
  | annotate (x : Annotation)
  | annotations
  deriving DecidableEq

/-- Where a goroutine is: not in a call; waiting for the mutex; holding it and about to work; `Annotate` about to unlock;
`Annotations` about to unlock; `Annotations` copying without the mutex, `acc` being copied so far (span.go:173-185). -/
inductive PC where
  | idle
  | waiting (op : Op)
  | inside (op : Op)
  | added
  | loaded (h : Header)
  | copying (h : Header) (acc : List Annotation)
  deriving DecidableEq

/-- The span's `annotations` field and mutex; the arrays by address, the next free address, which arrays belong to slices that
were handed to callers (ctx.go:29, 45). -/
structure State where
  heap : Nat → List Annotation
  next : Nat
  ann : Header
  held : Bool
  given : Nat → Bool
  thr : Nat → PC

/-- What can be seen, and which call has the mutex (span.go:173-185). -/
inductive Event where
  | call (t : Nat) (op : Op)
  /-- goroutine `t` gets the mutex -/
  | acquire (t : Nat) (op : Op)
  /-- `Annotate` returns -/
  | done (t : Nat)
  /-- `Annotations` returns a slice of length `n` showing array `a` -/
  | list (t : Nat) (a n : Nat)
  /-- a caller stores into the array of a slice they were given -/
  | uset (a i : Nat) (x : Annotation)
  /-- a caller reads element `i` of the array of a slice they were given -/
  | uget (a i : Nat) (x : Option Annotation)
  deriving DecidableEq

/-- One statement (span.go:173-185). -/
inductive Step : State → Option Event → State → Prop where
  | call (s : State) (t : Nat) (op : Op) (h : s.thr t = .idle) :
      Step s (some (.call t op)) { s with thr := upd s.thr t (.waiting op) }
  /-- `s.mtx.Lock()` -/
  | lock (s : State) (t : Nat) (op : Op) (h : s.thr t = .waiting op) (free : s.held = false) :
      Step s (some (.acquire t op)) { s with held := true, thr := upd s.thr t (.inside op) }
  /-- span.go:183 `append` with room in the array: the element is stored behind the last one -/
  | append (s : State) (t : Nat) (x : Annotation) (h : s.thr t = .inside (.annotate x)) (room : s.ann.len < s.ann.cap) :
      Step s none { s with heap := upd s.heap s.ann.arr ((s.heap s.ann.arr).set s.ann.len x),
                           ann := { s.ann with len := s.ann.len + 1 }, thr := upd s.thr t .added }
  /-- span.go:183 `append` without room: a new array, of a capacity the runtime chooses -/
  | grow (s : State) (t : Nat) (x : Annotation) (extra : List Annotation) (h : s.thr t = .inside (.annotate x))
      (full : s.ann.len = s.ann.cap) :
      Step s none { s with heap := upd s.heap s.next ((s.heap s.ann.arr).take s.ann.len ++ x :: extra), next := s.next + 1,
                           ann := ⟨s.next, s.ann.len + 1, s.ann.len + 1 + extra.length⟩, thr := upd s.thr t .added }
  /-- span.go:184 `s.mtx.Unlock()` -/
  | unlock (s : State) (t : Nat) (h : s.thr t = .added) :
      Step s (some (.done t)) { s with held := false, thr := upd s.thr t .idle }
  /-- span.go:175 `annotations := s.annotations` -/
  | load (s : State) (t : Nat) (h : s.thr t = .inside .annotations) :
      Step s none { s with thr := upd s.thr t (.loaded s.ann) }
  /-- span.go:176 `s.mtx.Unlock()` -/
  | release (s : State) (t : Nat) (hd : Header) (h : s.thr t = .loaded hd) :
      Step s none { s with held := false, thr := upd s.thr t (.copying hd []) }
  /-- span.go:177 `append([]Annotation(nil), annotations...)`, one element -/
  | copy (s : State) (t : Nat) (hd : Header) (acc : List Annotation) (x : Annotation) (h : s.thr t = .copying hd acc)
      (more : acc.length < hd.len) (hx : (s.heap hd.arr)[acc.length]? = some x) :
      Step s none { s with thr := upd s.thr t (.copying hd (acc ++ [x])) }
  /-- span.go:177 `return`; the new array may be longer than the slice -/
  | ret (s : State) (t : Nat) (hd : Header) (acc extra : List Annotation) (h : s.thr t = .copying hd acc) (all : acc.length = hd.len) :
      Step s (some (.list t s.next acc.length)) { s with heap := upd s.heap s.next (acc ++ extra), next := s.next + 1,
                                                          given := upd s.given s.next true, thr := upd s.thr t .idle }
  | uset (s : State) (a i : Nat) (x : Annotation) (h : s.given a = true) :
      Step s (some (.uset a i x)) { s with heap := upd s.heap a ((s.heap a).set i x) }
  | uget (s : State) (a i : Nat) (h : s.given a = true) :
      Step s (some (.uget a i ((s.heap a)[i]?))) s

/-- A new span: a nil slice of annotations (ctx.go:87-96). -/
def init : State := ⟨fun _ => [], 0, ⟨0, 0, 0⟩, false, fun _ => false, fun _ => .idle⟩

end Monkit.Annotations
