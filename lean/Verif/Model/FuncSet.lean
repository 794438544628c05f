import Verif.Go.Sys
import Mathlib.Data.List.Perm.Basic

/-!
# funcset.go: the set of parents of a function

A set of functions with a lock-free fast path.  Functions are numbered; a nil `*Func` is `none`.
-/

namespace Monkit.FuncSet
open Go

/-- What is stored in the set: a pointer to a function, or to the marker `nilFunc`
(funcset.go:35-39). -/
inductive Ptr where
  | nilFunc
  | fn (f : Nat)
  deriving DecidableEq

/-- funcset.go:42-44: `if f == nil { f = nilFunc }`. -/
def toPtr : Option Nat → Ptr
  | none => .nilFunc
  | some f => .fn f

/-- funcset.go:72-76: `if f == nilFunc { cb(nil) } else { cb(f) }`. -/
def fromPtr : Ptr → Option Nat
  | .nilFunc => none
  | .fn f => some f

/-- `m[f] = struct{}{}` on a map used as a set (funcset.go:55, 64, 69). -/
def insert (f : Ptr) (m : List Ptr) : List Ptr := if f ∈ m then m else f :: m

/-- Position of a goroutine (funcset.go:41-78). -/
inductive PC where
  | idle
  /-- `Add`: about to load `first` (line 46) / to compare-and-swap it (line 49) / to lock (line 52) /
  to insert (line 56) / to unlock (line 57) / to return -/
  | load (f : Option Nat)
  | cas (f : Option Nat)
  | lock (f : Option Nat)
  | ins (f : Option Nat)
  | unlock (f : Option Nat)
  | ret (f : Option Nat)
  /-- `Iterate`: about to lock (line 62) / to copy `rest` (63-66) / to unlock (67) / to load `first`
  (68-71) / to visit the elements (72-78) -/
  | ilock
  | icopy
  | iunlock (uniq : List Ptr)
  | ifirst (uniq : List Ptr)
  | visit (uniq : List Ptr)
  /-- some other code of `FuncStats` that uses the same mutex -/
  | busy
  deriving DecidableEq

/-- The set and the goroutines (funcset.go:26-33). -/
structure State where
  first : Option Ptr
  rest : List Ptr
  held : Bool
  thr : Nat → PC

/-- What can be seen (funcset.go:41-78). -/
inductive Event where
  | add (t : Nat) (f : Option Nat)
  | added (t : Nat) (f : Option Nat)
  | iterate (t : Nat)
  /-- `Iterate` has called its callback with these functions, in this order, and returns -/
  | visited (t : Nat) (fs : List (Option Nat))

/-- funcset.go:41-57 `Add`, 60-78 `Iterate`.  One step is one atomic operation, or one access made
while holding the mutex.  The map is nil until the first insertion (line 52-54); here it is empty. -/
inductive Step : State → Option Event → State → Prop where
  | add (s : State) (t : Nat) (f : Option Nat) (h : s.thr t = .idle) :
      Step s (some (.add t f)) { s with thr := upd s.thr t (.load f) }
  | isFirst (s : State) (t : Nat) (f : Option Nat) (h : s.thr t = .load f)
      (eq : s.first = some (toPtr f)) : Step s none { s with thr := upd s.thr t (.ret f) }
  | notFirst (s : State) (t : Nat) (f : Option Nat) (h : s.thr t = .load f)
      (ne : s.first ≠ some (toPtr f)) : Step s none { s with thr := upd s.thr t (.cas f) }
  | swap (s : State) (t : Nat) (f : Option Nat) (h : s.thr t = .cas f) (eq : s.first = none) :
      Step s none { s with first := some (toPtr f), thr := upd s.thr t (.ret f) }
  | noSwap (s : State) (t : Nat) (f : Option Nat) (h : s.thr t = .cas f) (ne : s.first ≠ none) :
      Step s none { s with thr := upd s.thr t (.lock f) }
  | lock (s : State) (t : Nat) (f : Option Nat) (h : s.thr t = .lock f) (free : s.held = false) :
      Step s none { s with held := true, thr := upd s.thr t (.ins f) }
  | ins (s : State) (t : Nat) (f : Option Nat) (h : s.thr t = .ins f) :
      Step s none { s with rest := insert (toPtr f) s.rest, thr := upd s.thr t (.unlock f) }
  | unlock (s : State) (t : Nat) (f : Option Nat) (h : s.thr t = .unlock f) :
      Step s none { s with held := false, thr := upd s.thr t (.ret f) }
  | ret (s : State) (t : Nat) (f : Option Nat) (h : s.thr t = .ret f) :
      Step s (some (.added t f)) { s with thr := upd s.thr t .idle }
  | iterate (s : State) (t : Nat) (h : s.thr t = .idle) :
      Step s (some (.iterate t)) { s with thr := upd s.thr t .ilock }
  | ilock (s : State) (t : Nat) (h : s.thr t = .ilock) (free : s.held = false) :
      Step s none { s with held := true, thr := upd s.thr t .icopy }
  | icopy (s : State) (t : Nat) (h : s.thr t = .icopy) :
      Step s none { s with thr := upd s.thr t (.iunlock s.rest) }
  | iunlock (s : State) (t : Nat) (u : List Ptr) (h : s.thr t = .iunlock u) :
      Step s none { s with held := false, thr := upd s.thr t (.ifirst u) }
  | ifirst (s : State) (t : Nat) (u : List Ptr) (h : s.thr t = .ifirst u) :
      Step s none { s with thr := upd s.thr t (.visit (match s.first with
        | none => u
        | some f => insert f u)) }
  | visit (s : State) (t : Nat) (u ord : List Ptr) (h : s.thr t = .visit u) (p : ord.Perm u) :
      Step s (some (.visited t (ord.map fromPtr))) { s with thr := upd s.thr t .idle }
  | otherLock (s : State) (t : Nat) (h : s.thr t = .idle) (free : s.held = false) :
      Step s none { s with held := true, thr := upd s.thr t .busy }
  | otherUnlock (s : State) (t : Nat) (h : s.thr t = .busy) :
      Step s none { s with held := false, thr := upd s.thr t .idle }

/-- The zero value (funcset.go:26-33). -/
def init : State := ⟨none, [], false, fun _ => .idle⟩

end Monkit.FuncSet
