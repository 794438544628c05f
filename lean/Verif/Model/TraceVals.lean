import Verif.Go.Sys
import Verif.Go.Map

/-!
# trace.go:38-54, 112-141: the values attached to a trace

`Get`, `Set` and `GetAll` protect a lazily made map by the trace's mutex.  Maps live in a heap, so that a caller who writes into
the map `GetAll` gave them is modelled too.  Looking up or storing a key of a type that cannot be hashed (a slice, a map, a
function) panics; `Get` and `Set` unlock with a plain call and not with `defer`, so a panic skips it.
-/

namespace Monkit.TraceVals
open Go

/-- Keys are `interface{}`: values whose dynamic type can be hashed, and values whose type cannot (trace.go:123, 133). -/
inductive Key where
  | hashable (n : Nat)
  | unhashable (n : Nat)
  deriving DecidableEq

/-- Values are `interface{}`: `none` is nil (trace.go:123, 133). -/
abbrev Val := Option Nat

/-- The methods that take the trace's mutex.  `cancel` is the function returned by `ObserveSpans` (trace.go:85-93
`removeObserver`); what it does to the observers is modelled in `Observers` and left out here. -/
inductive Op where
  | get (k : Key)
  | set (k : Key) (v : Val)
  | getAll
  | cancel
  deriving DecidableEq

/-- What they return.  `all a`: the map at address `a` (trace.go:112-141). -/
inductive Ret where
  | got (v : Val)
  | all (a : Nat)
  | done
  deriving DecidableEq

/-- Where a goroutine is: not in a call; waiting for the mutex; holding it and about to work; copying entries into the map
`a`; about to unlock and return (trace.go:112-141). -/
inductive PC where
  | idle
  | waiting (op : Op)
  | inside (op : Op)
  | copying (a : Nat) (rest : List (Key × Val))
  | leaving (r : Ret)
  deriving DecidableEq

/-- trace.go:46-48, the fields `mtx` and `vals` (`none` is the nil map); the maps by address, the next free address, and which
maps have been handed to callers. -/
structure State where
  heap : Nat → Map Key Val
  next : Nat
  vals : Option Nat
  held : Bool
  given : Nat → Bool
  thr : Nat → PC

/-- What can be seen, and which call has the mutex (trace.go:112-141). -/
inductive Event where
  /-- goroutine `t` calls a method -/
  | call (t : Nat) (op : Op)
  /-- it gets the mutex -/
  | acquire (t : Nat) (op : Op)
  /-- the call returns -/
  | ret (t : Nat) (r : Ret)
  /-- the call panics -/
  | panic (t : Nat)
  /-- somebody stores into the map `a` that `GetAll` returned -/
  | uset (a : Nat) (k : Key) (v : Val)
  /-- somebody looks up a key in the map `a` that `GetAll` returned, and finds `r` -/
  | uget (a : Nat) (k : Key) (r : Option Val)
  deriving DecidableEq

/-- One statement (trace.go:112-141). -/
inductive Step : State → Option Event → State → Prop where
  | call (s : State) (t : Nat) (op : Op) (h : s.thr t = .idle) :
      Step s (some (.call t op)) { s with thr := upd s.thr t (.waiting op) }
  /-- `t.mtx.Lock()` -/
  | lock (s : State) (t : Nat) (op : Op) (h : s.thr t = .waiting op) (free : s.held = false) :
      Step s (some (.acquire t op)) { s with held := true, thr := upd s.thr t (.inside op) }
  /-- trace.go:125 `Get` before any `Set` -/
  | getNil (s : State) (t : Nat) (k : Key) (h : s.thr t = .inside (.get k)) (hv : s.vals = none) :
      Step s none { s with thr := upd s.thr t (.leaving (.got none)) }
  /-- trace.go:126 `val = t.vals[key]` -/
  | get (s : State) (t a n : Nat) (h : s.thr t = .inside (.get (.hashable n))) (hv : s.vals = some a) :
      Step s none { s with thr := upd s.thr t (.leaving (.got (((s.heap a).get (.hashable n)).getD none))) }
  /-- trace.go:126 with a key that cannot be hashed: panic, without unlocking -/
  | getPanic (s : State) (t a n : Nat) (h : s.thr t = .inside (.get (.unhashable n))) (hv : s.vals = some a) :
      Step s (some (.panic t)) { s with thr := upd s.thr t .idle }
  /-- trace.go:136 `t.vals = map[interface{}]interface{}{key: val}` -/
  | setNew (s : State) (t n : Nat) (v : Val) (h : s.thr t = .inside (.set (.hashable n) v)) (hv : s.vals = none) :
      Step s none { s with heap := upd s.heap s.next [(.hashable n, v)], next := s.next + 1, vals := some s.next,
                           thr := upd s.thr t (.leaving .done) }
  /-- trace.go:138 `t.vals[key] = val` -/
  | set (s : State) (t a n : Nat) (v : Val) (h : s.thr t = .inside (.set (.hashable n) v)) (hv : s.vals = some a) :
      Step s none { s with heap := upd s.heap a ((s.heap a).set (.hashable n) v), thr := upd s.thr t (.leaving .done) }
  /-- trace.go:136, 138 with a key that cannot be hashed: panic, without unlocking -/
  | setPanic (s : State) (t n : Nat) (v : Val) (h : s.thr t = .inside (.set (.unhashable n) v)) :
      Step s (some (.panic t)) { s with thr := upd s.thr t .idle }
  /-- trace.go:115-116 `make`, and the order in which `range` is going to visit the entries (any) -/
  | getAll (s : State) (t : Nat) (rest : List (Key × Val)) (h : s.thr t = .inside .getAll)
      (hr : rest.Perm ((s.vals.map s.heap).getD [])) :
      Step s none { s with heap := upd s.heap s.next [], next := s.next + 1, thr := upd s.thr t (.copying s.next rest) }
  /-- trace.go:117 `new[k] = v` -/
  | copy (s : State) (t a : Nat) (k : Key) (v : Val) (rest : List (Key × Val)) (h : s.thr t = .copying a ((k, v) :: rest)) :
      Step s none { s with heap := upd s.heap a ((s.heap a).set k v), thr := upd s.thr t (.copying a rest) }
  /-- trace.go:119 `return new` -/
  | copied (s : State) (t a : Nat) (h : s.thr t = .copying a []) :
      Step s none { s with thr := upd s.thr t (.leaving (.all a)) }
  /-- trace.go:85-93 -/
  | cancel (s : State) (t : Nat) (h : s.thr t = .inside .cancel) :
      Step s none { s with thr := upd s.thr t (.leaving .done) }
  /-- `t.mtx.Unlock()` and return -/
  | unlock (s : State) (t : Nat) (r : Ret) (h : s.thr t = .leaving r) :
      Step s (some (.ret t r)) { s with held := false, thr := upd s.thr t .idle,
                                        given := match r with | .all a => upd s.given a true | _ => s.given }
  | uset (s : State) (a n : Nat) (v : Val) (h : s.given a = true) :
      Step s (some (.uset a (.hashable n) v)) { s with heap := upd s.heap a ((s.heap a).set (.hashable n) v) }
  | uget (s : State) (a n : Nat) (h : s.given a = true) :
      Step s (some (.uget a (.hashable n) ((s.heap a).get (.hashable n)))) s

/-- trace.go:52-54 `NewTrace` -/
def init : State := ⟨fun _ => [], 0, none, false, fun _ => false, fun _ => .idle⟩

end Monkit.TraceVals
