import Verif.Go.Sys
import Verif.Model.Scope

/-!
# scope.go: an accessor finds its name taken by a source of another kind

The accessor panics with a message that contains the source, formatted with `%#v` (scope.go:99-103 and the like).  Formatting reads the fields of the source, with no lock of
the source held.  Two kinds of source hold something that must not be read while it is written:

* a `Func` holds a map, the counts of errors by name (funcstats.go:41).  Go's runtime looks, whenever a map is iterated over or assigned to, for a goroutine that is assigning to it,
  and if there is one ends the program ("fatal error: concurrent map iteration and map write"); this is no panic and cannot be recovered from.
* a `StructVal` holds an `interface{}` (val.go:174), which is two words: a type and a pointer to data.  They are written and read one after the other.

Looking up the name is one step here (C41 is about the lock of the scope).
-/

namespace Monkit.Clash
open Go

/-- A map, and whether some goroutine is inside an assignment to it (Go's runtime; used in funcstats.go:41). -/
structure GoMap where
  entries : Map Str Int64
  writing : Bool

/-- What a goroutine does to the function registered under the string `key`: it ends a monitored call (`err`: the name of its error), resets the statistics, reads the counts (`Errors` or `Stats`),
or calls an accessor of the scope that looks up `key` (funcstats.go:65-105, 132-141, 148-160; scope.go:95-260). -/
inductive Kind where
  | call (err : Option Str) (panicked : Bool)
  | reset
  | errors
  | access (c : Scope.Call)

/-- How an accessor ends (scope.go:98-104). -/
inductive Res where
  | ret
  | panic
  deriving DecidableEq

/-- Where a goroutine is (funcstats.go:65-105, 132-141; scope.go:95-105). -/
inductive PC where
  | new
  /-- before `Lock` (funcstats.go:68, 90, 133, 152), after it -/
  | wait
  | locked
  /-- in the assignment of funcstats.go:103 to map `m` -/
  | assign (m : Nat) (e : Str)
  /-- in the loop of funcstats.go:135-137, 155-157 over map `m` -/
  | copying (m : Nat) (rest : List (Str × Int64))
  /-- before `Unlock` -/
  | unlock
  /-- in `fmt.Sprintf` of scope.go:101 and the like, at the map `m` -/
  | formatting (m : Nat) (rest : List (Str × Int64))
  | over (r : Res)

/-- The maps made so far, which of them `f.errors` is, the mutex, the goroutines, and whether the runtime has ended the program (funcstats.go:34-46). -/
structure State where
  maps : Nat → GoMap
  cur : Nat
  next : Nat
  lock : Option Nat
  dead : Bool
  pc : Nat → PC

/-- A new function (funcstats.go:48-55). -/
def init : State := ⟨fun _ => ⟨[], false⟩, 0, 1, none, false, fun _ => .new⟩

/-- One step of one goroutine (funcstats.go:65-105, 132-141, 148-160; scope.go:95-260). -/
inductive Step (kind : Nat → Kind) : State → State → Prop where
  /-- `end`, `Reset`, `Errors` or `Stats` is called -/
  | begin (s : State) (n : Nat) (live : s.dead = false) (hk : ∀ c, kind n ≠ .access c) (h : s.pc n = .new) : Step kind s { s with pc := upd s.pc n .wait }
  | lock (s : State) (n : Nat) (live : s.dead = false) (h : s.pc n = .wait) (free : s.lock = none) : Step kind s { s with lock := some n, pc := upd s.pc n .locked }
  /-- funcstats.go:91-101: a panic, or no error -/
  | noError (s : State) (n : Nat) (e p) (live : s.dead = false) (hk : kind n = .call e p) (hn : e = none ∨ p = true) (h : s.pc n = .locked) :
      Step kind s { s with pc := upd s.pc n .unlock }
  /-- funcstats.go:103 begins -/
  | assign (s : State) (n : Nat) (e) (live : s.dead = false) (hk : kind n = .call (some e) false) (h : s.pc n = .locked) (hw : (s.maps s.cur).writing = false) :
      Step kind s { s with maps := upd s.maps s.cur { s.maps s.cur with writing := true }, pc := upd s.pc n (.assign s.cur e) }
  | assignFatal (s : State) (n : Nat) (e) (live : s.dead = false) (hk : kind n = .call (some e) false) (h : s.pc n = .locked) (hw : (s.maps s.cur).writing = true) :
      Step kind s { s with dead := true }
  /-- and ends -/
  | assigned (s : State) (n : Nat) (m e) (live : s.dead = false) (h : s.pc n = .assign m e) :
      Step kind s { s with maps := upd s.maps m ⟨FuncStats.bump (s.maps m).entries e, false⟩, pc := upd s.pc n .unlock }
  /-- funcstats.go:69 -/
  | reset (s : State) (n : Nat) (live : s.dead = false) (hk : kind n = .reset) (h : s.pc n = .locked) :
      Step kind s { s with cur := s.next, next := s.next + 1, maps := upd s.maps s.next ⟨[], false⟩, pc := upd s.pc n .unlock }
  /-- funcstats.go:135, 155 -/
  | copy (s : State) (n : Nat) (ord) (live : s.dead = false) (hk : kind n = .errors) (h : s.pc n = .locked) (ho : ord.Perm (s.maps s.cur).entries) :
      Step kind s { s with pc := upd s.pc n (.copying s.cur ord) }
  | copyNext (s : State) (n : Nat) (m x rest) (live : s.dead = false) (h : s.pc n = .copying m (x :: rest)) (hw : (s.maps m).writing = false) :
      Step kind s { s with pc := upd s.pc n (.copying m rest) }
  | copyFatal (s : State) (n : Nat) (m x rest) (live : s.dead = false) (h : s.pc n = .copying m (x :: rest)) (hw : (s.maps m).writing = true) :
      Step kind s { s with dead := true }
  | copied (s : State) (n : Nat) (m) (live : s.dead = false) (h : s.pc n = .copying m []) : Step kind s { s with pc := upd s.pc n .unlock }
  /-- funcstats.go:73, 94, 99, 104, 139, 160 -/
  | unlock (s : State) (n : Nat) (live : s.dead = false) (h : s.pc n = .unlock) : Step kind s { s with lock := none, pc := upd s.pc n (.over .ret) }
  /-- scope.go:98-104: the source is a `*Func` -/
  | found (s : State) (n : Nat) (c) (live : s.dead = false) (hk : kind n = .access c) (hf : c.kind = .func) (h : s.pc n = .new) :
      Step kind s { s with pc := upd s.pc n (.over .ret) }
  /-- scope.go:126-131 and the like: something else was asked for -/
  | format (s : State) (n : Nat) (c ord) (live : s.dead = false) (hk : kind n = .access c) (hf : c.kind ≠ .func) (h : s.pc n = .new) (ho : ord.Perm (s.maps s.cur).entries) :
      Step kind s { s with pc := upd s.pc n (.formatting s.cur ord) }
  | formatNext (s : State) (n : Nat) (m x rest) (live : s.dead = false) (h : s.pc n = .formatting m (x :: rest)) (hw : (s.maps m).writing = false) :
      Step kind s { s with pc := upd s.pc n (.formatting m rest) }
  | formatFatal (s : State) (n : Nat) (m x rest) (live : s.dead = false) (h : s.pc n = .formatting m (x :: rest)) (hw : (s.maps m).writing = true) :
      Step kind s { s with dead := true }
  | panic (s : State) (n : Nat) (m) (live : s.dead = false) (h : s.pc n = .formatting m []) : Step kind s { s with pc := upd s.pc n (.over .panic) }

/-- States reached by any schedule (funcstats.go:65-160, scope.go:95-260). -/
inductive Reach (kind : Nat → Kind) : State → Prop where
  | start : Reach kind init
  | step {s s'} (h : Reach kind s) (st : Step kind s s') : Reach kind s'

end Monkit.Clash

namespace Monkit.ClashStruct
open Go

/-- An `interface{}`: the word for the type and the word for the data (Go's runtime; used in val.go:174). -/
structure Iface where
  typ : Nat
  data : Nat
  deriving DecidableEq

/-- `Observe` of a value, or an accessor of another kind with the same name and tags (val.go:186-190, scope.go:126-131). -/
inductive Kind where
  | observe (v : Iface)
  | access

/-- Where a goroutine is (val.go:186-190, scope.go:126-131). -/
inductive PC where
  | new
  /-- `Observe`: before `Lock`, before the first word is written, before the second, before `Unlock` -/
  | wait
  | typ
  | data
  | unlock
  /-- formatting: the word for the type has been read -/
  | read (t : Nat)
  /-- `Observe` has returned -/
  | done
  /-- the panic's message is made from this -/
  | panicked (v : Iface)

/-- `v.recent`, `v.mtx` and the goroutines (val.go:172-176). -/
structure State where
  recent : Iface
  lock : Option Nat
  pc : Nat → PC

/-- A new `StructVal`; the nil interface is two zero words (val.go:179-181). -/
def init : State := ⟨⟨0, 0⟩, none, fun _ => .new⟩

/-- One access to shared memory (val.go:186-190, scope.go:126-131). -/
inductive Step (kind : Nat → Kind) : State → State → Prop where
  | observe (s : State) (n : Nat) (v) (hk : kind n = .observe v) (h : s.pc n = .new) : Step kind s { s with pc := upd s.pc n .wait }
  | lock (s : State) (n : Nat) (h : s.pc n = .wait) (free : s.lock = none) : Step kind s { s with lock := some n, pc := upd s.pc n .typ }
  | typ (s : State) (n : Nat) (v) (hk : kind n = .observe v) (h : s.pc n = .typ) : Step kind s { s with recent := ⟨v.typ, s.recent.data⟩, pc := upd s.pc n .data }
  | data (s : State) (n : Nat) (v) (hk : kind n = .observe v) (h : s.pc n = .data) : Step kind s { s with recent := ⟨s.recent.typ, v.data⟩, pc := upd s.pc n .unlock }
  | unlock (s : State) (n : Nat) (h : s.pc n = .unlock) : Step kind s { s with lock := none, pc := upd s.pc n .done }
  | read (s : State) (n : Nat) (hk : kind n = .access) (h : s.pc n = .new) : Step kind s { s with pc := upd s.pc n (.read s.recent.typ) }
  | panic (s : State) (n : Nat) (t) (h : s.pc n = .read t) : Step kind s { s with pc := upd s.pc n (.panicked ⟨t, s.recent.data⟩) }

/-- States reached by any schedule (val.go:186-190, scope.go:126-131). -/
inductive Reach (kind : Nat → Kind) : State → Prop where
  | start : Reach kind init
  | step {s s'} (h : Reach kind s) (st : Step kind s s') : Reach kind s'

end Monkit.ClashStruct
