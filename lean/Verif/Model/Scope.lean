import Verif.Go.Sys
import Verif.Go.Map
import Verif.Model.FuncStats

/-!
# scope.go: the table of sources of a Scope, used by any number of goroutines

scope.go:25-322.  Objects are numbers; each carries its kind (its Go type) and the string it was registered under.
Values reported by sources are not looked at here.
-/

namespace Monkit.Scope
open Go

/-- The types a source in the table can have (scope.go:95-283). -/
inductive Kind where
  | func | meter | diffMeter | intVal | floatVal | boolVal | structVal | durationVal | timer | counter | gauge
  deriving DecidableEq

/-- A source (scope.go:29, 329-332). -/
structure Obj where
  id : Nat
  kind : Kind
  deriving DecidableEq

/-- scope.go:70-87 `sourceName`. -/
def sourceName (namespace' name : Str) (tags : List (Str × Str)) : Str :=
  namespace' ++ name ++ tags.flatMap fun t => [44] ++ t.1 ++ [61] ++ t.2

/-- The string under which each accessor looks up: `FuncNamed` (scope.go:96) and the others (124, 144, 155, 174, 193, 212, 225, 238,
250). -/
def keyOf (k : Kind) (name : Str) (tags : List (Str × Str)) : Str :=
  match k with
  | .func => sourceName b!"func:" name tags
  | _ => sourceName [] name tags

/-- A call of an accessor (scope.go:95-260). -/
structure Call where
  kind : Kind
  name : Str
  tags : List (Str × Str)
  deriving DecidableEq

/-- The string it looks for (scope.go:70-87). -/
def Call.key (c : Call) : Str := keyOf c.kind c.name c.tags

/-- Where a goroutine is (scope.go:46-68, 264-303). -/
inductive PC where
  | idle
  -- an accessor: newSource (scope.go:46-68), then the type assertion
  | rlock (c : Call)                       -- before RLock, 49
  | reading (c : Call)                     -- 50
  | read (c : Call) (r : Option Obj)       -- before RUnlock, 51
  | wlock (c : Call)                       -- before Lock, 57
  | locked (c : Call)                      -- 58
  | absent (c : Call)                      -- 63-64
  | unlock (c : Call) (o : Obj)            -- 59 and 65
  | got (c : Call) (o : Obj)               -- the type assertion, 99-104 and the like
  -- Gauge, 264-283
  | gLock (n : Str)
  | gLocked (n : Str)
  | gFree (n : Str)                                  -- the check passed
  | gUnlock (n : Str) (panicking : Bool)
  -- Chain, 287-293
  | cLock (c : Nat)
  | cLocked (c : Nat)
  | cUnlock (c : Nat)
  -- Stats, 306-322
  | sLock
  | sLocked
  | sUnlock
  | sLock2
  | sLocked2
  | sUnlock2

/-- What can be seen (scope.go:46-68, 264-303). -/
inductive Ev where
  /-- an accessor is called -/
  | call (t : Nat) (c : Call)
  /-- its constructor runs, giving `o`, which enters the table -/
  | made (t : Nat) (c : Call) (o : Obj)
  /-- it returns `o` -/
  | ret (t : Nat) (c : Call) (o : Obj)
  /-- it panics: already used for another stats source -/
  | panic (t : Nat) (c : Call)
  /-- `Gauge` is called -/
  | gaugeCall (t : Nat) (n : Str)
  /-- a gauge enters the table -/
  | gauge (t : Nat) (n : Str) (o : Obj)
  /-- `Gauge` panics -/
  | gaugePanic (t : Nat) (n : Str)
  | gaugeRet (t : Nat) (n : Str)
  /-- `Chain` is called, adds its source, returns -/
  | chainCall (t : Nat) (c : Nat)
  | chain (t : Nat) (c : Nat)
  | chainRet (t : Nat) (c : Nat)
  | statsCall (t : Nat)
  /-- `Stats` takes the sources `l`, in this order, and will report each of them -/
  | sources (t : Nat) (l : List (Str × Obj))
  /-- `Stats` takes the chained sources, and will report each of them -/
  | chains (t : Nat) (l : List Nat)
  | statsRet (t : Nat)

/-- The table, the chained sources, the lock and the goroutines (scope.go:25-31). -/
structure State where
  sources : Map Str Obj
  chains : List Nat
  /-- objects made so far -/
  next : Nat
  /-- `s.mtx`: who holds it for writing, who for reading -/
  writer : Option Nat
  readers : List Nat
  pc : Nat → PC

/-- A new scope (scope.go:33-38). -/
def State.init : State := ⟨[], [], 0, none, [], fun _ => .idle⟩

/-- One operation on the lock, or one access to the map or the slice made while holding it (scope.go:46-68, 264-303). -/
inductive Step : State → Option Ev → State → Prop where
  | call (s : State) (t c) : s.pc t = .idle → c.kind ≠ .gauge → Step s (some (.call t c)) { s with pc := upd s.pc t (.rlock c) }
  | rlock (s : State) (t c) : s.pc t = .rlock c → s.writer = none →
      Step s none { s with readers := t :: s.readers, pc := upd s.pc t (.reading c) }
  | read (s : State) (t c) : s.pc t = .reading c →
      Step s none { s with pc := upd s.pc t (.read c (Map.get s.sources c.key)) }
  | runlockSome (s : State) (t c o) : s.pc t = .read c (some o) →
      Step s none { s with readers := s.readers.erase t, pc := upd s.pc t (.got c o) }
  | runlockNone (s : State) (t c) : s.pc t = .read c none →
      Step s none { s with readers := s.readers.erase t, pc := upd s.pc t (.wlock c) }
  | wlock (s : State) (t c) : s.pc t = .wlock c → s.writer = none → s.readers = [] →
      Step s none { s with writer := some t, pc := upd s.pc t (.locked c) }
  | again (s : State) (t c) : s.pc t = .locked c →
      Step s none { s with pc := upd s.pc t (match Map.get s.sources c.key with
        | some o => .unlock c o
        | none => .absent c) }
  | make (s : State) (t c) : s.pc t = .absent c →
      Step s (some (.made t c ⟨s.next, c.kind⟩)) 
        { s with next := s.next + 1, sources := Map.set s.sources c.key ⟨s.next, c.kind⟩, pc := upd s.pc t (.unlock c ⟨s.next, c.kind⟩) }
  | unlock (s : State) (t c o) : s.pc t = .unlock c o →
      Step s none { s with writer := none, pc := upd s.pc t (.got c o) }
  | ret (s : State) (t c o) : s.pc t = .got c o → o.kind = c.kind →
      Step s (some (.ret t c o)) { s with pc := upd s.pc t .idle }
  | panic (s : State) (t c o) : s.pc t = .got c o → o.kind ≠ c.kind →
      Step s (some (.panic t c)) { s with pc := upd s.pc t .idle }
  | gCall (s : State) (t n) : s.pc t = .idle → Step s (some (.gaugeCall t n)) { s with pc := upd s.pc t (.gLock n) }
  | gLock (s : State) (t n) : s.pc t = .gLock n → s.writer = none → s.readers = [] →
      Step s none { s with writer := some t, pc := upd s.pc t (.gLocked n) }
  | gOk (s : State) (t n) : s.pc t = .gLocked n → (∀ o, Map.get s.sources n = some o → o.kind = .gauge) →
      Step s none { s with pc := upd s.pc t (.gFree n) }
  | gBad (s : State) (t n o) : s.pc t = .gLocked n → Map.get s.sources n = some o → o.kind ≠ .gauge →
      Step s none { s with pc := upd s.pc t (.gUnlock n true) }
  | gSet (s : State) (t n) : s.pc t = .gFree n →
      Step s (some (.gauge t n ⟨s.next, .gauge⟩)) 
        { s with next := s.next + 1, sources := Map.set s.sources n ⟨s.next, .gauge⟩, pc := upd s.pc t (.gUnlock n false) }
  | gUnlock (s : State) (t n b) : s.pc t = .gUnlock n b →
      Step s (some (if b then .gaugePanic t n else .gaugeRet t n)) { s with writer := none, pc := upd s.pc t .idle }
  | cCall (s : State) (t c) : s.pc t = .idle → Step s (some (.chainCall t c)) { s with pc := upd s.pc t (.cLock c) }
  | cLock (s : State) (t c) : s.pc t = .cLock c → s.writer = none → s.readers = [] →
      Step s none { s with writer := some t, pc := upd s.pc t (.cLocked c) }
  | cAppend (s : State) (t c) : s.pc t = .cLocked c →
      Step s (some (.chain t c)) { s with chains := s.chains ++ [c], pc := upd s.pc t (.cUnlock c) }
  | cUnlock (s : State) (t c) : s.pc t = .cUnlock c → Step s (some (.chainRet t c)) { s with writer := none, pc := upd s.pc t .idle }
  | sCall (s : State) (t) : s.pc t = .idle → Step s (some (.statsCall t)) { s with pc := upd s.pc t .sLock }
  | sLock (s : State) (t) : s.pc t = .sLock → s.writer = none → s.readers = [] →
      Step s none { s with writer := some t, pc := upd s.pc t .sLocked }
  | sCopy (s : State) (t l) : s.pc t = .sLocked → l.Perm s.sources →
      Step s (some (.sources t l)) { s with pc := upd s.pc t .sUnlock }
  | sUnlock (s : State) (t) : s.pc t = .sUnlock → Step s none { s with writer := none, pc := upd s.pc t .sLock2 }
  | sLock2 (s : State) (t) : s.pc t = .sLock2 → s.writer = none → s.readers = [] →
      Step s none { s with writer := some t, pc := upd s.pc t .sLocked2 }
  | sCopy2 (s : State) (t) : s.pc t = .sLocked2 →
      Step s (some (.chains t s.chains)) { s with pc := upd s.pc t .sUnlock2 }
  | sUnlock2 (s : State) (t) : s.pc t = .sUnlock2 → Step s (some (.statsRet t)) { s with writer := none, pc := upd s.pc t .idle }

/-- scope.go:306-322 `Stats`: what its callback receives, given what each source reports (`src`, `chn`: their `Stats`, called
one after the other, outside the lock) and the sources and chains it took from the scope (events `sources` and `chains`). -/
def report {V : Type} (name : Str) (src : Str × Obj → List (Key × Str × V)) (chn : Nat → List (Key × Str × V))
    (l : List (Str × Obj)) (cs : List Nat) : List (Key × Str × V) :=
  let cbWithScope := fun (x : Key × Str × V) => (x.1.withTag b!"scope" name, x.2.1, x.2.2)
  (l.flatMap fun s => (src s).map cbWithScope) ++ (cs.flatMap fun c => (chn c).map cbWithScope)

end Monkit.Scope
