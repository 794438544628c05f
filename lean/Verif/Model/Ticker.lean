import Verif.Go.Sys

/-!
# meter.go:183-211: the goroutine that moves all meters on

`NewMeter` registers every meter with one process-wide ticker (meter.go:30, 60-68).  The ticker starts its goroutine at the first registration;
that goroutine takes the slice of meters under the mutex and then walks it without the mutex, while other goroutines append to the same array.
Arrays live in a heap.  Meters are numbers; a new meter is one that did not exist before.  What a tick does to a meter is Model/Meter.
-/

namespace Monkit.Ticker
open Go

/-- A slice header: the array's address, length and capacity (meter.go:186). -/
structure Header where
  arr : Nat
  len : Nat
  cap : Nat
  deriving DecidableEq

/-- Where a goroutine that makes a meter is, in `register`: not in a call; waiting for the mutex; about to test `started`; about to start
the goroutine; about to append; about to unlock (meter.go:189-197). -/
inductive PC where
  | idle
  | waiting (m : Nat)
  | testing (m : Nat)
  | spawning (m : Nat)
  | appending (m : Nat)
  | added (m : Nat)
  deriving DecidableEq

/-- Where a goroutine of `run` is: not started; asleep; waiting for the mutex; holding it; about to unlock; about to read the clock; about to
tick element `i` (meter.go:199-211). -/
inductive RPC where
  | none
  | sleeping
  | waiting
  | loading
  | loaded (h : Header)
  | clock (h : Header)
  | walking (h : Header) (i : Nat) (now : Int)
  deriving DecidableEq

/-- Who holds the mutex: a goroutine making a meter, or a goroutine of `run` (meter.go:184). -/
inductive Who where
  | maker (t : Nat)
  | runner (r : Nat)
  deriving DecidableEq

/-- The ticker (meter.go:183-187), the arrays with the next free address, the meters that exist and all goroutines; `nrun` goroutines of
`run` have been started. -/
structure State where
  heap : Nat → List Nat
  next : Nat
  meters : Header
  started : Bool
  holder : Option Who
  made : Nat → Bool
  nrun : Nat
  thr : Nat → PC
  run : Nat → RPC

/-- What can be seen (meter.go:60-68, 189-211). -/
inductive Event where
  /-- goroutine `t` makes meter `m` -/
  | make (t m : Nat)
  /-- `NewMeter` returns `m` -/
  | made (t m : Nat)
  /-- a goroutine of `run` is started -/
  | spawn (r : Nat)
  /-- it wakes up -/
  | wake (r : Nat)
  /-- it reads the clock -/
  | clock (r : Nat) (now : Int)
  /-- it ticks meter `m` -/
  | tick (r m : Nat) (now : Int)
  /-- it goes to sleep again -/
  | sleep (r : Nat)
  deriving DecidableEq

/-- One statement (meter.go:60-68, 189-211). -/
inductive Step : State → Option Event → State → Prop where
  /-- meter.go:61-66: a new meter, and the call of `register` -/
  | make (s : State) (t m : Nat) (h : s.thr t = .idle) (fresh : s.made m = false) :
      Step s (some (.make t m)) { s with made := upd s.made m true, thr := upd s.thr t (.waiting m) }
  /-- meter.go:190 `t.mtx.Lock()` -/
  | lock (s : State) (t m : Nat) (h : s.thr t = .waiting m) (free : s.holder = none) :
      Step s none { s with holder := some (.maker t), thr := upd s.thr t (.testing m) }
  /-- meter.go:191 `if !t.started`, when it was started already -/
  | already (s : State) (t m : Nat) (h : s.thr t = .testing m) (st : s.started = true) :
      Step s none { s with thr := upd s.thr t (.appending m) }
  /-- meter.go:191-192 `t.started = true` -/
  | start (s : State) (t m : Nat) (h : s.thr t = .testing m) (st : s.started = false) :
      Step s none { s with started := true, thr := upd s.thr t (.spawning m) }
  /-- meter.go:193 `go t.run()` -/
  | spawn (s : State) (t m : Nat) (h : s.thr t = .spawning m) :
      Step s (some (.spawn s.nrun)) { s with nrun := s.nrun + 1, run := upd s.run s.nrun .sleeping, thr := upd s.thr t (.appending m) }
  /-- meter.go:195 `append` with room in the array -/
  | append (s : State) (t m : Nat) (h : s.thr t = .appending m) (room : s.meters.len < s.meters.cap) :
      Step s none { s with heap := upd s.heap s.meters.arr ((s.heap s.meters.arr).set s.meters.len m),
                           meters := { s.meters with len := s.meters.len + 1 }, thr := upd s.thr t (.added m) }
  /-- meter.go:195 `append` without room: a new array, of a capacity the runtime chooses -/
  | grow (s : State) (t m : Nat) (extra : List Nat) (h : s.thr t = .appending m) (full : s.meters.len = s.meters.cap) :
      Step s none { s with heap := upd s.heap s.next ((s.heap s.meters.arr).take s.meters.len ++ m :: extra), next := s.next + 1,
                           meters := ⟨s.next, s.meters.len + 1, s.meters.len + 1 + extra.length⟩, thr := upd s.thr t (.added m) }
  /-- meter.go:196 `t.mtx.Unlock()`, 67 `return rv` -/
  | unlock (s : State) (t m : Nat) (h : s.thr t = .added m) :
      Step s (some (.made t m)) { s with holder := none, thr := upd s.thr t .idle }
  /-- meter.go:201 `time.Sleep` ends -/
  | wake (s : State) (r : Nat) (h : s.run r = .sleeping) :
      Step s (some (.wake r)) { s with run := upd s.run r .waiting }
  /-- meter.go:202 `t.mtx.Lock()` -/
  | rlock (s : State) (r : Nat) (h : s.run r = .waiting) (free : s.holder = none) :
      Step s none { s with holder := some (.runner r), run := upd s.run r .loading }
  /-- meter.go:203 `meters := t.meters` -/
  | load (s : State) (r : Nat) (h : s.run r = .loading) :
      Step s none { s with run := upd s.run r (.loaded s.meters) }
  /-- meter.go:204 `t.mtx.Unlock()` -/
  | runlock (s : State) (r : Nat) (hd : Header) (h : s.run r = .loaded hd) :
      Step s none { s with holder := none, run := upd s.run r (.clock hd) }
  /-- meter.go:205 `now := monotime.Now()` -/
  | clock (s : State) (r : Nat) (hd : Header) (now : Int) (h : s.run r = .clock hd) :
      Step s (some (.clock r now)) { s with run := upd s.run r (.walking hd 0 now) }
  /-- meter.go:206-208: one element of the slice -/
  | tick (s : State) (r : Nat) (hd : Header) (i m : Nat) (now : Int) (h : s.run r = .walking hd i now) (more : i < hd.len)
      (hm : (s.heap hd.arr)[i]? = some m) :
      Step s (some (.tick r m now)) { s with run := upd s.run r (.walking hd (i + 1) now) }
  /-- meter.go:206, 200-201: the end of the loop -/
  | sleep (s : State) (r : Nat) (hd : Header) (i : Nat) (now : Int) (h : s.run r = .walking hd i now) (all : i = hd.len) :
      Step s (some (.sleep r)) { s with run := upd s.run r .sleeping }

/-- meter.go:30: the zero ticker. -/
def init : State := ⟨fun _ => [], 0, ⟨0, 0, 0⟩, false, none, fun _ => false, 0, fun _ => .idle, fun _ => .none⟩

end Monkit.Ticker
