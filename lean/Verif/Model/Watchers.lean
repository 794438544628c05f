import Verif.Spec.Observers

/-!
# Trace watchers of a registry

registry.go:99-150: `ObserveTraces`, its cancel function, `updateWatcher`, `observeTrace`.

The map `traceWatchers` is protected by `watcherMtx`; the published combination of callbacks
(`traceWatcher`) is an atomic pointer, read without the lock.  Callbacks are numbered by
`watcherCounter` (a 64-bit counter in the code, unbounded here).
-/

namespace Monkit.Watchers
open Go
open Monkit.Observers (Ev)

/-- Where a goroutine is (registry.go:99-150). -/
inductive PC where
  | idle
  /-- `ObserveTraces`: about to lock (registry.go:136) -/
  | owait
  /-- … has the lock, about to enter its callback in the map (registry.go:139-141) -/
  | oset
  /-- … about to publish (registry.go:142, 106-125) -/
  | opub (id : Nat)
  /-- … about to unlock and return -/
  | odone (id : Nat)
  /-- cancel of `id`: about to lock (registry.go:145) -/
  | cwait (id : Nat)
  | cset (id : Nat)
  | cpub (id : Nat)
  | cdone (id : Nat)
  /-- `observeTrace`: about to load the published combination (registry.go:100) -/
  | look
  /-- about to call the rest of the callbacks (registry.go:102, 119-123) -/
  | calls (rest : List Nat)
  deriving DecidableEq

/-- The watchers, what is published, the mutex and the goroutines (registry.go:26-32). -/
structure State where
  watchers : List Nat
  counter : Nat
  pub : List Nat
  mtx : Option Nat
  pc : Nat → PC

/-- A new registry (registry.go:58-65). -/
def init : State := ⟨[], 0, [], none, fun _ => .idle⟩

/-- Events are those of `Monkit.Observers`: `registered` – `ObserveTraces` returned; `began` – a new
trace is being announced; `called` – a callback got it (registry.go:99-150). -/
inductive Step : State → Option Ev → State → Prop where
  | observe (s : State) (t : Nat) (h : s.pc t = .idle) :
      Step s none { s with pc := upd s.pc t .owait }
  | olock (s : State) (t : Nat) (h : s.pc t = .owait) (free : s.mtx = none) :
      Step s none { s with mtx := some t, pc := upd s.pc t .oset }
  | oset (s : State) (t : Nat) (h : s.pc t = .oset) :
      Step s none { s with watchers := s.counter :: s.watchers, counter := s.counter + 1,
                           pc := upd s.pc t (.opub s.counter) }
  /-- `ord`: the order in which the map is ranged over -/
  | opub (s : State) (t id : Nat) (ord : List Nat) (h : s.pc t = .opub id) (hord : ord.Perm s.watchers) :
      Step s none { s with pub := ord, pc := upd s.pc t (.odone id) }
  | ounlock (s : State) (t id : Nat) (h : s.pc t = .odone id) :
      Step s (some (.registered t id)) { s with mtx := none, pc := upd s.pc t .idle }
  /-- anyone may call the cancel function, any number of times -/
  | cancel (s : State) (t id : Nat) (h : s.pc t = .idle) (hid : id < s.counter) :
      Step s (some (.cancelStart t id)) { s with pc := upd s.pc t (.cwait id) }
  | clock (s : State) (t id : Nat) (h : s.pc t = .cwait id) (free : s.mtx = none) :
      Step s none { s with mtx := some t, pc := upd s.pc t (.cset id) }
  /-- registry.go:147 -/
  | cset (s : State) (t id : Nat) (h : s.pc t = .cset id) :
      Step s none { s with watchers := s.watchers.filter (· ≠ id), pc := upd s.pc t (.cpub id) }
  /-- registry.go:148 -/
  | cpub (s : State) (t id : Nat) (ord : List Nat) (h : s.pc t = .cpub id) (hord : ord.Perm s.watchers) :
      Step s none { s with pub := ord, pc := upd s.pc t (.cdone id) }
  | cunlock (s : State) (t id : Nat) (h : s.pc t = .cdone id) :
      Step s (some (.cancelled t id)) { s with mtx := none, pc := upd s.pc t .idle }
  | begin (s : State) (t : Nat) (h : s.pc t = .idle) :
      Step s (some (.began t)) { s with pc := upd s.pc t .look }
  | load (s : State) (t : Nat) (h : s.pc t = .look) :
      Step s none { s with pc := upd s.pc t (.calls s.pub) }
  | call (s : State) (t id : Nat) (rest : List Nat) (h : s.pc t = .calls (id :: rest)) :
      Step s (some (.called t id)) { s with pc := upd s.pc t (.calls rest) }
  | finish (s : State) (t : Nat) (h : s.pc t = .calls []) :
      Step s (some (.ended t)) { s with pc := upd s.pc t .idle }

end Monkit.Watchers
