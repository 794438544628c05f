import Verif.Go.Sys

/-!
# Naming an error under the lock

funcstats.go:88-105: `end` calls `getErrorName` (error_names.go:49-97), and so the user's handlers and the error's own `Name`, while it holds the
function's mutex, and unlocks without `defer`.  Here is only who holds the mutex; what is counted is Model/FuncStats.  Calls without an error do not call
the user's code; they and all readers (funcstats.go:112-190) just lock and unlock.  A panic of the user's code leaves `end`; the caller may recover it and go on.
-/

namespace Monkit.EndLock
open Go

/-- What the user's naming code does (error_names.go:53-66). -/
inductive Naming where
  | returns
  | panics
  /-- calls a method of the same function that locks -/
  | reads
  deriving DecidableEq

/-- Where a goroutine is (funcstats.go:88-190). -/
inductive PC where
  | idle
  /-- `end` with an error: about to lock (funcstats.go:90) -/
  | eLock (n : Naming)
  /-- about to name the error (funcstats.go:103) -/
  | eName (n : Naming)
  /-- in the user's code: about to lock again -/
  | eRead
  /-- about to unlock (funcstats.go:104) -/
  | eUnlock
  /-- any other call: about to lock, to unlock -/
  | rLock
  | rUnlock
  deriving DecidableEq

/-- The mutex and the goroutines (funcstats.go:32-46). -/
structure State where
  lock : Option Nat
  pc : Nat → PC

/-- What can be seen (funcstats.go:88-190). -/
inductive Ev where
  | endCall (t : Nat) (n : Naming)
  | endRet (t : Nat)
  /-- `end` is left by a panic -/
  | endPanics (t : Nat)
  | call (t : Nat)
  | ret (t : Nat)
  deriving DecidableEq

/-- One step (funcstats.go:88-190). -/
inductive Step : State → Option Ev → State → Prop where
  | endCall (s : State) (t : Nat) (n : Naming) (h : s.pc t = .idle) : Step s (some (.endCall t n)) { s with pc := upd s.pc t (.eLock n) }
  /-- funcstats.go:90 -/
  | eLock (s : State) (t : Nat) (n : Naming) (h : s.pc t = .eLock n) (free : s.lock = none) : Step s none { s with lock := some t, pc := upd s.pc t (.eName n) }
  /-- funcstats.go:103 -/
  | eName (s : State) (t : Nat) (h : s.pc t = .eName .returns) : Step s none { s with pc := upd s.pc t .eUnlock }
  | ePanic (s : State) (t : Nat) (h : s.pc t = .eName .panics) : Step s (some (.endPanics t)) { s with pc := upd s.pc t .idle }
  | eReads (s : State) (t : Nat) (h : s.pc t = .eName .reads) : Step s none { s with pc := upd s.pc t .eRead }
  | eRead (s : State) (t : Nat) (h : s.pc t = .eRead) (free : s.lock = none) : Step s none { s with lock := some t, pc := upd s.pc t .eUnlock }
  /-- funcstats.go:104 -/
  | eUnlock (s : State) (t : Nat) (h : s.pc t = .eUnlock) : Step s (some (.endRet t)) { s with lock := none, pc := upd s.pc t .idle }
  | call (s : State) (t : Nat) (h : s.pc t = .idle) : Step s (some (.call t)) { s with pc := upd s.pc t .rLock }
  | rLock (s : State) (t : Nat) (h : s.pc t = .rLock) (free : s.lock = none) : Step s none { s with lock := some t, pc := upd s.pc t .rUnlock }
  | rUnlock (s : State) (t : Nat) (h : s.pc t = .rUnlock) : Step s (some (.ret t)) { s with lock := none, pc := upd s.pc t .idle }

/-- A new function (funcstats.go:58-62). -/
def init : State := ⟨none, fun _ => .idle⟩

end Monkit.EndLock
