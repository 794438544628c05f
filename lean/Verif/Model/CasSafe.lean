import Verif.Go.Mutex

/-!
# cas_safe.go and collect/cas_safe.go: atomic pointers without `unsafe`, for App Engine

cas_safe.go:25-77, collect/cas_safe.go:29-56: every operation takes one global mutex.  Pointers are numbers (0: nil), variables holding them are
numbers too.  The default build (cas_unsafe.go, collect/cas_unsafe.go) uses the operations of sync/atomic instead.
-/

namespace Monkit.CasSafe
open Go.Mutex

/-- The memory: which pointer each variable holds (cas_safe.go:25-77). -/
abbrev Mem := Nat → Nat

/-- The operations: `loadFunc`, `loadTraceWatcherRef`, `loadSpanObserverTuple`, `loadSpan`; `storeTraceWatcherRef`; `compareAndSwapFunc`,
`compareAndSwapSpanObserverTuple`, `compareAndSwapSpan`; `swapSpan` (cas_safe.go:25-77, collect/cas_safe.go:29-56). -/
inductive Op where
  | load (addr : Nat)
  | store (addr new : Nat)
  | cas (addr old new : Nat)
  | swap (addr new : Nat)
  deriving DecidableEq

/-- What is returned (cas_safe.go:25-77, collect/cas_safe.go:29-56). -/
inductive Res where
  | unit
  | ptr (p : Nat)
  | bool (b : Bool)
  deriving DecidableEq

/-- The local variables: `val` (`s`, `prev`), and the result (cas_safe.go:25-77). -/
structure Locals where
  val : Nat
  ok : Bool

/-- The accesses between `Lock` and `Unlock`.  cas_safe.go:25-30, 44-49, 72-77, collect/cas_safe.go:29-34 (loads); cas_safe.go:51-55 (store);
cas_safe.go:32-42, 57-69, collect/cas_safe.go:44-54 (compare and swap); collect/cas_safe.go:36-42 (swap). -/
def body : Op → List (Mem × Locals → Mem × Locals)
  | .load a => [fun (m, l) => (m, { l with val := m a })]
  | .store a new => [fun (m, l) => (upd m a new, l)]
  | .cas a old new => [
      fun (m, l) => (m, { l with val := m a }),
      fun (m, l) => if l.val = old then (upd m a new, { l with ok := true }) else (m, { l with ok := false })]
  | .swap a new => [
      fun (m, l) => (m, { l with val := m a }),
      fun (m, l) => (upd m a new, l)]

/-- What is returned after `Unlock` (cas_safe.go:25-77, collect/cas_safe.go:29-56). -/
def result : Op → Locals → Res
  | .load _, l => .ptr l.val
  | .store _ _, _ => .unit
  | .cas _ _ _, l => .bool l.ok
  | .swap _ _, l => .ptr l.val

/-- The variables as one mutex-protected object (cas_safe.go:22-77). -/
def obj : Obj Mem Locals Op Res where
  enter _ := ⟨0, false⟩
  body := body
  result := result

end Monkit.CasSafe
