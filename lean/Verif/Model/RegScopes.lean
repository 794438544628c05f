import Verif.Go.Sys
import Verif.Go.Map
import Verif.Go.StrOrd

/-!
# registry.go: the scopes of a registry, used by any number of goroutines

registry.go:87-97 (`ScopeNamed`), 211-222 (`Scopes`), 271-275 (`scopeSorter`).  A scope is a number together with its name.
-/

namespace Monkit.RegScopes
open Go

/-- `*Scope`: its address and `s.name`, which never changes (scope.go:33-38). -/
structure Scope where
  id : Nat
  name : Str
  deriving DecidableEq

/-- Where a goroutine is (registry.go:87-97, 211-222). -/
inductive PC where
  | idle
  -- ScopeNamed, registry.go:87-97
  | nLock (n : Str)
  | nLocked (n : Str)
  | nUnlock (n : Str) (s : Scope)
  -- Scopes, 211-222
  | aLock
  | aLocked
  | aUnlock (c : List Scope)
  /-- the copy, not yet sorted -/
  | aSort (c : List Scope)
  /-- the scopes still to be visited -/
  | aVisit (c : List Scope)

/-- What can be seen (registry.go:87-97, 211-222). -/
inductive Ev where
  | call (t : Nat) (n : Str)
  | made (t : Nat) (s : Scope)
  | ret (t : Nat) (n : Str) (s : Scope)
  /-- `Scopes` copies the map -/
  | copied (t : Nat)
  /-- its callback is called -/
  | visit (t : Nat) (s : Scope)
  | done (t : Nat)

/-- The scopes, the mutex and the goroutines (registry.go:34-35). -/
structure State where
  /-- `r.scopes` -/
  scopes : Map Str Scope
  next : Nat
  /-- `r.scopeMtx` -/
  lock : Option Nat
  pc : Nat → PC

/-- A new registry (registry.go:58-65). -/
def State.init : State := ⟨[], 0, none, fun _ => .idle⟩

/-- One statement under the lock, or one operation on the lock (registry.go:87-97, 211-222). -/
inductive Step : State → Option Ev → State → Prop where
  | call (s : State) (t n) : s.pc t = .idle → Step s (some (.call t n)) { s with pc := upd s.pc t (.nLock n) }
  | nLock (s : State) (t n) : s.pc t = .nLock n → s.lock = none →
      Step s none { s with lock := some t, pc := upd s.pc t (.nLocked n) }
  | found (s : State) (t n x) : s.pc t = .nLocked n → Map.get s.scopes n = some x →
      Step s none { s with pc := upd s.pc t (.nUnlock n x) }
  | make (s : State) (t n) : s.pc t = .nLocked n → Map.get s.scopes n = none →
      Step s (some (.made t ⟨s.next, n⟩))
        { s with next := s.next + 1, scopes := Map.set s.scopes n ⟨s.next, n⟩, pc := upd s.pc t (.nUnlock n ⟨s.next, n⟩) }
  | nUnlock (s : State) (t n x) : s.pc t = .nUnlock n x →
      Step s (some (.ret t n x)) { s with lock := none, pc := upd s.pc t .idle }
  | aCall (s : State) (t) : s.pc t = .idle → Step s none { s with pc := upd s.pc t .aLock }
  | aLock (s : State) (t) : s.pc t = .aLock → s.lock = none → Step s none { s with lock := some t, pc := upd s.pc t .aLocked }
  /-- `for _, s := range r.scopes`: any order -/
  | aCopy (s : State) (t c) : s.pc t = .aLocked → c.Perm (s.scopes.map (·.2)) →
      Step s (some (.copied t)) { s with pc := upd s.pc t (.aUnlock c) }
  | aUnlock (s : State) (t c) : s.pc t = .aUnlock c → Step s none { s with lock := none, pc := upd s.pc t (.aSort c) }
  /-- `sort.Sort(scopeSorter(c))`: some permutation in which no element is less than an earlier one -/
  | aSort (s : State) (t c d) : s.pc t = .aSort c → d.Perm c → d.Pairwise (fun a b => strLt b.name a.name = false) →
      Step s none { s with pc := upd s.pc t (.aVisit d) }
  | aVisit (s : State) (t x c) : s.pc t = .aVisit (x :: c) → Step s (some (.visit t x)) { s with pc := upd s.pc t (.aVisit c) }
  | aDone (s : State) (t) : s.pc t = .aVisit [] → Step s (some (.done t)) { s with pc := upd s.pc t .idle }

end Monkit.RegScopes
