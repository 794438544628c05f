import Verif.Model.Callers
import Verif.Model.Scope
import Verif.Go.Sort
import Verif.Go.StrOrd

/-!
# environment/env.go: registering the environment's sources

environment/env.go:21-35 and the `init` functions of the package.  Only chained sources are looked at here; a scope holding others reports those first (Model/Scope).
One goroutine.
-/

namespace Monkit.Env
open Go

/-- The sources (environment/os.go:37, proc.go:28, process.go:74, runtime.go:55, rusage.go:39). -/
inductive Src where
  | os | proc | process | runtime | rusage
  /-- one of the program's own -/
  | other (n : Nat)
  deriving DecidableEq

/-- `registrations`, after the `init` functions, which run in the order of the names of their files (environment/env.go:21-23). -/
def registrations : List Src := [.os, .proc, .process, .runtime, .rusage]

/-- The function that calls `registry.Package()`, as the runtime names it; it is too big to be inlined (environment/env.go:27-31). -/
def frame : Callers.Frame := ⟨b!"github.com/spacemonkeygo/monkit/v3/environment.Register", some b!"github.com/spacemonkeygo/monkit/v3/environment.Register"⟩

/-- The registries – 0 is `monkit.Default` –, of each the scopes, of each the chained sources (registry.go:34-35, scope.go:30). -/
structure State where
  regs : Nat → Map Str (List Src)

/-- Nothing is registered (registry.go:58-65). -/
def State.init : State := ⟨fun _ => []⟩

/-- registry.go:87-97 `ScopeNamed`: the scope is made if it is not there. -/
def scopeNamed (m : Map Str (List Src)) (n : Str) : Map Str (List Src) :=
  match Map.get m n with
  | some _ => m
  | none => Map.set m n []

/-- scope.go:287-291 `Chain` of the scope with that name. -/
def chain (m : Map Str (List Src)) (n : Str) (c : Src) : Map Str (List Src) := Map.set m n ((Map.get m n).getD [] ++ [c])

/-- Calls: `environment.Register(r)` (nil: `none`), and `r.ScopeNamed(n).Chain(c)` by others (environment/env.go:27-35, scope.go:287-291). -/
inductive Op where
  | register (r : Option Nat)
  | chain (r : Nat) (n : Str) (c : Nat)

/-- One call (environment/env.go:27-35). -/
def step (s : State) : Op → State
  | .register r =>
    let r := match r with | none => 0 | some r => r
    let pkg := Callers.callerPackage (some frame)
    let m := scopeNamed (s.regs r) pkg
    ⟨fun i => if i = r then registrations.foldl (fun m c => chain m pkg c) m else s.regs i⟩
  | .chain r n c => ⟨fun i => if i = r then chain (scopeNamed (s.regs r) n) n (.other c) else s.regs i⟩

/-- A report of registry `r`: its scopes by name, of each what its chained sources say, with the scope's name (registry.go:211-235, scope.go:306-322). -/
def report {V : Type} (tells : Src → List (Key × Str × V)) (s : State) (r : Nat) : List (Key × Str × V) :=
  (sortBy (fun a b => !strLt b.1 a.1) (s.regs r)).flatMap fun x =>
    x.2.flatMap fun c => (tells c).map fun y => (y.1.withTag b!"scope" x.1, y.2.1, y.2.2)

end Monkit.Env
