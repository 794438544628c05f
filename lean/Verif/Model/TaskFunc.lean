import Verif.Go.Sys

/-!
# task.go: Task.Func

task.go:35-66, ctx.go:206-224, 239-249, 268-281.  The dispatch of a Task, and the lazily found Func of `Scope.Task` under any number of
goroutines calling the
Task and its method `Func`.  `sync.Once` is modelled by its contract; a read of the variable `f` by `Func` that races with its being set
returns the old or
the new value.
-/

namespace Monkit.TaskFunc
open Go

/-- The identity of a `*Func` (func.go:32-40). -/
abbrev FuncId := Nat

/-- The `*context.Context` a Task is called with (ctx.go:165). -/
inductive Ctx where
  /-- `&taskSecret` (ctx.go:160), an unexported variable -/
  | secret
  /-- any other pointer, or nil -/
  | user (n : Option Nat)
  deriving DecidableEq

/-- An argument of a Task (ctx.go:165, task.go:21-32). -/
inductive Arg where
  /-- of the unexported type `taskKey` -/
  | key (k : Int64)
  /-- of type `**Func` -/
  | out
  /-- anything else -/
  | other (n : Nat)
  deriving DecidableEq

/-- What `taskArgs` does (task.go:50-66). -/
inductive Dispatch where
  /-- it returns false -/
  | no
  /-- it writes `f` to the location given and returns true -/
  | wrote (f : Option FuncId)
  /-- it panics: the second argument is no `**Func` -/
  | panic
  deriving DecidableEq

/-- task.go:50-66 `taskArgs`; `f` is nil if the Task has not found its Func yet. -/
def taskArgs (f : Option FuncId) (args : List Arg) : Dispatch :=
  match args with
  | [.key k, a] => if k = 0 then (match a with | .out => .wrote f | _ => .panic) else .no
  | _ => .no

/-- ctx.go:212, 241, 271: `ctx == &taskSecret && taskArgs(f, args)`. -/
def dispatch (ctx : Ctx) (f : Option FuncId) (args : List Arg) : Dispatch :=
  if ctx = .secret then taskArgs f args else .no

/-- What `Task.Func` makes of the call of the function (task.go:45-47): `none` is a panic.  If the function did not write to `out`, that is nil. -/
def result (returnsNil : Bool) (out : Option FuncId) : Option FuncId := if returnsNil then out else none

/-- task.go:35-48 `Task.Func` on a Task whose variable `f` is `f`: `Func.Task` and `Func.ResetTrace` (always set), or `Scope.Task`. -/
def taskFunc (f : Option FuncId) : Option FuncId :=
  match dispatch .secret f [.key 0, .out] with
  | .wrote out => result true out
  | .no => result false none
  | .panic => none

/-! ## Scope.Task -/

inductive PC where
  | idle
  /-- ctx.go:215 about to enter `initOnce.Do` -/
  | once
  /-- ctx.go:216 in the function given to `Do` -/
  | finding
  /-- ctx.go:218 about to start a span -/
  | start
  deriving DecidableEq

/-- A `sync.Once` (ctx.go:207). -/
inductive Once where
  | fresh
  | running (i : Nat)
  | complete
  deriving DecidableEq

/-- The variables of a Task and the goroutines (ctx.go:207-208). -/
structure State where
  once : Once
  f : Option FuncId
  thr : Nat → PC

/-- What can be seen (ctx.go:206-224, task.go:35-48). -/
inductive Event where
  | call (i : Nat)
  /-- `FuncNamed` returned `g` -/
  | found (i : Nat) (g : FuncId)
  /-- `FuncNamed` panicked: the name is taken by something that is not a Func -/
  | notFound (i : Nat)
  /-- a span of `g` is started -/
  | span (i : Nat) (g : FuncId)
  /-- starting a span of the nil Func panics -/
  | spanPanic (i : Nat)
  /-- `Func()` returned `g` -/
  | func (i : Nat) (g : FuncId)
  /-- `Func()` panicked -/
  | funcPanic (i : Nat)
  deriving DecidableEq

/-- ctx.go:206-224.  Users cannot name the secret context. -/
inductive Step : State → Option Event → State → Prop where
  /-- ctx.go:209-214 -/
  | call (s) (i : Nat) (n : Option Nat) (args : List Arg) (h : s.thr i = .idle) (hd : dispatch (.user n) s.f args = .no) :
      Step s (some (.call i)) { s with thr := upd s.thr i .once }
  /-- ctx.go:215 -/
  | onceFirst (s) (i : Nat) (h : s.thr i = .once) (ho : s.once = .fresh) : Step s none { s with once := .running i, thr := upd s.thr i .finding }
  | onceDone (s) (i : Nat) (h : s.thr i = .once) (ho : s.once = .complete) : Step s none { s with thr := upd s.thr i .start }
  /-- ctx.go:216-217 -/
  | found (s) (i : Nat) (g : FuncId) (h : s.thr i = .finding) :
      Step s (some (.found i g)) { s with f := some g, once := .complete, thr := upd s.thr i .start }
  /-- a panic leaves `Do`, which counts as done -/
  | notFound (s) (i : Nat) (h : s.thr i = .finding) : Step s (some (.notFound i)) { s with once := .complete, thr := upd s.thr i .idle }
  /-- ctx.go:218-222 -/
  | span (s) (i : Nat) (g : FuncId) (h : s.thr i = .start) (hf : s.f = some g) : Step s (some (.span i g)) { s with thr := upd s.thr i .idle }
  | spanPanic (s) (i : Nat) (h : s.thr i = .start) (hf : s.f = none) : Step s (some (.spanPanic i)) { s with thr := upd s.thr i .idle }
  /-- task.go:35-48, called by a goroutine that is not calling the Task -/
  | func (s) (i : Nat) (g : FuncId) (h : s.thr i = .idle) (hf : taskFunc s.f = some g) : Step s (some (.func i g)) s
  | funcPanic (s) (i : Nat) (h : s.thr i = .idle) (hf : taskFunc s.f = none) : Step s (some (.funcPanic i)) s

/-- ctx.go:207-208 -/
def init : State := ⟨.fresh, none, fun _ => .idle⟩

end Monkit.TaskFunc
