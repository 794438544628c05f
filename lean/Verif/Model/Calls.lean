import Verif.Model.Tasks
import Verif.Model.FuncStats
import Verif.Go.Sys

/-!
# Monitored calls, panics and all

The function returned by a Task (ctx.go:113-157) and by `FuncStats.Observe` (funcstats.go:201-217), run as a deferred
function, and whole trees of monitored calls on one goroutine.

Go: a function body ends by returning, or by panicking with some value, possibly nil.  `recover()`, called
directly by a deferred function, stops the panic and gives its value; without a panic it gives nil.  Since Go 1.21
`panic(nil)` panics with a `*runtime.PanicNilError` instead; which it is depends on the Go version
of the main module.  `nilErr : Bool` says so here.  go.mod of this module says 1.19.
A function can also end by `runtime.Goexit`, which the `FailNow` and `Fatal` of package testing call: the deferred functions of all callers run –
`recover()` gives them nil – and then the goroutine ends.  A deferred function may panic meanwhile, and that panic may be recovered, upon which the
`Goexit` goes on.
-/

namespace Monkit.Calls
open Go
variable {E : Type}

/-- How a function ends, as its caller sees it: with an error (`none`: nil), with a panic (`none`: a nil value), or by `runtime.Goexit`: `err` is then the error variable
as it was left, which callers do not see, and `pn` a panic of a deferred function, if one is under way (ctx.go:113-157, funcstats.go:204-216). -/
inductive Out (E : Type) where
  | ret (err : Option E)
  | panic (p : Option Nat)
  | gone (err : Option E) (pn : Option (Option Nat))

/-- Did it end by `runtime.Goexit` (ctx.go:113-157)? -/
def Out.isGone : Out E → Bool
  | .gone _ _ => true
  | _ => false

/-- The same ending while the goroutine is being ended by `runtime.Goexit` (ctx.go:113-157). -/
def Out.leave : Out E → Out E
  | .ret err => .gone err none
  | .panic p => .gone none (some p)
  | .gone err pn => .gone err pn

/-- `panic(v)`; 0 is the `*runtime.PanicNilError` (ctx.go:155, funcstats.go:214). -/
def raise (nilErr : Bool) (v : Option Nat) : Option Nat := if nilErr then some (v.getD 0) else v

/-- What the exit function gives to `end` (funcstats.go:88), and how the function ends after it.
ctx.go:113-124, 154-156 and funcstats.go:204-216, which are the same in this respect.
`given`: it was called with `&err` and not with nil; `named`: the value of `err`; `pn`: the panic under way, if any. -/
def exit (nilErr given : Bool) (named : Option E) (pn : Option (Option Nat)) : (Option E × Bool) × Out E :=
  let rec' : Option Nat := pn.getD none          -- rec := recover()
  let panicked := rec'.isSome                    -- panicked := rec != nil
  let err := if given then named else none
  ((err, panicked), if panicked then .panic (raise nilErr rec') else .ret named)

/-- The same when the exit function is not deferred itself but called by a deferred function: `defer func() { exit(&err) }()`.  `recover()` gives nil then, panic or no panic, and
does not stop the panic (ctx.go:113-124, 154-156, funcstats.go:204-216). -/
def exitNested (given : Bool) (named : Option E) (pn : Option (Option Nat)) : (Option E × Bool) × Out E :=
  let rec' : Option Nat := none                  -- rec := recover()
  let panicked := rec'.isSome                    -- panicked := rec != nil
  let err := if given then named else none
  ((err, panicked), match pn with
    | some p => .panic p
    | none => .ret named)

/-- How a callee gets its context (ctx.go:165-224, 285-303). -/
inductive Pass where
  /-- the caller's -/
  | own
  /-- the caller's with a value added -/
  | withValue (k v : Nat)
  /-- the caller's through `ResetContextSpan` -/
  | reset
  /-- a nil context -/
  | nilCtx
  /-- none: the Task is given a nil pointer -/
  | nilPtr

mutual
/-- A call of a monitored function `f`: `defer mon.Task()(&ctx)(&err)`, or `(nil)` if not `given`.  `id` is what `NewId`
gives, `dur` and `W` the time taken and the reservoir window (ctx.go:206-224, funcstats.go:201-217). -/
inductive Call (E : Type) where
  | mk (f : Nat) (given : Bool) (id dur W : Int64) (body : Body E)
/-- What a function does: it calls monitored functions, each time going on according to how the call ended – which includes
recovering from its panic or letting it through – and returns, panics or calls `runtime.Goexit`.  `named` is the value of `err` when it panics or calls `Goexit`.
After a call that ended by `Goexit` what goes on are the deferred functions (the functions users write; see ctx.go:167-205). -/
inductive Body (E : Type) where
  | ret (err : Option E)
  | panic (v : Option Nat) (named : Option E)
  | goexit (named : Option E)
  | call (how : Pass) (c : Call E) (k : Out E → Body E)
end

/-- What monkit has seen (ctx.go:27-46, funcstats.go:34-46, registry.go:26-42). -/
structure State (E : Type) where
  world : Tasks.World
  /-- the calls of `FuncStats.start` and `end`, by function -/
  log : List (Nat × FuncStats.Op E)
  /-- the calls of `parents.Add` (funcstats.go:77): caller (`none`: no parent), function -/
  parents : List (Option Nat × Nat)
  /-- spans that have started and not finished -/
  running : List Nat
  /-- `Trace.spanCount` by trace (trace.go:143-147) -/
  spanCount : Nat → Int64
  /-- the calls of `orphan` (ctx.go:125-135, span.go:54-61): spans still running when their parent exits -/
  orphans : List Nat

/-- The context handed to a callee; `p` is the caller's own (ctx.go:59-77, 285-303). -/
def pass (p : Option (Option Ctx)) : Pass → Option (Option Ctx)
  | .own => some (some (Tasks.cleanCtx p))
  | .withValue k v => some (some ((Tasks.cleanCtx p).withValue k v))
  | .reset => some (some (Tasks.cleanCtx p).resetSpan)
  | .nilCtx => some none
  | .nilPtr => none

/-- The trace of a span (ctx.go:35). -/
def traceOf (w : Tasks.World) (s : Nat) : Nat := ((w.spans[s]?).map (·.trace)).getD 0

mutual
/-- A monitored call.  One goroutine, and a function hands a callee only what its own span gave it, so a span's
children bag holds the running spans that have it as parent, and its parent is running when it starts (ctx.go:59-158). -/
def run (nilErr : Bool) (st : State E) (p : Option (Option Ctx)) : Call E → State E × Out E
  | .mk f given id dur W body =>
    -- ctx.go:59-111
    let r := Tasks.task st.world (fun _ => []) p f id
    let w := r.1
    let s := r.2.2
    let parent := ((w.spans[s]?).bind (·.parent)).bind fun q => (w.spans[q]?).map (·.func)
    let st := { st with world := w, log := st.log ++ [(f, .start)], parents := st.parents ++ [(parent, f)],
                        running := s :: st.running,
                        spanCount := upd st.spanCount (traceOf w s) (st.spanCount (traceOf w s) + 1) }
    -- the function
    let b := runBody nilErr st r.2.1 body
    let st := b.1
    -- ctx.go:113-157
    let e := exit nilErr given b.2.1 b.2.2.1
    ({ st with log := st.log ++ [(f, .finish e.1.1 e.1.2 dur W)],
               orphans := st.orphans ++ st.running.filter (fun c => decide ((st.world.spans[c]?).bind (·.parent) = some s)),
               running := st.running.filter (· ≠ s),
               spanCount := upd st.spanCount (traceOf st.world s) (st.spanCount (traceOf st.world s) + (-1)) },
      if b.2.2.2 then e.2.leave else e.2)
/-- A function body: the value of `err`, the panic it ends with, and whether the goroutine is being ended by `runtime.Goexit` (the functions users write; see
ctx.go:167-205). -/
def runBody (nilErr : Bool) (st : State E) (p : Option (Option Ctx)) : Body E →
    State E × Option E × Option (Option Nat) × Bool
  | .ret err => (st, err, none, false)
  | .panic v named => (st, named, some (raise nilErr v), false)
  | .goexit named => (st, named, none, true)
  | .call how c k =>
    let r := run nilErr st (pass p how) c
    let b := runBody nilErr r.1 p (k r.2)
    (b.1, b.2.1, b.2.2.1, b.2.2.2 || r.2.isGone)
end

end Monkit.Calls
