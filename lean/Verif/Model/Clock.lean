import Verif.Model.Monotime
import Verif.Model.Calls
import Verif.Model.Spans

/-!
# Clocks and what is measured with them

monotime/monotime.go, monotime_fallback.go, monotime_windows.go, timer.go:50-66, span.go:63-66, ctx.go:89, 117, 123 and funcstats.go:203-213.

A `time.Time` is its monotonic reading, in nanoseconds since the program started; all times here have one, because they come from `time.Now` by `Add`.
The wall clock is not part of the model.  Moments are numbers: moment 1 is some time after moment 0.
-/

namespace Monkit.Clock
open Calls

/-- The clocks of the machine: what Go's own monotonic clock and, on Windows, the performance counter show at each moment; `initTime` is Go's clock when the package
was initialised, `base` and `freq` the counter then and its frequency (monotime.go:5, monotime_windows.go:14-16). -/
structure Clocks where
  windows : Bool
  initTime : Int64
  base : Int64
  freq : Int64
  go : Nat → Int64
  counter : Nat → Int64

/-- Go's `Time.Sub` of two times with monotonic readings; it saturates (used at monotime_fallback.go:7, ctx.go:123, timer.go:65). -/
def sub (t u : Int64) : Int64 :=
  let d := t - u
  if d < 0 ∧ u < t then Int64.maxValue else if 0 < d ∧ t < u then Int64.minValue else d

/-- Go's `Time.Add`; `none`: the monotonic reading overflows, and Go goes on with the wall clock (used at monotime.go:7). -/
def add (t d : Int64) : Option Int64 :=
  let e := t + d
  if (d < 0 ∧ t < e) ∨ (0 < d ∧ e < t) then none else some e

/-- Go's `time.Since`: by Go's clock at moment `m` (used at monotime_fallback.go:7, timer.go:65, span.go:65, present/json.go:53, environment/process.go:46). -/
def since (C : Clocks) (t : Int64) (m : Nat) : Int64 := sub (C.go m) t

/-- `elapsed` (monotime_fallback.go:7, monotime_windows.go:18-21). -/
def elapsed (C : Clocks) (m : Nat) : Option Int64 :=
  if C.windows then Monotime.elapsed (C.counter m) C.base C.freq else some (since C C.initTime m)

/-- monotime.go:7 `Now`. -/
def now (C : Clocks) (m : Nat) : Option Int64 := (elapsed C m).bind (add C.initTime)

/-- The duration recorded for a call that started at moment `s` and finished at moment `t` (ctx.go:89, 117, 123, funcstats.go:203-213). -/
def recorded (C : Clocks) (s t : Nat) : Option Int64 := (now C t).bind fun b => (now C s).map fun a => sub b a

/-- What `Elapsed` and `Stop` of a timer started at moment `s`, `Duration` of a span started then, and its `elapsed` in JSON give at moment `t`
(timer.go:50-54, 64-66, span.go:64-66, present/json.go:53). -/
def measured (C : Clocks) (s t : Nat) : Option Int64 := (now C s).map fun a => since C a t

/-! ## Trees of calls by the clock -/

mutual
/-- A monitored call (see `Calls.Call`); how long it takes is not given (ctx.go:206-224). -/
inductive TCall (E : Type) where
  | mk (f : Nat) (given : Bool) (id W : Int64) (body : TBody E)
/-- What a function does: as in `Calls.Body`, and it spends time (the functions users write; see ctx.go:167-205). -/
inductive TBody (E : Type) where
  | ret (err : Option E)
  | panic (v : Option Nat) (named : Option E)
  | goexit (named : Option E)
  | work (d : Nat) (k : TBody E)
  | call (how : Pass) (c : TCall E) (k : Out E → TBody E)
end

/-- A call that has taken place: its function, how it ended and the window of its reservoir, the moments at which it read the clock, and the calls it made
(ctx.go:89, 117-123). -/
inductive Rec (E : Type) where
  | node (f : Nat) (err : Option E) (panicked : Bool) (W : Int64) (start finish : Nat) (calls : List (Rec E))

/-- How a function body ends: the value of `err`, the panic, `runtime.Goexit`; when; and the calls it made (ctx.go:113-123). -/
structure Ending (E : Type) where
  named : Option E
  pn : Option (Option Nat)
  gone : Bool
  at_ : Nat
  calls : List (Rec E)

mutual
/-- A call made at moment `m` with the clock running: the same call with its duration filled in, how it ends, the moment when it has returned, and what took place.
`delay m` is how long whatever happens at `m` takes; `dur s t` the duration recorded for a call from `s` to `t`.  The clock is read when the span is made (ctx.go:89) and when
the exit function has recovered (ctx.go:117). -/
def time {E : Type} (delay : Nat → Nat) (dur : Nat → Nat → Int64) (nilErr : Bool) (m : Nat) : TCall E → Call E × Out E × Nat × Rec E
  | .mk f given id W body =>
    let s := m + delay m
    let b := timeBody delay dur nilErr (s + delay s) body
    let t := b.2.at_ + delay b.2.at_
    let e := exit nilErr given b.2.named b.2.pn
    (.mk f given id (dur s t) W b.1, if b.2.gone then e.2.leave else e.2, t + delay t, .node f e.1.1 e.1.2 W s t b.2.calls)
/-- A function body run from moment `m` (ctx.go:113-123). -/
def timeBody {E : Type} (delay : Nat → Nat) (dur : Nat → Nat → Int64) (nilErr : Bool) (m : Nat) : TBody E → Body E × Ending E
  | .ret err => (.ret err, ⟨err, none, false, m, []⟩)
  | .panic v named => (.panic v named, ⟨named, some (raise nilErr v), false, m, []⟩)
  | .goexit named => (.goexit named, ⟨named, none, true, m, []⟩)
  | .work d k => timeBody delay dur nilErr (m + d) k
  | .call how c k =>
    let r := time delay dur nilErr m c
    let b := timeBody delay dur nilErr r.2.2.1 (k r.2.1)
    (.call how r.1 fun o => (timeBody delay dur nilErr r.2.2.1 (k o)).1,
      ⟨b.2.named, b.2.pn, b.2.gone || r.2.1.isGone, b.2.at_, r.2.2.2 :: b.2.calls⟩)
end

/-! ## Spans of any number of goroutines by the clock -/

/-- Spans (Model/Spans), the present moment, and of each span the moments of its readings (ctx.go:89, 117). -/
structure Timed where
  s : Spans.State
  m : Nat
  start : Nat → Nat
  finish : Nat → Nat

/-- The clock is read when a span is made (ctx.go:89) and at the beginning of the exit function (ctx.go:117); all else does not touch the readings, and time may pass at
any point. -/
inductive TStep (W : Spans.World) : Timed → Timed → Prop where
  | tick (x : Timed) (d : Nat) : TStep W x { x with m := x.m + d }
  | create (x : Timed) (n : Nat) (s' : Spans.State) (st : Spans.Step W x.s s') (h : x.s.pc n = .new) (h' : s'.pc n ≠ .new) :
      TStep W x { x with s := s', start := Go.upd x.start n x.m }
  | exit (x : Timed) (n : Nat) (s' : Spans.State) (st : Spans.Step W x.s s') (h : x.s.pc n = .running) (h' : s'.pc n ≠ .running) :
      TStep W x { x with s := s', finish := Go.upd x.finish n x.m }
  | other (x : Timed) (s' : Spans.State) (st : Spans.Step W x.s s') (h : ∀ n, (x.s.pc n = .new → s'.pc n = .new) ∧ (x.s.pc n = .running → s'.pc n = .running)) :
      TStep W x { x with s := s' }

/-- Nothing has happened (registry.go:58-65). -/
def tinit : Timed := ⟨Spans.init, 0, fun _ => 0, fun _ => 0⟩

/-- States reached by any schedule (ctx.go:59-158). -/
inductive TReach (W : Spans.World) (x₀ : Timed) : Timed → Prop where
  | start : TReach W x₀ x₀
  | step {x x'} (h : TReach W x₀ x) (st : TStep W x x') : TReach W x₀ x'

end Monkit.Clock
