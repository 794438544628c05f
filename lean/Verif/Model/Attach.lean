import Verif.Model.Spans

/-!
# To which traces `ObserveAllTraces` attaches, while spans start and finish

collect/trace.go:25-51 together with the spans of the registry (Model/Spans) and the announcement of new traces (registry.go:99-104, ctx.go:74-76, 257-259, 273-274).

The callback (collect/trace.go:31-39, 42-51) holds a mutex throughout and is one step here: C33 is about its inside, and about `cancel`, which is not called here.
Publishing the callback (registry.go:135-150) is one atomic store; C32 is about several watchers.
-/

namespace Monkit.Attach
open Go

/-- The spans; which of them announce their trace to the registry before they are made – new traces (ctx.go:74-76), `ResetTrace` (273-274) and `RemoteTrace` with a
trace (257-259); the registry that is observed (collect/trace.go:25). -/
structure Program where
  W : Spans.World
  announces : Nat → Bool
  reg : Nat

/-- How far a span is with announcing its trace: not yet; it has found a watcher and is about to call it; past it (registry.go:99-104). -/
inductive Ann where
  | before
  | call
  | past
  deriving DecidableEq

/-- Where `ObserveAllTraces` is: not called; about to publish its callback (collect/trace.go:31); about to copy the root spans (collect/trace.go:42, registry.go:179-184); about to
copy the orphans, having copied `roots` (registry.go:185-190); about to call the callback for the spans `rest` (registry.go:191-195); returned. -/
inductive Main where
  | idle
  | publish
  | roots
  | orphans (roots : List Nat)
  | scan (rest : List Nat)
  | returned
  deriving DecidableEq

/-- The spans, the announcements, whether the callback is published, the traces the collector is attached to, and `ObserveAllTraces` (collect/trace.go:26-29). -/
structure State where
  sp : Spans.State
  ann : Nat → Ann
  published : Bool
  attached : List Nat
  main : Main

/-- The callback for trace `T` (collect/trace.go:34-38, 46-50). -/
def attach (T : Nat) (l : List Nat) : List Nat := if T ∈ l then l else T :: l

/-- One step (collect/trace.go:25-51, registry.go:99-104, 178-196, ctx.go:59-158). -/
inductive Step (P : Program) : State → State → Prop where
  /-- registry.go:100: the span that is about to be made loads the watcher -/
  | announce (s : State) (n : Nat) (h : s.sp.pc n = .new) (ha : P.announces n = true) (hr : P.W.reg n = P.reg) (hn : s.ann n = .before) :
      Step P s { s with ann := upd s.ann n (if s.published then .call else .past) }
  /-- registry.go:102, collect/trace.go:31-39 -/
  | callback (s : State) (n : Nat) (h : s.ann n = .call) :
      Step P s { s with attached := attach (P.W.trace n) s.attached, ann := upd s.ann n .past }
  /-- a span starts or finishes; the trace has been announced before its span is made (ctx.go:74-87) -/
  | span (s : State) (sp' : Spans.State) (st : Spans.Step P.W s.sp sp')
      (first : ∀ n, s.sp.pc n = .new → sp'.pc n ≠ .new → P.announces n = true → P.W.reg n = P.reg → s.ann n = .past) :
      Step P s { s with sp := sp' }
  | call (s : State) (h : s.main = .idle) : Step P s { s with main := .publish }
  /-- collect/trace.go:31, registry.go:142 -/
  | publish (s : State) (h : s.main = .publish) : Step P s { s with published := true, main := .roots }
  /-- registry.go:179-184; `o`: the order in which the map is visited -/
  | roots (s : State) (o : List Nat) (h : s.main = .roots) (ho : o.Perm (s.sp.roots P.reg)) : Step P s { s with main := .orphans o }
  /-- registry.go:185-192; the order after sorting plays no part -/
  | orphans (s : State) (l o : List Nat) (h : s.main = .orphans l) (ho : o.Perm (l ++ s.sp.orphans P.reg)) : Step P s { s with main := .scan o }
  /-- registry.go:193-195, collect/trace.go:42-51 -/
  | scan (s : State) (n : Nat) (rest : List Nat) (h : s.main = .scan (n :: rest)) :
      Step P s { s with attached := attach (P.W.trace n) s.attached, main := .scan rest }
  /-- collect/trace.go:53 -/
  | ret (s : State) (h : s.main = .scan []) : Step P s { s with main := .returned }

/-- Nothing has happened (registry.go:58-65). -/
def init : State := ⟨Spans.init, fun _ => .before, false, [], .idle⟩

/-- Any number of steps (collect/trace.go:25-51). -/
inductive Steps (P : Program) : State → State → Prop where
  | refl (s : State) : Steps P s s
  | step {s s' s'' : State} (h : Steps P s s') (st : Step P s' s'') : Steps P s s''

end Monkit.Attach
