import Verif.Model.TraceHttp
import Verif.Spec.Headers
import Verif.Spec.Present

/-!
# What traced handlers and traced requests should do (C99, C100)

Read off the log of what happened.
-/

namespace Monkit.TraceHttp.Spec
open Go Monkit.Headers

/-- The annotations span `s` got, in order. -/
def notes (s : Nat) (l : List Eff) : List (Str × Str) := l.filterMap fun
  | .annotate s' n v => if s' = s then some (n, v) else none
  | _ => none

/-- The same for what a handler does. -/
def actNotes (l : List Act) : List (Str × Str) := l.filterMap fun
  | .annotate n v => some (n, v)
  | _ => none

/-- What a handler does to the status and the body; if it cannot flush, it does not. -/
def actOps (canFlush : Bool) (l : List Act) : List Wrap.Op := l.filterMap fun
  | .op .flush => if canFlush then some .flush else none
  | .op o => some o
  | _ => none

/-- The writer is told to do these things. -/
def ops (l : List Eff) : List Wrap.Op := l.filterMap fun
  | .op o => some o
  | _ => none

/-- Does the response header go out with this? -/
def commits : Eff → Bool
  | .op (.writeHeader c) => !Wrap.informational c
  | .op _ => true
  | _ => false

/-- The value of response header `k` that the client gets: the last one set before the header went out. -/
def sentHeader (k : Str) (l : List Eff) : Option Str :=
  ((l.takeWhile fun x => !commits x).filterMap fun
    | .header k' v => if k' = k then some v else none
    | _ => none).getLast?

/-- A call of the handler. -/
def isHandle : Eff → Bool
  | .handle _ _ => true
  | _ => false

/-- The client sends the request. -/
def isSend : Eff → Bool
  | .send _ => true
  | _ => false

/-- The callbacks called, in order. -/
def callbacks (l : List Eff) : List Nat := l.filterMap fun
  | .callback c => some c
  | _ => none

/-- The client's answer, handed on. -/
def handedOn (nilErr : Bool) : DoRes → ReqRes
  | .resp c => .resp c
  | .err e => .err e
  | .panic v => .panic (Calls.raise nilErr v)

/-- What the span of a request is told about the client's answer at its end: the error, and whether it panicked. -/
def told : DoRes → Option Nat × Bool
  | .resp _ => (none, false)
  | .err e => (some e, false)
  | .panic _ => (none, true)

/-- A span finishes. -/
def isFinish : Eff → Bool
  | .finish _ _ _ => true
  | _ => false

/-- A span starts. -/
def isStart : Eff → Bool
  | .start _ _ => true
  | _ => false

/-- A number in hexadecimal, with a minus sign if it is negative. -/
def HexInt (s : Str) (v : Int64) : Prop :=
  (0 ≤ v.toInt ∧ Headers.Spec.HexNum s v.toInt.toNat) ∨ (v.toInt < 0 ∧ ∃ d, s = b!"-" ++ d ∧ Headers.Spec.HexNum d (-v.toInt).toNat)

/-- An observer after which the current span of the context is what it was. -/
def KeepsSpan (o : Ctx → Ctx) : Prop := ∀ c, (o c).spanFrom = c.spanFrom

/-- A status code in decimal. -/
def num (i : Int) : Str := if i < 0 then b!"-" ++ Present.Spec.digits (-i).toNat else Present.Spec.digits i.toNat

/-- The request asks for sampling without saying whose trace it belongs to. -/
def AsksAlone (h : Header) : Prop := h.traceparent = b!"" ∧ ∃ a b, h.tracestate = a ++ b!"sampled=true" ++ b

end Monkit.TraceHttp.Spec
