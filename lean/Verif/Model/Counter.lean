import Verif.Model.Basic

/-!
# counter.go
-/

namespace Monkit

open Go

/-- counter.go:33-38.  The mutex is not part of the sequential model (see `Go/Mutex.lean`). -/
structure Counter where
  val : Int64
  low : Int64
  high : Int64
  nonempty : Bool
  key : Key
  deriving DecidableEq, Repr

namespace Counter

/-- counter.go:41-43 `NewCounter`. -/
def new (key : Key) : Counter := ⟨0, 0, 0, false, key⟩

/-- counter.go:45-54 `set`. -/
def set (c : Counter) (v : Int64) : Counter :=
  let c := { c with val := v }
  let c := if !c.nonempty || v < c.low then { c with low := v } else c
  let c := if !c.nonempty || c.high < v then { c with high := v } else c
  { c with nonempty := true }

/-- counter.go:59-65 `Set`: returns the former value. -/
def Set (c : Counter) (v : Int64) : Counter × Int64 := (c.set v, c.val)

/-- counter.go:68-74 `Inc`: returns the new value. -/
def Inc (c : Counter) (delta : Int64) : Counter × Int64 :=
  let c' := c.set (c.val + delta)
  (c', c'.val)

/-- counter.go:77-79 `Dec`. -/
def Dec (c : Counter) (delta : Int64) : Counter × Int64 := c.Inc (-delta)

/-- counter.go:82-87 `High`. -/
def High (c : Counter) : Int64 := c.high

/-- counter.go:90-95 `Low`. -/
def Low (c : Counter) : Int64 := c.low

/-- counter.go:98-103 `Current`. -/
def Current (c : Counter) : Int64 := c.val

/-- counter.go:107-113 `Reset`: returns `val, low, high`. -/
def Reset (c : Counter) : Counter × (Int64 × Int64 × Int64) :=
  ({ c with val := 0, low := 0, high := 0, nonempty := false }, (c.val, c.low, c.high))

/-- counter.go:116-128 `Stats`. -/
def Stats (c : Counter) : List (Key × Str × FVal) :=
  (if c.nonempty then
    [(c.key, b!"high", FVal.int c.high), (c.key, b!"low", FVal.int c.low)]
  else
    [(c.key, b!"high", FVal.nan), (c.key, b!"low", FVal.nan)])
  ++ [(c.key, b!"value", FVal.int c.val)]

/-- The calls a program can make on a counter (counter.go:59-128). -/
inductive Op where
  | set (v : Int64)
  | inc (d : Int64)
  | dec (d : Int64)
  | reset
  | high
  | low
  | current
  | stats
  deriving DecidableEq, Repr

/-- What a call returns (or, for `Stats`, reports) (counter.go:59-128). -/
inductive Res where
  | val (v : Int64)
  | triple (val low high : Int64)
  | report (l : List (Key × Str × FVal))
  deriving DecidableEq, Repr

/-- One call (counter.go:59-128). -/
def step (c : Counter) : Op → Counter × Res
  | .set v => let (c', r) := c.Set v; (c', .val r)
  | .inc d => let (c', r) := c.Inc d; (c', .val r)
  | .dec d => let (c', r) := c.Dec d; (c', .val r)
  | .reset => let (c', r) := c.Reset; (c', .triple r.1 r.2.1 r.2.2)
  | .high => (c, .val c.High)
  | .low => (c, .val c.Low)
  | .current => (c, .val c.Current)
  | .stats => (c, .report c.Stats)

/-- A sequence of calls, returning the final counter and every result (counter.go:59-128). -/
def run (c : Counter) : List Op → Counter × List Res
  | [] => (c, [])
  | o :: os =>
    let (c', r) := c.step o
    let (c'', rs) := c'.run os
    (c'', r :: rs)

end Counter
end Monkit
