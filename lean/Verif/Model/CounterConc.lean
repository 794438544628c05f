import Verif.Go.Mutex
import Verif.Model.Counter

/-!
# counter.go, at the granularity of field accesses, for concurrent use
-/

namespace Monkit.Counter
open Go.Mutex

/-- Local variables of a call: temporaries and named results (counter.go:59-128). -/
structure Locals where
  a : Int64
  b : Int64
  c : Int64
  cond : Bool
  ne : Bool
  key : Key

/-- A statement that only writes a shared field / reads into locals (counter.go:59-128). -/
abbrev Access := Counter × Locals → Counter × Locals

/-- counter.go:45-54 `set(val)`, statement by statement; the conditions of the two `if`s are
evaluated (reading two fields one after the other) before the guarded writes. `val` is in local `b`. -/
def setBody : List Access := [
  fun (c, l) => ({ c with val := l.b }, l),                          -- c.val = val
  fun (c, l) => (c, { l with ne := c.nonempty }),                    -- read c.nonempty
  fun (c, l) => (c, { l with cond := !l.ne || l.b < c.low }),        -- read c.low
  fun (c, l) => if l.cond then ({ c with low := l.b }, l) else (c, l),
  fun (c, l) => (c, { l with ne := c.nonempty }),                    -- read c.nonempty
  fun (c, l) => (c, { l with cond := !l.ne || c.high < l.b }),       -- read c.high
  fun (c, l) => if l.cond then ({ c with high := l.b }, l) else (c, l),
  fun (c, l) => ({ c with nonempty := true }, l)]

/-- The accesses of each method between `Lock` and `Unlock`.
counter.go:59-65, 68-74, 77-79, 82-103, 107-113, 116-119. -/
def body : Op → List Access
  | .set v => ([fun (c, l) => (c, { l with a := c.val, b := v })] : List Access) ++ setBody
  | .inc d => ([fun (c, l) => (c, { l with b := c.val + d })] : List Access) ++ setBody ++
      ([fun (c, l) => (c, { l with a := c.val })] : List Access)
  | .dec d => ([fun (c, l) => (c, { l with b := c.val + (-d) })] : List Access) ++ setBody ++
      ([fun (c, l) => (c, { l with a := c.val })] : List Access)
  | .reset => [
      fun (c, l) => (c, { l with a := c.val }),
      fun (c, l) => (c, { l with b := c.low }),
      fun (c, l) => (c, { l with c := c.high }),
      fun (c, l) => ({ c with val := 0 }, l),
      fun (c, l) => ({ c with low := 0 }, l),
      fun (c, l) => ({ c with high := 0 }, l),
      fun (c, l) => ({ c with nonempty := false }, l)]
  | .high => [fun (c, l) => (c, { l with a := c.high })]
  | .low => [fun (c, l) => (c, { l with a := c.low })]
  | .current => [fun (c, l) => (c, { l with a := c.val })]
  | .stats => [
      fun (c, l) => (c, { l with a := c.val }),
      fun (c, l) => (c, { l with b := c.low }),
      fun (c, l) => (c, { l with c := c.high }),
      fun (c, l) => (c, { l with ne := c.nonempty }),
      fun (c, l) => (c, { l with key := c.key })]

/-- What each method returns (or, for `Stats`, passes to its callback) after `Unlock`, computed from
its locals.  (`Stats` reads `c.key` after `Unlock`; the field is never written after construction, so
reading it inside the critical section is the same.) (counter.go:59-128). -/
def result : Op → Locals → Res
  | .reset, l => .triple l.a l.b l.c
  | .stats, l => .report (Stats ⟨l.a, l.b, l.c, l.ne, l.key⟩)
  | _, l => .val l.a

/-- The counter as a mutex-protected object (counter.go:33-128). -/
def obj : Obj Counter Locals Op Res where
  enter _ := ⟨0, 0, 0, false, false, ⟨[], []⟩⟩
  body := body
  result := result

end Monkit.Counter
