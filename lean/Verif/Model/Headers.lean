import Verif.Go.Map
import Verif.Model.Callers

/-!
# http/info.go: trace headers

http/info.go:26-174.  A header is the three values the code reads and writes; an absent header is the empty string, as `Get` gives it.
-/

namespace Monkit.Headers
open Go

/-- The headers the code reads and writes (http/info.go:29-33, 56-63). -/
structure Header where
  traceparent : Str
  tracestate : Str
  baggage : Str
  deriving DecidableEq

/-- http/info.go:48-53 -/
structure TraceInfo where
  traceId : Option Int64
  parentId : Option Int64
  sampled : Bool
  /-- `none` is the nil map -/
  baggage : Option (Map Str Str)
  deriving DecidableEq

/-- `TraceInfo{}` (http/info.go:48-53). -/
def TraceInfo.empty : TraceInfo := ⟨none, none, false, none⟩

/-- The digit a byte stands for, in `strconv.ParseUint` with base 16 (http/info.go:172). -/
def digit (c : UInt8) : Option Nat :=
  if 48 ≤ c ∧ c ≤ 57 then some (c.toNat - 48)
  else if 97 ≤ c ∧ c ≤ 102 then some (c.toNat - 97 + 10)
  else if 65 ≤ c ∧ c ≤ 70 then some (c.toNat - 65 + 10)
  else none

/-- The loop of `strconv.ParseUint(s, 16, 64)`: `n` so far; `none` for a syntax or range error (http/info.go:172). -/
def parseLoop (n : Nat) : Str → Option Nat
  | [] => some n
  | c :: s => match digit c with
    | none => none
    | some d => if n ≥ 2 ^ 60 then none else parseLoop (n * 16 + d) s

/-- http/info.go:171-174 `hexToUint64`. -/
def hexToUint64 (s : Str) : Option Int64 :=
  if s = [] then none else (parseLoop 0 s).map fun n => (UInt64.ofNat n).toInt64

/-- `strings.Contains(s, sub)` (http/info.go:116). -/
def contains (sub : Str) : Str → Bool
  | [] => sub.isPrefixOf []
  | c :: s => sub.isPrefixOf (c :: s) || contains sub s

/-- `strings.Cut(s, sep)` (http/info.go:97). -/
def cut (sep : UInt8) : Str → Option (Str × Str)
  | [] => none
  | c :: s => if c = sep then some ([], s) else (cut sep s).map fun x => (c :: x.1, x.2)

/-- http/info.go:95-106: the loop over the pieces of the baggage. -/
def importBaggage (allowed : List Str) (bm : Map Str Str) : List Str → Map Str Str
  | [] => bm
  | kv :: rest => match cut 61 kv with
    | none => importBaggage allowed bm rest
    | some (key, value) => importBaggage allowed (if allowed.contains key then Map.set bm key value else bm) rest

/-- http/info.go:67-122 `TraceInfoFromHeader`. -/
def fromHeader (h : Header) (allowed : List Str) : TraceInfo :=
  if h.traceparent ≠ [] then
    match Callers.split 45 [] h.traceparent with
    | [p0, p1, p2, p3] =>
      match hexToUint64 p0 with
      | none => .empty
      | some version =>
        if version ≠ 0 then .empty
        else match hexToUint64 p1 with
          | none => .empty
          | some traceID => match hexToUint64 p2 with
            | none => .empty
            | some parentID => match hexToUint64 p3 with
              | none => .empty
              | some flags =>
                ⟨some traceID, some parentID, (flags.toUInt64.toUInt8 &&& 1) == 1,
                  some (if h.baggage ≠ [] then importBaggage allowed [] (Callers.split 44 [] h.baggage) else [])⟩
    | _ => .empty
  else if contains b!"sampled=true" h.tracestate then ⟨none, none, true, none⟩
  else .empty

/-- A hexadecimal digit, lower case (http/info.go:156). -/
def hexDigit (n : Nat) : UInt8 := if n < 10 then UInt8.ofNat (48 + n) else UInt8.ofNat (87 + n)

/-- `%x` of a number that is not negative (http/info.go:156). -/
def hexNat (n : Nat) : Str := if n < 16 then [hexDigit n] else hexNat (n / 16) ++ [hexDigit (n % 16)]

/-- Zero padding to width `w` (http/info.go:156). -/
def pad (w : Nat) (s : Str) : Str := List.replicate (w - s.length) 48 ++ s

/-- `fmt.Sprintf("%0<w>x", v)`: the sign counts for the width (http/info.go:156). -/
def fmtX (w : Nat) (v : Int64) : Str :=
  if v < 0 then b!"-" ++ pad (w - 1) (hexNat v.toInt.natAbs) else pad w (hexNat v.toInt.toNat)

/-- http/info.go:150-168 `SetHeader` on header `h`; `order` is the order in which the map of baggage is gone through. -/
def setHeader (r : TraceInfo) (order : List (Str × Str)) (h : Header) : Header :=
  let sampled : Str := if r.sampled then b!"1" else b!"0"
  let h := match r.traceId, r.parentId with
    | some t, some p => { h with traceparent := b!"00-" ++ fmtX 16 t ++ b!"-" ++ fmtX 8 p ++ b!"-" ++ sampled }
    | _, _ => if r.sampled then { h with tracestate := b!"sampled=true" } else h
  match r.baggage with
  | none => h
  | some _ => { h with baggage := Callers.join b!"," (order.map fun kv => kv.1 ++ b!"=" ++ kv.2) }

/-- What `TraceInfoFromSpan` reads of a span: its id, its trace's id, its parent's id if it has one, and whether the trace is sampled
(http/info.go:128-146). -/
structure SpanView where
  id : Int64
  traceId : Int64
  parentId : Option Int64
  sampled : Bool

/-- http/info.go:128-146 `TraceInfoFromSpan`. -/
def fromSpan (s : SpanView) : TraceInfo :=
  if s.sampled then ⟨some s.traceId, some (s.parentId.getD s.id), true, none⟩ else ⟨none, none, false, none⟩

/-- http/server.go:32-58 `ServeHTTP`: the span made for a request with these headers; `traceId` and `id` are fresh ids. -/
def serve (h : Header) (allowed : List Str) (traceId id : Int64) : SpanView :=
  let info := fromHeader h allowed
  ⟨id, info.traceId.getD traceId, some (info.parentId.getD 0), info.sampled⟩

/-- http/client.go:17-30 `TraceRequest`: the headers of a request sent from span `s`, made for it. -/
def request (s : SpanView) (h : Header) : Header := setHeader (fromSpan s) [] h

end Monkit.Headers
