import Verif.Go.Utf8
import Verif.Go.StrOrd
import Verif.Go.Sort

/-!
# encoding/json of the Go library: `Marshal`

For values built from structs, slices, maps with string keys, strings, integers, float64s and booleans.  Structs are given as their members in order,
after `omitempty`.  A float64 is given as the decimal digits that strconv chooses for it (`Dec`).
-/

namespace Go.JsonEnc
open Go Go.Utf8

/-- strconv `decimalSlice`, the digits chosen for the magnitude of a float64: digits `d₁…dₙ` and `dp` stand for `0.d₁…dₙ × 10^dp`.  The exponents of
float64s have at most three digits. -/
structure Dec where
  ds : Str
  dp : Int
  digits : ∀ c ∈ ds, 48 ≤ c.toNat ∧ c.toNat ≤ 57
  head : ds.head? ≠ some 48
  zero : ds = [] → dp = 0
  low : -999 < dp
  high : dp ≤ 1000

/-- What `Marshal` is given. -/
inductive Value where
  | null
  | bool (b : Bool)
  | int (i : Int64)
  /-- a float64: is it negative, and is its magnitude below 1e-6 or at least 1e21? -/
  | float (neg sci : Bool) (d : Dec)
  | str (s : Str)
  /-- a slice -/
  | arr (l : List Value)
  /-- a struct: names and values of its fields, in order -/
  | obj (l : List (Str × Value))

/-- strconv `AppendInt(i, 10)` for a number that is not negative. -/
def decimal (n : Nat) : Str := if n < 10 then [UInt8.ofNat (48 + n)] else decimal (n / 10) ++ [UInt8.ofNat (48 + n % 10)]

/-- strconv `AppendInt(i, 10)`. -/
def int (i : Int64) : Str := if i < 0 then b!"-" ++ decimal i.toInt.natAbs else decimal i.toInt.natAbs

/-- strconv `fmtF` with `prec = max(nd - dp, 0)`, without the sign. -/
def fmtF (d : Dec) : Str :=
  (if d.dp > 0 then d.ds.take d.dp.toNat ++ List.replicate (d.dp.toNat - d.ds.length) 48 else b!"0") ++
  if d.ds.length - d.dp > 0 then
    b!"." ++ (List.range (d.ds.length - d.dp).toNat).map fun (i : Nat) => if 0 ≤ d.dp + i ∧ d.dp + i < d.ds.length then (d.ds[(d.dp + i).toNat]?).getD 48 else 48
  else []

/-- strconv `fmtE`: the exponent, with two digits at least. -/
def exponent (e : Int) : Str :=
  (if e < 0 then b!"-" else b!"+") ++
  if e.natAbs < 10 then [48, UInt8.ofNat (48 + e.natAbs)]
  else if e.natAbs < 100 then [UInt8.ofNat (48 + e.natAbs / 10), UInt8.ofNat (48 + e.natAbs % 10)]
  else [UInt8.ofNat (48 + e.natAbs / 100), UInt8.ofNat (48 + e.natAbs / 10 % 10), UInt8.ofNat (48 + e.natAbs % 10)]

/-- strconv `fmtE` with `prec = nd - 1`, without the sign. -/
def fmtE (d : Dec) : Str :=
  (match d.ds with | [] => b!"0" | c :: _ => [c]) ++ (if d.ds.length > 1 then b!"." ++ d.ds.tail else []) ++ b!"e" ++ exponent (if d.ds = [] then 0 else d.dp - 1)

/-- `floatEncoder`: `e-09` becomes `e-9`. -/
def clean (s : Str) : Str :=
  match s.reverse with
  | x :: 48 :: 45 :: 101 :: r => r.reverse ++ [101, 45, x]
  | _ => s

/-- `floatEncoder` -/
def float (neg sci : Bool) (d : Dec) : Str :=
  if sci then clean ((if neg then b!"-" else []) ++ fmtE d) else (if neg then b!"-" else []) ++ fmtF d

/-- `hex[n]` -/
def hexDigit (n : Nat) : UInt8 := if n < 10 then UInt8.ofNat (48 + n) else UInt8.ofNat (87 + n)

/-- `htmlSafeSet`: bytes below 0x80 that are written as they are. -/
def safe (b : UInt8) : Bool := 0x20 ≤ b.toNat && b != 34 && b != 92 && b != 60 && b != 62 && b != 38

/-- `appendString`: a byte below 0x80 that is not safe. -/
def escape (b : UInt8) : Str :=
  if b = 92 ∨ b = 34 then [92, b]
  else if b = 8 then b!"\\b"
  else if b = 12 then b!"\\f"
  else if b = 10 then b!"\\n"
  else if b = 13 then b!"\\r"
  else if b = 9 then b!"\\t"
  else b!"\\u00" ++ [hexDigit (b.toNat / 16), hexDigit (b.toNat % 16)]

/-- `appendString(dst, src, escapeHTML = true)` without the quotes. -/
def body : Str → Str
  | [] => []
  | b :: s =>
    if b.toNat < 0x80 then (if safe b then [b] else escape b) ++ body s
    else if decodeRune b s = (runeError, 1) then b!"\\ufffd" ++ body s
    else if (decodeRune b s).1 = 0x2028 ∨ (decodeRune b s).1 = 0x2029 then
      b!"\\u202" ++ [hexDigit ((decodeRune b s).1 % 16)] ++ body (s.drop ((decodeRune b s).2 - 1))
    else (b :: s).take (decodeRune b s).2 ++ body (s.drop ((decodeRune b s).2 - 1))
termination_by s => s.length

/-- A string. -/
def string (s : Str) : Str := b!"\"" ++ body s ++ b!"\""

/-- `Marshal` -/
def marshal : Value → Str
  | .null => b!"null"
  | .bool true => b!"true"
  | .bool false => b!"false"
  | .int i => int i
  | .float neg sci d => float neg sci d
  | .str s => string s
  | .arr l => b!"[" ++ elems l ++ b!"]"
  | .obj l => b!"{" ++ members l ++ b!"}"
where
  /-- the elements of a slice, with commas between them -/
  elems : List Value → Str
    | [] => []
    | [v] => marshal v
    | v :: vs => marshal v ++ b!"," ++ elems vs
  /-- the members of an object, with commas between them -/
  members : List (Str × Value) → Str
    | [] => []
    | [(k, v)] => string k ++ b!":" ++ marshal v
    | (k, v) :: ms => string k ++ b!":" ++ marshal v ++ b!"," ++ members ms

/-- A map with string keys is written as an object with its keys in order. -/
def map (m : List (Str × Value)) : Value := .obj (sortBy (fun a b => strLe a.1 b.1) m)

end Go.JsonEnc
