import Verif.Go.JsonEnc

/-!
# strconv `Quote` and hex `EncodeToString` of the Go library

`wide` stands for the tables of strconv `IsPrint` above U+00FF.
-/

namespace Go.Quote
open Go Go.Utf8
open Go.JsonEnc (hexDigit)

/-- strconv `IsPrint` (used by span.go:112, 135) -/
def isPrint (wide : Nat → Bool) (r : Nat) : Bool :=
  if r ≤ 0xFF then (0x20 ≤ r && r < 0x7F) || (0xA1 ≤ r && r != 0xAD) else wide r

/-- `k` hexadecimal digits -/
def hexDigits : Nat → Nat → Str
  | 0, _ => []
  | k + 1, r => hexDigits k (r / 16) ++ [hexDigit (r % 16)]

/-- strconv `appendEscapedRune(buf, r, '"', false, false)` -/
def escapeRune (wide : Nat → Bool) (r : Nat) : Str :=
  if r = 34 ∨ r = 92 then [92, UInt8.ofNat r]
  else if isPrint wide r then encode r
  else if r = 7 then b!"\\a"
  else if r = 8 then b!"\\b"
  else if r = 12 then b!"\\f"
  else if r = 10 then b!"\\n"
  else if r = 13 then b!"\\r"
  else if r = 9 then b!"\\t"
  else if r = 11 then b!"\\v"
  else if r < 32 ∨ r = 0x7F then b!"\\x" ++ hexDigits 2 r
  else if r < 0x10000 then b!"\\u" ++ hexDigits 4 r
  else b!"\\U" ++ hexDigits 8 r

/-- strconv `appendQuotedWith(buf, s, '"', false, false)` without the quotes -/
def body (wide : Nat → Bool) : Str → Str
  | [] => []
  | b :: s =>
    if decodeRune b s = (runeError, 1) then b!"\\x" ++ hexDigits 2 b.toNat ++ body wide s
    else escapeRune wide (decodeRune b s).1 ++ body wide (s.drop ((decodeRune b s).2 - 1))
termination_by s => s.length

/-- strconv `Quote`; also `fmt.Sprintf("%#v", s)` for a string -/
def quote (wide : Nat → Bool) (s : Str) : Str := b!"\"" ++ body wide s ++ b!"\""

/-- hex `EncodeToString` -/
def hexString : Str → Str
  | [] => []
  | b :: s => hexDigits 2 b.toNat ++ hexString s

end Go.Quote
