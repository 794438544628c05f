import Verif.Go.JsonEnc

/-!
# `time.Duration.String`

The text of a duration of the Go library, which `%s` writes for a `time.Duration` (present/funcs.go:27-32, present/spans.go:89-90).
The library fills a buffer from its end; here the text grows at its front.
-/

namespace Go.DurText
open Go

/-- time `fmtFrac`: the lowest `prec` digits of `v` as a fraction without trailing zeros, put before `acc`, and the rest of `v`
(used at present/funcs.go:27-32). -/
def fmtFrac (acc : Str) (print : Bool) (v : Nat) : Nat → Str × Nat
  | 0 => (if print then 46 :: acc else acc, v)
  | prec + 1 =>
    let print := print || v % 10 != 0
    fmtFrac (if print then UInt8.ofNat (48 + v % 10) :: acc else acc) print (v / 10) prec

/-- time `fmtInt`: the digits of `v` before `acc` (used at present/funcs.go:27-32). -/
def fmtInt (acc : Str) (v : Nat) : Str := JsonEnc.decimal v ++ acc

/-- time `Duration.format` without the sign, for the absolute value in nanoseconds, which fits a `uint64` (used at present/funcs.go:27-32). -/
def magnitude (u : Nat) : Str :=
  if u < 1000000000 then
    if u = 0 then b!"0s"
    else
      let (acc, prec) := if u < 1000 then (b!"ns", 0) else if u < 1000000 then ([0xC2, 0xB5, 115], 3) else (b!"ms", 6)
      let (w, u) := fmtFrac acc false u prec
      fmtInt w u
  else
    let (w, u) := fmtFrac b!"s" false u 9
    let w := fmtInt w (u % 60)
    let u := u / 60
    if u > 0 then
      let w := fmtInt (109 :: w) (u % 60)
      let u := u / 60
      if u > 0 then fmtInt (104 :: w) u else w
    else w

/-- time `Duration.String` (used at present/funcs.go:27-32 and present/spans.go:89-90). -/
def duration (d : Int64) : Str := if d < 0 then 45 :: magnitude d.toInt.natAbs else magnitude d.toInt.natAbs

end Go.DurText
