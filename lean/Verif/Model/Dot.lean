import Verif.Go.Str

/-!
# present/dot.go: escaping labels

present/dot.go:21-35, without the formatting (`fmt.Sprintf`) of the label's text.
-/

namespace Monkit.Dot
open Go

/-- `%d` of a number that is not negative (present/dot.go:31). -/
def decimal (n : Nat) : Str := if n < 10 then [UInt8.ofNat (48 + n)] else decimal (n / 10) ++ [UInt8.ofNat (48 + n % 10)]

/-- present/dot.go:25-32: what one byte becomes. -/
def escapeByte (b : UInt8) : Str :=
  if (65 ≤ b ∧ b ≤ 90) ∨ (97 ≤ b ∧ b ≤ 122) ∨ (48 ≤ b ∧ b ≤ 57) ∨ 128 ≤ b ∨ b = 32 then [b]
  else if b = 10 then b!"\\l"
  else b!"&#" ++ decimal b.toNat ++ b!";"

/-- present/dot.go:21-35 `escapeDotLabel`. -/
def escapeDotLabel : Str → Str
  | [] => []
  | b :: s => escapeByte b ++ escapeDotLabel s

end Monkit.Dot
