import Verif.Go.Float

/-!
# IEEE-754 arithmetic with overflow, subnormal numbers, infinities and NaN

Simplification: the two zeros are one.  They compare equal and no operation used in /repo tells them apart; only printing does.
-/

namespace Go.Float

/-- A float: NaN, an infinity (the negative one if `neg`), or the finite float that denotes `q`. -/
inductive F where
  | nan
  | inf (neg : Bool)
  | fin (q : ℚ)
  deriving DecidableEq, Repr

/-- A format: `p` significant bits; finite floats are multiples of `2^low` and less than `2^top` in magnitude. -/
structure Format where
  p : ℕ
  low : ℤ
  top : ℤ

/-- float64 -/
def b64 : Format := ⟨53, -1074, 1024⟩
/-- float32 -/
def b32 : Format := ⟨24, -149, 128⟩

/-- Round to nearest, ties to even, if there were no greatest float: near zero to a multiple of `2^low`, else to `p` bits. -/
def Format.near (f : Format) (x : ℚ) : ℚ :=
  if |x| < (2 : ℚ) ^ (f.low + f.p - 1) then (rhe (x / (2 : ℚ) ^ f.low) : ℚ) * (2 : ℚ) ^ f.low else rn f.p x

/-- Round to nearest; what would be too large is an infinity. -/
def Format.round (f : Format) (x : ℚ) : F :=
  if |f.near x| < (2 : ℚ) ^ f.top then .fin (f.near x) else .inf (decide (f.near x < 0))

/-- The finite floats of a format. -/
def Format.Rep (f : Format) (x : ℚ) : Prop :=
  Float.Rep f.p x ∧ (∃ n : ℤ, x = (n : ℚ) * (2 : ℚ) ^ f.low) ∧ |x| < (2 : ℚ) ^ f.top

namespace F

/-- `-a` -/
def neg : F → F
  | nan => nan
  | inf b => inf !b
  | fin q => fin (-q)

/-- `a + b` -/
def add (f : Format) : F → F → F
  | nan, _ => nan
  | _, nan => nan
  | inf a, inf b => if a = b then inf a else nan
  | inf a, fin _ => inf a
  | fin _, inf b => inf b
  | fin a, fin b => f.round (a + b)

/-- `a - b` -/
def sub (f : Format) (a b : F) : F := add f a (neg b)

/-- `a * b` before rounding -/
def times : F → F → F
  | nan, _ => nan
  | _, nan => nan
  | inf a, inf b => inf (a != b)
  | inf a, fin q => if q = 0 then nan else inf (a != decide (q < 0))
  | fin q, inf a => if q = 0 then nan else inf (a != decide (q < 0))
  | fin a, fin b => fin (a * b)

/-- conversion to another format -/
def conv (f : Format) : F → F
  | nan => nan
  | inf b => inf b
  | fin q => f.round q

/-- `a * b` -/
def mul (f : Format) (a b : F) : F := conv f (times a b)

/-- `a * b + c`, rounded once -/
def fma (f : Format) (a b c : F) : F := add f (times a b) c

/-- `a / n` for a number `n > 0` -/
def quo (f : Format) (a : F) (n : ℚ) : F :=
  match a with
  | nan => nan
  | inf b => inf b
  | fin q => f.round (q / n)

/-- `a < b`: false if one is NaN -/
def lt : F → F → Bool
  | fin a, fin b => decide (a < b)
  | inf true, fin _ => true
  | inf true, inf false => true
  | fin _, inf false => true
  | _, _ => false

/-- `a <= b`: false if one is NaN -/
def le : F → F → Bool
  | fin a, fin b => decide (a ≤ b)
  | inf true, fin _ => true
  | inf true, inf _ => true
  | fin _, inf false => true
  | inf false, inf false => true
  | _, _ => false

end F

end Go.Float
