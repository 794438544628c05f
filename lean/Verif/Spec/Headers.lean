import Verif.Model.Headers

/-!
# Specification: trace headers
-/

namespace Monkit.Headers.Spec
open Go Monkit.Headers

/-- The value of a hexadecimal digit. -/
inductive Digit : UInt8 → Nat → Prop where
  | dec (k : Nat) : k < 10 → Digit (UInt8.ofNat (48 + k)) k
  | lower (k : Nat) : k < 6 → Digit (UInt8.ofNat (97 + k)) (10 + k)
  | upper (k : Nat) : k < 6 → Digit (UInt8.ofNat (65 + k)) (10 + k)

/-- `Digits s n`: `s` consists of hexadecimal digits and has the value `n`. -/
inductive Digits : Str → Nat → Prop where
  | nil : Digits [] 0
  | cons {c s d n} : Digit c d → Digits s n → Digits (c :: s) (d * 16 ^ s.length + n)

/-- A hexadecimal number of at most 64 bits. -/
def HexNum (s : Str) (n : Nat) : Prop := s ≠ [] ∧ Digits s n ∧ n < 2 ^ 64

/-- `s` is `ps` put together with `sep` between them, which occurs in none of them. -/
def Pieces (sep : UInt8) (s : Str) (ps : List Str) : Prop := ps ≠ [] ∧ (∀ p ∈ ps, sep ∉ p) ∧ s = [sep].intercalate ps

/-- A traceparent this package accepts: version, trace id, parent id, flags. -/
def Valid (s : Str) (trace parent flags : Nat) : Prop :=
  ∃ p0 p1 p2 p3, Pieces 45 s [p0, p1, p2, p3] ∧ HexNum p0 0 ∧ HexNum p1 trace ∧ HexNum p2 parent ∧ HexNum p3 flags

/-- The 64 bit number `n` as int64. -/
def asInt64 (n : Nat) : Int64 := (UInt64.ofNat n).toInt64

/-- `kv` is `k`, an equals sign and `v`; the first one counts. -/
def KeyVal (kv k v : Str) : Prop := kv = k ++ b!"=" ++ v ∧ (61 : UInt8) ∉ k

/-- In the list of pieces, `v` is the value of the last one with key `k`. -/
def LastValue (ps : List Str) (k v : Str) : Prop :=
  ∃ before p after, ps = before ++ p :: after ∧ KeyVal p k v ∧ ∀ q ∈ after, ∀ v', ¬ KeyVal q k v'

end Monkit.Headers.Spec
