import Verif.Go.Utf8
import Mathlib.Algebra.Order.Field.Rat

/-!
# Specification: reading JSON (RFC 8259)

A reader for the part of JSON without surrogate pairs: what it accepts is JSON, and what it returns is what the text means.
Strings are read as bytes; a `\u` escape stands for the UTF-8 encoding of its character.
-/

namespace Monkit.JsonSpec
open Go

/-- A JSON value; the members of an object in order. -/
inductive Json where
  | null
  | bool (b : Bool)
  | num (q : ℚ)
  | str (s : Str)
  | arr (l : List Json)
  | obj (l : List (Str × Json))

/-- Skip white space. -/
def skip : Str → Str
  | [] => []
  | c :: t => if c = 32 ∨ c = 9 ∨ c = 10 ∨ c = 13 then skip t else c :: t

/-- The value of a hexadecimal digit. -/
def hex (c : UInt8) : Option Nat :=
  if 48 ≤ c.toNat ∧ c.toNat ≤ 57 then some (c.toNat - 48)
  else if 97 ≤ c.toNat ∧ c.toNat ≤ 102 then some (c.toNat - 87)
  else if 65 ≤ c.toNat ∧ c.toNat ≤ 70 then some (c.toNat - 55)
  else none

/-- The character meant by a backslash, `u` and four hexadecimal digits, unless it is half of a surrogate pair. -/
def unicode (a b c d : UInt8) : Option Str :=
  match hex a, hex b, hex c, hex d with
  | some a, some b, some c, some d =>
    let r := a * 4096 + b * 256 + c * 16 + d
    if 0xD800 ≤ r ∧ r < 0xE000 then none else some (Utf8.encode r)
  | _, _, _, _ => none

/-- The character meant by a backslash and `c`. -/
def simple (c : UInt8) : Option UInt8 :=
  if c = 34 then some 34
  else if c = 92 then some 92
  else if c = 47 then some 47
  else if c = 98 then some 8
  else if c = 102 then some 12
  else if c = 110 then some 10
  else if c = 114 then some 13
  else if c = 116 then some 9
  else none

/-- The contents of a string, read up to its closing quote, and what follows. -/
def chars : Str → Option (Str × Str)
  | [] => none
  | c :: t =>
    if c = 34 then some ([], t)
    else if c = 92 then
      match t with
      | 117 :: a :: b :: c :: d :: t =>
        match unicode a b c d with
        | none => none
        | some x => (chars t).map fun r => (x ++ r.1, r.2)
      | e :: t =>
        match simple e with
        | none => none
        | some x => (chars t).map fun r => (x :: r.1, r.2)
      | [] => none
    else if c.toNat < 32 then none
    else (chars t).map fun r => (c :: r.1, r.2)

/-- Is it a digit? -/
def digit (c : UInt8) : Bool := 48 ≤ c.toNat && c.toNat ≤ 57

/-- The number that digits stand for. -/
def natOf (s : Str) : Nat := s.foldl (fun n c => n * 10 + (c.toNat - 48)) 0

/-- The integer part of a number, without leading zeros, and what follows. -/
def natural (s : Str) : Option (Nat × Str) :=
  if s.takeWhile digit = [] ∨ ((s.takeWhile digit).head? = some 48 ∧ s.takeWhile digit ≠ [48]) then none
  else some (natOf (s.takeWhile digit), s.dropWhile digit)

/-- A point and at least one digit, or nothing. -/
def fraction : Str → Option (ℚ × Str)
  | 46 :: t => if t.takeWhile digit = [] then none else some ((natOf (t.takeWhile digit) : ℚ) / 10 ^ (t.takeWhile digit).length, t.dropWhile digit)
  | t => some (0, t)

/-- A sign, or nothing: is it a minus? -/
def sign : Str → Bool × Str
  | 43 :: t => (false, t)
  | 45 :: t => (true, t)
  | t => (false, t)

/-- The letter `e` or `E`, a sign or nothing, and at least one digit; or nothing. -/
def exponent : Str → Option (ℤ × Str)
  | [] => some (0, [])
  | c :: t =>
    if c = 69 ∨ c = 101 then
      if (sign t).2.takeWhile digit = [] then none
      else some ((if (sign t).1 then -(natOf ((sign t).2.takeWhile digit) : ℤ) else natOf ((sign t).2.takeWhile digit)), (sign t).2.dropWhile digit)
    else some (0, c :: t)

/-- A number without sign. -/
def magnitude (s : Str) : Option (ℚ × Str) :=
  match natural s with
  | none => none
  | some (n, s) =>
    match fraction s with
    | none => none
    | some (f, s) =>
      match exponent s with
      | none => none
      | some (e, s) => some (((n : ℚ) + f) * (10 : ℚ) ^ e, s)

/-- A number. -/
def number : Str → Option (ℚ × Str)
  | 45 :: t => (magnitude t).map fun r => (-r.1, r.2)
  | t => magnitude t

mutual
/-- A value, after white space, and what follows; the number bounds the depth of the recursion. -/
def value : Nat → Str → Option (Json × Str)
  | 0, _ => none
  | n + 1, s =>
    match skip s with
    | 110 :: 117 :: 108 :: 108 :: t => some (.null, t)
    | 116 :: 114 :: 117 :: 101 :: t => some (.bool true, t)
    | 102 :: 97 :: 108 :: 115 :: 101 :: t => some (.bool false, t)
    | 34 :: t => (chars t).map fun r => (.str r.1, r.2)
    | 91 :: t =>
      match skip t with
      | 93 :: t => some (.arr [], t)
      | _ => (elements n t).map fun r => (.arr r.1, r.2)
    | 123 :: t =>
      match skip t with
      | 125 :: t => some (.obj [], t)
      | _ => (members n t).map fun r => (.obj r.1, r.2)
    | t => (number t).map fun r => (.num r.1, r.2)
/-- The elements of an array and its closing bracket. -/
def elements : Nat → Str → Option (List Json × Str)
  | 0, _ => none
  | n + 1, s =>
    match value n s with
    | none => none
    | some (v, t) =>
      match skip t with
      | 44 :: t => (elements n t).map fun r => (v :: r.1, r.2)
      | 93 :: t => some ([v], t)
      | _ => none
/-- The members of an object and its closing brace. -/
def members : Nat → Str → Option (List (Str × Json) × Str)
  | 0, _ => none
  | n + 1, s =>
    match skip s with
    | 34 :: t =>
      match chars t with
      | none => none
      | some (k, t) =>
        match skip t with
        | 58 :: t =>
          match value n t with
          | none => none
          | some (v, t) =>
            match skip t with
            | 44 :: t => (members n t).map fun r => ((k, v) :: r.1, r.2)
            | 125 :: t => some ([(k, v)], t)
            | _ => none
        | _ => none
    | _ => none
end

/-- What a JSON text means. -/
def read (s : Str) : Option Json :=
  match value (2 * s.length + 2) s with
  | some (v, t) => if skip t = [] then some v else none
  | none => none

/-- The text is UTF-8. -/
def IsUtf8 (s : Str) : Prop := ∃ rs : List Nat, (∀ r ∈ rs, Utf8.Scalar r) ∧ s = rs.flatMap Utf8.encode

/-- The string with every byte that does not belong to a character in UTF-8 replaced by the character U+FFFD. -/
def fixUtf8 : Str → Str
  | [] => []
  | b :: s =>
    if Utf8.decodeRune b s = (Utf8.runeError, 1) then Utf8.encode 0xFFFD ++ fixUtf8 s
    else (b :: s).take (Utf8.decodeRune b s).2 ++ fixUtf8 (s.drop ((Utf8.decodeRune b s).2 - 1))
termination_by s => s.length

end Monkit.JsonSpec
