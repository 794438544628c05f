import Verif.Spec.Json
import Verif.Model.Args

/-!
# Specification: reading arguments back

A reader for Go's interpreted string literals (without octal escapes) and for the texts of strings, byte slices and lists of these.
-/

namespace Monkit.ArgSpec
open Go Monkit.JsonSpec Monkit.Args

/-- The byte meant by a backslash and `c`. -/
def simple (c : UInt8) : Option UInt8 :=
  if c = 34 then some 34
  else if c = 92 then some 92
  else if c = 97 then some 7
  else if c = 98 then some 8
  else if c = 102 then some 12
  else if c = 110 then some 10
  else if c = 114 then some 13
  else if c = 116 then some 9
  else if c = 118 then some 11
  else none

/-- The value of a number of hexadecimal digits. -/
def value (n : Nat) : Str → Option Nat
  | [] => some n
  | c :: t => match hex c with
    | none => none
    | some d => value (n * 16 + d) t

/-- The byte meant by `\x` and two digits. -/
def byte (a b : UInt8) : Option Str := (value 0 [a, b]).map fun n => [UInt8.ofNat n]

/-- The character meant by `\u` or `\U` and digits. -/
def rune (ds : Str) : Option Str :=
  (value 0 ds).bind fun r => if r < 0xD800 ∨ (0xE000 ≤ r ∧ r < 0x110000) then some (Utf8.encode r) else none

/-- The contents of a string literal, up to its closing quote, and what follows. -/
def chars : Str → Option (Str × Str)
  | [] => none
  | c :: t =>
    if c = 34 then some ([], t)
    else if c = 92 then
      match t with
      | 120 :: a :: b :: t => match byte a b with
        | none => none
        | some x => (chars t).map fun r => (x ++ r.1, r.2)
      | 117 :: a :: b :: c :: d :: t => match rune [a, b, c, d] with
        | none => none
        | some x => (chars t).map fun r => (x ++ r.1, r.2)
      | 85 :: a :: b :: c :: d :: e :: f :: g :: h :: t => match rune [a, b, c, d, e, f, g, h] with
        | none => none
        | some x => (chars t).map fun r => (x ++ r.1, r.2)
      | e :: t => match simple e with
        | none => none
        | some x => (chars t).map fun r => (x :: r.1, r.2)
      | [] => none
    else if c = 10 then none
    else (chars t).map fun r => (c :: r.1, r.2)

/-- Pairs of hexadecimal digits up to a closing parenthesis, and what follows. -/
def pairs : Str → Option (Str × Str)
  | 41 :: t => some ([], t)
  | a :: b :: t => match byte a b with
    | none => none
    | some x => (pairs t).map fun r => (x ++ r.1, r.2)
  | _ => none

/-- A string or a byte slice, and what follows. -/
def elem : Str → Option (Elem × Str)
  | 34 :: t => (chars t).map fun r => (.str r.1, r.2)
  | 91 :: 93 :: 117 :: 105 :: 110 :: 116 :: 56 :: 40 :: 48 :: 120 :: t => (pairs t).map fun r => (.bytes r.1, r.2)
  | _ => none

/-- At least one element, with a comma and a space between them, up to a closing brace; the number bounds how many. -/
def elems : Nat → Str → Option (List Elem × Str)
  | 0, _ => none
  | n + 1, s => match elem s with
    | some (e, 125 :: t) => some ([e], t)
    | some (e, 44 :: 32 :: t) => (elems n t).map fun r => (e :: r.1, r.2)
    | _ => none

/-- An argument, and what follows. -/
def arg (s : Str) : Option (Arg × Str) :=
  match s with
  | 123 :: 125 :: t => some (.list [], t)
  | 123 :: t => (elems s.length t).map fun r => (.list r.1, r.2)
  | _ => match elem s with
    | some (.str x, t) => some (.str x, t)
    | some (.bytes x, t) => some (.bytes x, t)
    | _ => none

/-- One or more arguments with `sep` between them, up to the end; the number bounds how many. -/
def list (sep : Str) : Nat → Str → Option (List Arg)
  | 0, _ => none
  | n + 1, s => match arg s with
    | none => none
    | some (a, []) => some [a]
    | some (a, t) => if sep.isPrefixOf t then (list sep n (t.drop sep.length)).map (a :: ·) else none

/-- Arguments with `sep` between them. -/
def readArgs (sep s : Str) : Option (List Arg) := if s = [] then some [] else list sep s.length s

/-- A string, a byte slice, or a list of these. -/
def Plain : Arg → Prop
  | .str _ => True
  | .bytes _ => True
  | .list l => ∀ e ∈ l, (∃ s, e = .str s) ∨ ∃ b, e = .bytes b
  | _ => False

/-- No control character of ASCII, in particular no line break. -/
def OneLine (s : Str) : Prop := ∀ c ∈ s, 0x20 ≤ c.toNat ∧ c.toNat ≠ 0x7F

end Monkit.ArgSpec
