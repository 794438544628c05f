import Verif.Model.SvgText

/-!
# How an XML reader and a script engine understand texts (C78)
-/

namespace Monkit.SvgText.Spec
open Go Go.Utf8

/-- The value of a hexadecimal digit. -/
def hexDigit (c : UInt8) : Option Nat :=
  if 48 ≤ c ∧ c ≤ 57 then some (c.toNat - 48) else if 65 ≤ c ∧ c ≤ 70 then some (c.toNat - 55) else if 97 ≤ c ∧ c ≤ 102 then some (c.toNat - 87) else none

/-- The value of a decimal digit. -/
def decDigit (c : UInt8) : Option Nat := if 48 ≤ c ∧ c ≤ 57 then some (c.toNat - 48) else none

/-- A number written with digits. -/
def number (base : Nat) (digit : UInt8 → Option Nat) (s : Str) : Option Nat :=
  if s = [] then none else s.foldl (fun n c => do return (← n) * base + (← digit c)) (some 0)

/-- XML 1.0, sections 4.1 and 4.6: what a reference stands for, given what is between `&` and `;`. -/
def reference (s : Str) : Option Str :=
  if s = b!"amp" then some b!"&" else if s = b!"lt" then some b!"<" else if s = b!"gt" then some b!">"
  else if s = b!"quot" then some b!"\"" else if s = b!"apos" then some b!"'"
  else match s with
    | 35 :: 120 :: ds => (number 16 hexDigit ds).map encode
    | 35 :: ds => (number 10 decDigit ds).map encode
    | _ => none

/-- How an XML reader understands character data or an attribute in quotes: `none` if there is markup or a quote in it, or an unknown reference.
The first argument is what has been read of a reference. -/
def readText : Option Str → Str → Option Str
  | none, [] => some []
  | some _, [] => none
  | none, c :: s =>
    if c = 38 then readText (some []) s else if c = 60 ∨ c = 62 ∨ c = 34 ∨ c = 39 then none else (readText none s).map fun t => c :: t
  | some n, c :: s => if c = 59 then do return (← reference n) ++ (← readText none s) else readText (some (n ++ [c])) s

/-- The code points that may occur in an XML document. -/
def XmlChar (r : Nat) : Prop :=
  r = 0x9 ∨ r = 0xA ∨ r = 0xD ∨ (0x20 ≤ r ∧ r ≤ 0xD7FF) ∨ (0xE000 ≤ r ∧ r ≤ 0xFFFD) ∨ (0x10000 ≤ r ∧ r ≤ 0x10FFFF)

/-- The same reader for an attribute in double quotes, in which apostrophes are allowed. -/
def readAttr : Option Str → Str → Option Str
  | none, [] => some []
  | some _, [] => none
  | none, c :: s => if c = 38 then readAttr (some []) s else if c = 60 ∨ c = 34 then none else (readAttr none s).map fun t => c :: t
  | some n, c :: s => if c = 59 then do return (← reference n) ++ (← readAttr none s) else readAttr (some (n ++ [c])) s

/-- What of a script is outside of its string literals in apostrophes; `none` if a literal is not finished on its line.  The first argument tells whether
we are in a literal. -/
def outside : Bool → Str → Option Str
  | false, [] => some []
  | true, [] => none
  | false, c :: s => if c = 39 then outside true s else (outside false s).map fun t => c :: t
  | true, c :: s =>
    if c = 39 then outside false s
    else if c = 10 ∨ c = 13 then none
    else if c = 92 then match s with
      | [] => none
      | _ :: s => outside true s
    else outside true s

end Monkit.SvgText.Spec
