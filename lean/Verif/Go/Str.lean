/-!
# Go byte strings

A Go `string` is a finite sequence of bytes.  We use `List UInt8`.
`b!"abc"` is notation for the list of bytes of an ASCII literal; it elaborates to the literal list,
so that the kernel can compute with it.
-/

namespace Go

/-- A Go string: a finite sequence of bytes. -/
abbrev Str := List UInt8

open Lean in
/-- `b!"abc"` is `[97, 98, 99] : Str`. -/
macro:max "b!" s:str : term => do
  let bytes := s.getString.toUTF8.toList
  let elems ← bytes.mapM fun c => `(term| ($(quote c.toNat) : UInt8))
  `(term| ([$(elems.toArray),*] : Go.Str))

end Go
