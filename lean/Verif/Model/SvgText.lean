import Verif.Go.Utf8

/-!
# present/trace.go: texts in the SVG

present/trace.go:132-138 (the template of a bar), 339-351 (escaping), 39-41 and 393-403 (the beginning of the document, after newlines written to
keep the connection alive), with `xml.EscapeText` of the Go library.
-/

namespace Monkit.SvgText
open Go Go.Utf8

/-- encoding/xml `isInCharacterRange` (used in present/trace.go:339-351). -/
def inCharacterRange (r : Nat) : Bool :=
  r == 0x09 || r == 0x0A || r == 0x0D || (0x20 ≤ r && r ≤ 0xD7FF) || (0xE000 ≤ r && r ≤ 0xFFFD) || (0x10000 ≤ r && r ≤ 0x10FFFF)

/-- encoding/xml `escapeText`: what a rune that was read from `raw` becomes (used in present/trace.go:339-351). -/
def escapeRune (r width : Nat) (raw : Str) : Str :=
  if r = 34 then b!"&#34;"
  else if r = 39 then b!"&#39;"
  else if r = 38 then b!"&amp;"
  else if r = 60 then b!"&lt;"
  else if r = 62 then b!"&gt;"
  else if r = 9 then b!"&#x9;"
  else if r = 10 then b!"&#xA;"
  else if r = 13 then b!"&#xD;"
  else if !inCharacterRange r || (r == runeError && width == 1) then [0xEF, 0xBF, 0xBD]
  else raw

/-- encoding/xml `EscapeText` (used in present/trace.go:339-351). -/
def escapeText : Str → Str
  | [] => []
  | b :: s => escapeRune (decodeRune b s).1 (decodeRune b s).2 ((b :: s).take (decodeRune b s).2) ++ escapeText (s.drop ((decodeRune b s).2 - 1))
termination_by s => s.length

/-- What the template of a bar shows; `id`, `parent`, `duration` and `started` are formatted already (present/trace.go:132-138). -/
structure Bar where
  id : Str
  parent : Str
  name : Str
  args : Str
  duration : Str
  started : Str

/-- trace.go:133: the value of attribute `onmouseover`. -/
def onmouseover (b : Bar) : Str :=
  b!"mouseover('" ++ b.id ++ b!"', '" ++ b.parent ++ b!"', '" ++ escapeText b.name ++ b!"(" ++ escapeText b.args ++ b!") Duration:" ++ b.duration ++
    b!" Started:" ++ b.started ++ b!"');"

/-- trace.go:136: the contents of element `text`. -/
def text (b : Bar) : Str := escapeText b.name ++ b!"(" ++ escapeText b.args ++ b!") (" ++ b.duration ++ b!")"

/-- trace.go:393-403 `TraceQuerySVG`: the picture, after the newlines written while waiting. -/
def traceQuerySVG (newlines : Nat) (picture : Str) : Str := List.replicate newlines 10 ++ picture

end Monkit.SvgText
