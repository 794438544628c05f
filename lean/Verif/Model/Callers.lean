import Verif.Go.Str

/-!
# callers.go: names of functions and packages

callers.go:22-80.  What the runtime says about the calling frame is a parameter.
-/

namespace Monkit.Callers
open Go

/-- `strings.Split(s, sep)` for a one byte separator; `cur` is the piece being read, reversed (callers.go:31). -/
def split (sep : UInt8) : Str → Str → List Str
  | cur, [] => [cur.reverse]
  | cur, c :: s => if c = sep then cur.reverse :: split sep [] s else split sep (c :: cur) s

/-- The first piece of `strings.SplitN(s, sep, 2)` (callers.go:32). -/
def cut (sep : UInt8) : Str → Str
  | [] => []
  | c :: s => if c = sep then [] else c :: cut sep s

/-- `strings.Join(pieces, sep)` (callers.go:33). -/
def join (sep : Str) : List Str → Str
  | [] => []
  | [p] => p
  | p :: q :: ps => p ++ sep ++ join sep (q :: ps)

/-- `strings.IndexByte(s, c)` (callers.go:73). -/
def indexByte (c : UInt8) : Str → Int
  | [] => -1
  | x :: s => if x = c then 0 else if indexByte c s < 0 then -1 else indexByte c s + 1

/-- `strings.LastIndexByte(s, c)` (callers.go:66). -/
def lastIndexByte (c : UInt8) : Str → Int
  | [] => -1
  | x :: s => if 0 ≤ lastIndexByte c s then lastIndexByte c s + 1 else if x = c then 0 else -1

/-- What the runtime knows about the calling frame: `frame.Function` ("" if unknown) and `frame.Func`'s name (nil for inlined functions)
(callers.go:23-30, 37-49). -/
structure Frame where
  function : Str
  func : Option Str

/-- callers.go:22-34 `callerPackage`; no frame if `runtime.Callers` finds none. -/
def callerPackage : Option Frame → Str
  | none => b!"unknown"
  | some frame =>
    match frame.func with
    | none => b!"unknown"
    | some name =>
      let slashPieces := split 47 [] name
      let last := slashPieces.getLast?.getD []
      join b!"/" slashPieces.dropLast ++ b!"/" ++ cut 46 last

/-- callers.go:65-80 `extractFuncName`. -/
def extractFuncName (full : Str) : Option Str :=
  let lastSlashPos := lastIndexByte 47 full
  if lastSlashPos + 1 ≥ full.length then none
  else
    let qualified := full.drop (lastSlashPos + 1).toNat
    let packageDotPos := indexByte 46 qualified
    if packageDotPos < 0 ∨ packageDotPos + 1 ≥ qualified.length then none
    else some (qualified.drop (packageDotPos + 1).toNat)

/-- callers.go:36-50 `callerFunc`. -/
def callerFunc : Option Frame → Str
  | none => b!"unknown"
  | some frame => if frame.function = [] then b!"unknown" else (extractFuncName frame.function).getD b!"unknown"

end Monkit.Callers
