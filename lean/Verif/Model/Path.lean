import Verif.Model.Headers

/-!
# present/path.go: choosing a presenter

present/path.go:84-291.  Parameters: `regexp.Compile`, the registered functions and whether `url.Parse` gives a URL.
What the chosen presenter then writes is not modelled here, nor is the buffering around it.
-/

namespace Monkit.Path
open Go

/-- A `*monkit.Func`: its identity and its full name, which does not change (func.go:32-58). -/
structure Fn where
  id : Nat
  name : Str
  deriving DecidableEq

/-- What a span matcher looks at (present/path.go:183-193). -/
structure SpanInfo where
  func : Fn
  trace : Int64

/-- The query parameters that are read; absent is the empty string (present/path.go:142-143, 161-162, 206). -/
structure Query where
  regex : Str
  traceId : Str
  preselect : Str
  viz : Str

/-- What the code asks the outside (present/path.go:151, 170, 210). -/
structure Env where
  /-- `regexp.Compile` and `MatchString` -/
  compile : Str → Option (Str → Bool)
  /-- `reg.Funcs` -/
  funcs : List Fn
  /-- `url.Parse` gives a URL -/
  urlOk : Str → Bool

/-- The presenters (present/path.go:106-274). -/
inductive Presenter where
  | index
  | spansText | spansDot | spansJSON
  | funcsText | funcsDot | funcsJSON
  | statsText | statsJSON
  | traceSVG (m : SpanInfo → Bool)
  | traceJSON (m : SpanInfo → Bool)
  /-- `redirect`: to the visualiser, instead of the trace id as JSON -/
  | traceRemote (m : SpanInfo → Bool) (redirect : Bool)

/-- What `FromRequest` returns, or the kind of error (present/path.go:84-85). -/
inductive Answer where
  | found (p : Presenter) (contentType : Str)
  | notFound
  | badRequest

/-- A content type (present/path.go:112). -/
def plain : Str := b!"text/plain; charset=utf-8"
/-- A content type (present/path.go:116). -/
def json : Str := b!"application/json; charset=utf-8"

/-- `strings.TrimLeft(path, "/")` (present/path.go:285). -/
def trimLeft : Str → Str
  | [] => []
  | c :: s => if c = 47 then trimLeft s else c :: s

/-- `path[:i], path[i:]` for the index `i` of the first slash, or all and nothing (present/path.go:286-290). -/
def cutAt : Str → Str × Str
  | [] => ([], [])
  | c :: s => if c = 47 then ([], c :: s) else (c :: (cutAt s).1, (cutAt s).2)

/-- path.go:284-291 `shift`. -/
def shift (path : Str) : Str × Str := cutAt (trimLeft path)

/-- `strconv.ParseBool` (present/path.go:162). -/
def parseBool (s : Str) : Option Bool :=
  if s = b!"1" ∨ s = b!"t" ∨ s = b!"T" ∨ s = b!"TRUE" ∨ s = b!"true" ∨ s = b!"True" then some true
  else if s = b!"0" ∨ s = b!"f" ∨ s = b!"F" ∨ s = b!"FALSE" ∨ s = b!"false" ∨ s = b!"False" then some false
  else none

/-- path.go:148-181: the function matcher; `none` for a bad request. -/
def fnMatcher (env : Env) (q : Query) : Option (Fn → Bool) :=
  if q.regex ≠ [] then
    match env.compile q.regex with
    | none => none
    | some re =>
      match (if q.preselect ≠ [] then parseBool q.preselect else some true) with
      | none => none
      | some true =>
        let funcs := env.funcs.filter fun f => re f.name
        if funcs.length ≤ 0 then none else some fun f => funcs.contains f
      | some false => some fun f => re f.name
  else some fun _ => true

/-- path.go:183-194: the span matcher; `none` for a bad request. -/
def spanMatcher (env : Env) (q : Query) : Option (SpanInfo → Bool) :=
  if q.regex = [] ∧ q.traceId = [] then none
  else match fnMatcher env q with
    | none => none
    | some fm =>
      if q.traceId ≠ [] then
        match Headers.hexToUint64 q.traceId with
        | none => none
        | some id => some fun s => s.trace == id && fm s.func
      else some fun s => fm s.func

/-- path.go:206-217: whether the trace id is sent as JSON. -/
def sendJson (env : Env) (q : Query) : Bool :=
  let viz := if q.viz ≠ [] ∧ (¬ b!"http:".isPrefixOf q.viz ∧ ¬ b!"https:".isPrefixOf q.viz) then b!"http://" ++ q.viz else q.viz
  viz == [] || !env.urlOk viz

/-- path.go:84-277 `FromRequest`. -/
def fromRequest (env : Env) (path : Str) (q : Query) : Answer :=
  let first := (shift path).1
  let second := (shift (shift path).2).1
  if first = b!"" then .found .index b!"text/html"
  else if first = b!"ps" then
    if second = b!"" ∨ second = b!"text" then .found .spansText plain
    else if second = b!"dot" then .found .spansDot plain
    else if second = b!"json" then .found .spansJSON json
    else .notFound
  else if first = b!"funcs" then
    if second = b!"" ∨ second = b!"text" then .found .funcsText plain
    else if second = b!"dot" then .found .funcsDot plain
    else if second = b!"json" then .found .funcsJSON json
    else .notFound
  else if first = b!"stats" then
    if second = b!"" ∨ second = b!"text" ∨ second = b!"old" then .found .statsText plain
    else if second = b!"json" then .found .statsJSON json
    else .notFound
  else if first = b!"trace" then
    match spanMatcher env q with
    | none => .badRequest
    | some m =>
      if second = b!"svg" then .found (.traceSVG m) b!"image/svg+xml; charset=utf-8"
      else if second = b!"json" then .found (.traceJSON m) json
      else if second = b!"remote" then .found (.traceRemote m (!sendJson env q)) (if sendJson env q then json else b!"text/html; charset=utf-8")
      else .notFound
  else .notFound

end Monkit.Path
