import Verif.Model.Path
import Verif.Spec.Headers

/-!
# Specification: which presenter answers a request
-/

namespace Monkit.Path.Spec
open Go Monkit.Path

/-- The segments of a path: the pieces between slashes, without empty ones. -/
inductive Segments : Str → List Str → Prop where
  | none {path} : (∀ c ∈ path, c = 47) → Segments path []
  | seg {slashes seg rest segs} : (∀ c ∈ slashes, c = 47) → seg ≠ [] → (47 : UInt8) ∉ seg → rest.take 1 ∈ [b!"", b!"/"] → Segments rest segs →
      Segments (slashes ++ seg ++ rest) (seg :: segs)

/-- The paths that need no query, by their first two segments (empty if there is none). -/
inductive Row : Str → Str → Presenter → Str → Prop where
  | index s : Row b!"" s .index b!"text/html"
  | ps : Row b!"ps" b!"" .spansText plain
  | psText : Row b!"ps" b!"text" .spansText plain
  | psDot : Row b!"ps" b!"dot" .spansDot plain
  | psJson : Row b!"ps" b!"json" .spansJSON json
  | funcs : Row b!"funcs" b!"" .funcsText plain
  | funcsText : Row b!"funcs" b!"text" .funcsText plain
  | funcsDot : Row b!"funcs" b!"dot" .funcsDot plain
  | funcsJson : Row b!"funcs" b!"json" .funcsJSON json
  | stats : Row b!"stats" b!"" .statsText plain
  | statsText : Row b!"stats" b!"text" .statsText plain
  | statsOld : Row b!"stats" b!"old" .statsText plain
  | statsJson : Row b!"stats" b!"json" .statsJSON json

/-- The trace presenters. -/
inductive TraceRow (env : Env) (q : Query) (m : SpanInfo → Bool) : Str → Presenter → Str → Prop where
  | svg : TraceRow env q m b!"svg" (.traceSVG m) b!"image/svg+xml; charset=utf-8"
  | json : TraceRow env q m b!"json" (.traceJSON m) json
  /-- a visualiser given with its scheme -/
  | viz : q.viz ≠ [] → (b!"http:" <+: q.viz ∨ b!"https:" <+: q.viz) → env.urlOk q.viz = true →
      TraceRow env q m b!"remote" (.traceRemote m true) b!"text/html; charset=utf-8"
  /-- a visualiser given without -/
  | vizHost : q.viz ≠ [] → ¬ b!"http:" <+: q.viz → ¬ b!"https:" <+: q.viz → env.urlOk (b!"http://" ++ q.viz) = true →
      TraceRow env q m b!"remote" (.traceRemote m true) b!"text/html; charset=utf-8"
  /-- none given -/
  | noViz : q.viz = [] → TraceRow env q m b!"remote" (.traceRemote m false) Monkit.Path.json
  /-- not a URL -/
  | badViz : q.viz ≠ [] → (b!"http:" <+: q.viz ∨ b!"https:" <+: q.viz) → env.urlOk q.viz = false →
      TraceRow env q m b!"remote" (.traceRemote m false) Monkit.Path.json
  | badVizHost : q.viz ≠ [] → ¬ b!"http:" <+: q.viz → ¬ b!"https:" <+: q.viz → env.urlOk (b!"http://" ++ q.viz) = false →
      TraceRow env q m b!"remote" (.traceRemote m false) Monkit.Path.json

/-- How `strconv.ParseBool` is documented. -/
def Bools : List (Str × Bool) :=
  [(b!"1", true), (b!"t", true), (b!"T", true), (b!"TRUE", true), (b!"true", true), (b!"True", true),
   (b!"0", false), (b!"f", false), (b!"F", false), (b!"FALSE", false), (b!"false", false), (b!"False", false)]

/-- Whether functions are preselected: by default they are. -/
def Preselect (q : Query) (b : Bool) : Prop := (q.preselect = [] ∧ b = true) ∨ (q.preselect, b) ∈ Bools

/-- A trace query that cannot be used. -/
inductive BadQuery (env : Env) (q : Query) : Prop where
  | neither : q.regex = [] → q.traceId = [] → BadQuery env q
  | regex : q.regex ≠ [] → env.compile q.regex = none → BadQuery env q
  | preselect : q.regex ≠ [] → (∀ b, ¬ Preselect q b) → BadQuery env q
  | noFunc {re} : q.regex ≠ [] → env.compile q.regex = some re → Preselect q true → (∀ f ∈ env.funcs, re f.name = false) → BadQuery env q
  | traceId : q.traceId ≠ [] → (∀ n, ¬ Headers.Spec.HexNum q.traceId n) → BadQuery env q

/-- The spans a trace query asks for. -/
def Wanted (env : Env) (q : Query) (s : SpanInfo) : Prop :=
  (q.regex ≠ [] → ∃ re, env.compile q.regex = some re ∧ re s.func.name = true ∧ (Preselect q true → s.func ∈ env.funcs)) ∧
  (q.traceId ≠ [] → ∃ n, Headers.Spec.HexNum q.traceId n ∧ s.trace = Headers.Spec.asInt64 n)

/-- `Answers env q first second a`. -/
inductive Answers (env : Env) (q : Query) : Str → Str → Answer → Prop where
  | row {first second p ct} : Row first second p ct → Answers env q first second (.found p ct)
  | bad {second} : BadQuery env q → Answers env q b!"trace" second .badRequest
  | trace {second m p ct} : ¬ BadQuery env q → (∀ s, m s = true ↔ Wanted env q s) → TraceRow env q m second p ct →
      Answers env q b!"trace" second (.found p ct)
  | unknownTrace {second} : ¬ BadQuery env q → second ∉ [b!"svg", b!"json", b!"remote"] → Answers env q b!"trace" second .notFound
  | unknown {first second} : first ≠ b!"trace" → (∀ p ct, ¬ Row first second p ct) → Answers env q first second .notFound

end Monkit.Path.Spec
