import Verif.Model.TraceHttp

/-!
# http/server.go: callbacks that panic

`ServeHTTP` once more, when the callback kept with the trace may panic: in the start of the span, where the matcher of `/trace/remote` calls it, or
in `ServeHTTP`, which calls it itself.
-/

namespace Monkit.TraceHttp
open Go Monkit.Headers

/-- How callbacks end: `none` is a return, `some v` is `panic(v)` (http/server.go:55, present/path.go:245). -/
abbrev Ends := Nat → Option (Option Nat)

/-- The callback of the trace, and its panic, if it has one and it panics (http/server.go:54, present/path.go:244). -/
def panicOf (ends : Ends) (cb : Option Nat) : Option (Nat × Option Nat) := cb.bind fun c => (ends c).map fun v => (c, v)

/-- http/server.go:32-72 `ServeHTTP`: what happens, and how it ends.  `inStart` is how callbacks end when the matcher of `/trace/remote` calls them,
`inServe` when `ServeHTTP` does. -/
def serveHTTPcb (allowed : List Str) (e : Env) (inStart inServe : Ends) (h : Handler) (r : Request) : List Eff × Calls.Out Nat :=
  let info := serverInfo allowed r
  -- http/server.go:49-52, ctx.go:257-259
  let vals := e.watch ⟨info.sampled, none⟩
  let traceId := info.traceId.getD e.traceId
  match (if e.remote then panicOf inStart vals.cb else none) with
  -- ctx.go:109-111: the panic leaves `newSpan`, and the exit function has not been made; http/server.go:52: nothing is deferred yet
  | some (c, v) => ([.announce traceId info.sampled, .start e.s ⟨e.id, traceId, some (info.parentId.getD 0), vals.sampled⟩, .callback c],
      .panic (Calls.raise e.nilErr v))
  | none =>
    match panicOf inServe vals.cb with
    -- http/server.go:52-56: the deferred function; ctx.go:113-157
    | some (c, v) =>
      let x := Calls.exit e.nilErr false none (some (Calls.raise e.nilErr v))
      ((serverStart allowed e r).1 ++ [.callback c, .finish e.s x.1.1 x.1.2], x.2)
    | none => serveHTTP allowed e h r

end Monkit.TraceHttp
