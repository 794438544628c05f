import Verif.Model.Headers
import Verif.Model.Wrap
import Verif.Model.Calls
import Verif.Model.Present

/-!
# http/server.go and http/client.go: a traced handler and a traced request

`TraceHandler(…).ServeHTTP` and `TraceRequest` as logs of what they do to spans, traces, headers, the handler and the client.  The handler
is any function from what it is given to what it does; the things it does with its own goroutines are left out.  Callbacks that
panic are in `TraceHttpCb`; a nil handler, scope or client is left out.  Header keys are in their canonical form.
-/

namespace Monkit.TraceHttp
open Go Monkit.Headers

/-- What a handler may do (http/server.go:69). -/
inductive Act where
  /-- to the body and the status -/
  | op (o : Wrap.Op)
  /-- `Header().Set(k, v)` -/
  | header (k v : Str)
  /-- to the span of its context -/
  | annotate (name value : Str)
  deriving DecidableEq

/-- What a response writer can do besides being one (net/http; http/http.go:29-44). -/
inductive Cap where
  | flush
  | hijack
  deriving DecidableEq

/-- What happens, in order (http/server.go:32-72, http/client.go:17-30). -/
inductive Eff where
  /-- the registry's trace watchers see a trace with this id (ctx.go:257-259) -/
  | announce (traceId : Int64) (sampled : Bool)
  /-- span `s` starts; the name is that of its function -/
  | start (s : Nat) (view : SpanView)
  /-- the callback kept with the trace is called (http/server.go:54-56, present/path.go:244-246) -/
  | callback (cb : Nat)
  | annotate (s : Nat) (name value : Str)
  /-- a header of the response is set -/
  | header (k v : Str)
  /-- the handler is called with this context and a writer that can do these things -/
  | handle (c : Ctx) (caps : Cap → Bool)
  | op (o : Wrap.Op)
  /-- the client is called with a request with these headers (http/client.go:24) -/
  | send (h : Header)
  /-- span `s` finishes: its error, and whether it panicked -/
  | finish (s : Nat) (err : Option Nat) (panicked : Bool)

/-- The values kept with a trace that matter here: `SampledKey` and `SampledCBKey` (present/path.go:34-37). -/
structure Vals where
  sampled : Bool
  cb : Option Nat
  deriving DecidableEq

/-- The request, as far as it is read (http/server.go:34-66). -/
structure Request where
  header : Header
  uri : Str
  ctx : Ctx

/-- The handler: what it does when given a context and a writer, and the panic it ends with, if any (http/server.go:25, 69). -/
abbrev Handler := Ctx → (Cap → Bool) → List Act × Option (Option Nat)

/-- Everything else that plays a part (http/server.go:32-72). -/
structure Env where
  /-- what `NewId` gives for the trace (http/server.go:36) and for the span (ctx.go:88) -/
  traceId : Int64
  id : Int64
  /-- the number of the span -/
  s : Nat
  /-- what the trace watchers do to the values of the trace (ctx.go:258) -/
  watch : Vals → Vals
  /-- what the span observers make of the context (ctx.go:109-111) -/
  obs : List (Ctx → Ctx)
  /-- a request for `/trace/remote` is waiting for just this span (present/path.go:235-249) -/
  remote : Bool
  /-- the order in which the map of baggage is gone through (http/server.go:59) -/
  order : Map Str Str → List (Str × Str)
  /-- what the writer given to `ServeHTTP` can do -/
  caps : Cap → Bool
  /-- does `panic(nil)` panic with an error? -/
  nilErr : Bool

/-- http/http.go:29-44 `Wrap`: the writer for the handler can flush if the writer below can; nothing else is passed on. -/
def wrapCaps (caps : Cap → Bool) : Cap → Bool
  | .flush => caps .flush
  | _ => false

/-- One thing the handler does; it cannot flush a writer that is no `Flusher` (http/server.go:69, http/http.go:34-43). -/
def actEff (s : Nat) (caps : Cap → Bool) : Act → List Eff
  | .op .flush => if caps .flush then [.op .flush] else []
  | .op o => [.op o]
  | .header k v => [.header k v]
  | .annotate n v => [.annotate s n v]

/-- What the handler does to its writer, of all that happened (http/server.go:69). -/
def opsOf (l : List Eff) : List Wrap.Op := l.filterMap fun
  | .op o => some o
  | _ => none

/-- `fmt.Sprint(statusCode())` (http/server.go:71, http/client.go:28). -/
def fmtCode (i : Int) : Str := if i < 0 then b!"-" ++ Dot.decimal i.natAbs else Dot.decimal i.natAbs

/-- http/server.go:32-44: the headers are read. -/
def serverInfo (allowed : List Str) (r : Request) : TraceInfo := fromHeader r.header allowed

/-- http/server.go:32-52: the trace is made, announced, and the span started: what happens, and the values of the trace after it. -/
def serverStart (allowed : List Str) (e : Env) (r : Request) : List Eff × Vals :=
  let info := serverInfo allowed r
  -- http/server.go:36-41
  let traceId := info.traceId.getD e.traceId
  -- http/server.go:44-47
  let parent := info.parentId.getD 0
  -- http/server.go:49-51
  let vals : Vals := ⟨info.sampled, none⟩
  -- http/server.go:52, ctx.go:257-264
  let vals' := e.watch vals
  let started : List Eff := [.announce traceId vals.sampled, .start e.s ⟨e.id, traceId, some parent, vals'.sampled⟩]
  -- present/path.go:235-249
  if e.remote then (started ++ (vals'.cb.toList.map .callback), { vals' with sampled := true }) else (started, vals')

/-- http/server.go:59-72 for the span `s` found in the context: what happens until the deferred function runs, and the panic under way. -/
def serverBody (allowed : List Str) (e : Env) (h : Handler) (r : Request) (s : Nat) (ctx : Ctx) : List Eff × Option (Option Nat) :=
  let info := serverInfo allowed r
  -- http/server.go:59-62
  let bag := (e.order (info.baggage.getD [])).map fun kv => Eff.annotate s kv.1 kv.2
  let pre := bag ++ [.annotate s b!"http.uri" r.uri]
  -- http/server.go:64
  let caps := wrapCaps e.caps
  -- http/server.go:65-68
  let told : List Eff := if info.parentId = none ∧ info.sampled = true then
    [.header b!"Trace-Id" (fmtX 0 (info.traceId.getD e.traceId)), .header b!"Child-Id" (fmtX 0 e.id)] else []
  -- http/server.go:69: `request.WithContext(s)`, the span itself and not the context the observers made of it
  let (acts, pn) := h ctx caps
  let did := acts.flatMap (actEff s caps)
  match pn with
  | some v => (pre ++ told ++ [.handle ctx caps] ++ did, some (Calls.raise e.nilErr v))
  -- http/server.go:71
  | none => (pre ++ told ++ [.handle ctx caps] ++ did ++ [.annotate s b!"http.responsecode" (fmtCode (Wrap.recorded (opsOf did)))], none)

/-- http/server.go:32-72 `ServeHTTP`: what happens, and how it ends. -/
def serveHTTP (allowed : List Str) (e : Env) (h : Handler) (r : Request) : List Eff × Calls.Out Nat :=
  let (started, vals) := serverStart allowed e r
  -- http/server.go:54-56
  let cb : List Eff := vals.cb.toList.map .callback
  -- http/server.go:52, 58
  let ctx := Ctx.task e.obs r.ctx e.s
  let (body, pn) := match ctx.spanFrom with
    | some s =>
      -- the span as a context is what it was made as (ctx.go:87-96)
      serverBody allowed e h r s (if s = e.s then r.ctx.push e.s else .span s .background)
    -- a nil span: `Annotate` panics
    | none => ([], some (some 0))
  -- http/server.go:52: the deferred function; ctx.go:113-157
  let x := Calls.exit e.nilErr false none pn
  (started ++ cb ++ body ++ [.finish e.s x.1.1 x.1.2], x.2)

/-- What the client does with a request: a response with a status code, an error, or a panic (http/client.go:24). -/
inductive DoRes where
  | resp (code : Int)
  | err (e : Nat)
  | panic (v : Option Nat)
  deriving DecidableEq

/-- A request to be sent; `none` is a nil `Header` (http/client.go:17-24). -/
structure OutReq where
  method : Str
  url : Str
  header : Option Header

/-- How `TraceRequest` ends: the response's code or the error, or a panic (http/client.go:17-30). -/
inductive ReqRes where
  | resp (code : Int)
  | err (e : Nat)
  | panic (v : Option Nat)
  /-- neither a response nor an error -/
  | nothing
  deriving DecidableEq

/-- http/client.go:23 `TraceInfoFromSpan(s).SetHeader(req.Header)`; storing into a nil map panics (`none`), not storing does not. -/
def clientHeader (view : SpanView) : Option Header → Option Header
  | some h => some (setHeader (fromSpan view) [] h)
  | none => if (fromSpan view).traceId.isSome || (fromSpan view).sampled then none else some ⟨[], [], []⟩

/-- http/client.go:17-30 `TraceRequest`.  `view` is the new span `s` – of function `req.Method` –, with what the watchers and observers made of its
trace; `cl` is the client.  1 is the panic of storing into a nil map. -/
def traceRequest (nilErr : Bool) (s : Nat) (view : SpanView) (cl : Header → DoRes) (req : OutReq) : List Eff × ReqRes :=
  -- http/client.go:19-22
  let pre : List Eff := [.start s view, .annotate s b!"http.uri" req.url]
  match clientHeader view req.header with
  | none =>
    let x := Calls.exit (E := Nat) nilErr true none (some (some 1))
    (pre ++ [.finish s x.1.1 x.1.2], .panic (some 1))
  | some h =>
    -- http/client.go:24-29, and the deferred function with `&err`
    match cl h with
    | .resp code => (pre ++ [.send h, .annotate s b!"http.responsecode" (fmtCode code), .finish s none false], .resp code)
    | .err e => (pre ++ [.send h, .finish s (some e) false], .err e)
    | .panic v =>
      let x := Calls.exit (E := Nat) nilErr true none (some (Calls.raise nilErr v))
      (pre ++ [.send h, .finish s x.1.1 x.1.2], match x.2 with
        | .panic v => .panic v
        | _ => .nothing)

end Monkit.TraceHttp
