import Verif.Go.Str

/-!
# Contexts

ctx.go:27-57 (`Span` as a context, `SpanFromCtx`), ctx.go:62-77 and 87-96 (what `newSpan` does to the context),
ctx.go:285-303 (`cleanCtx`), ctx.go:308-371 (observers and `resetContext`), span.go:74-79 (`Span.Value`).

A context answers `Value` for keys, and carries cancellation (`Deadline`, `Done`, `Err`), which monkit's contexts pass
through by embedding; it is one token `sig` here.  Keys are `spanKey`, which only monkit can name, and the users' keys.
A span is a number.  A nil `*Span` inside a context interface is not modelled (nothing in monkit makes one).
-/

namespace Monkit

/-- Keys of context values (span.go:26-30). -/
inductive CKey where
  | span
  | user (k : Nat)
  deriving DecidableEq

/-- Values of contexts: a span, or something of the user (span.go:74-79). -/
inductive CVal where
  | span (s : Nat)
  | user (v : Nat)
  deriving DecidableEq

/-- Contexts (ctx.go:27-46, 357-359). -/
inductive Ctx where
  /-- a context made elsewhere, such as `context.Background()` -/
  | base (g : CKey → Option CVal) (sig : Nat)
  /-- any context made elsewhere around another: `g` says what becomes of the values (`WithValue` answers its
  key and passes the others on), `sig` replaces the cancellation (`WithCancel`) -/
  | wrap (g : CKey → Option CVal → Option CVal) (sig : Option Nat) (c : Ctx)
  /-- a `*Span` with its embedded context -/
  | span (s : Nat) (c : Ctx)
  /-- `resetContext` (ctx.go:357-371) -/
  | reset (c : Ctx)

namespace Ctx

/-- `context.Background()` (ctx.go:283). -/
def background : Ctx := .base (fun _ => none) 0

/-- `context.WithValue(c, k, v)` for a user's key (made by users; read in ctx.go:69). -/
def withValue (c : Ctx) (k v : Nat) : Ctx :=
  .wrap (fun key old => if key = .user k then some (.user v) else old) none c

/-- `Value`: span.go:74-79, ctx.go:361-366. -/
def value : Ctx → CKey → Option CVal
  | .base g _, k => g k
  | .wrap g _ c, k => g k (value c k)
  | .span s c, k => if k = .span then some (.span s) else value c k
  | .reset c, k => if k = .span then none else value c k

/-- `Deadline`, `Done`, `Err`: passed on by embedding (ctx.go:39, 358). -/
def sig : Ctx → Nat
  | .base _ s => s
  | .wrap _ s c => s.getD (sig c)
  | .span _ c => sig c
  | .reset c => sig c

/-- ctx.go:50-57 `SpanFromCtx`. -/
def spanFrom : Ctx → Option Nat
  | .span s _ => some s
  | c => match c.value .span with
    | some (.span s) => some s
    | _ => none

/-- ctx.go:63-64: `newSpan` takes the embedded context of a span it is given directly. -/
def strip : Ctx → Ctx
  | .span _ c => c
  | c => c

/-- ctx.go:87-96, 108: the new span as a context. -/
def push (c : Ctx) (s : Nat) : Ctx := .span s c.strip

/-- ctx.go:108-111, 339-346: what the observers of the trace make of the context, most recent first.
`SpanObserver`s, registered with `ObserveSpans`, cannot change it (ctx.go:323-326): they are `id` here. -/
def observe (obs : List (Ctx → Ctx)) (c : Ctx) : Ctx := obs.foldl (fun c o => o c) c

/-- The context a Task leaves behind (ctx.go:108-111, 218-221). -/
def task (obs : List (Ctx → Ctx)) (c : Ctx) (s : Nat) : Ctx := observe obs (c.push s)

/-- ctx.go:369-371 `ResetContextSpan`. -/
def resetSpan (c : Ctx) : Ctx := .reset c

end Ctx
end Monkit
