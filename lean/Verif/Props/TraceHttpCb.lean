import Verif.Model.TraceHttpCb
import Verif.Props.TraceHttp

/-!
# C99: callbacks that panic
-/

namespace Monkit.TraceHttp
open Go Monkit.Headers Spec

/-- If no callback panics, everything said about requests holds. -/
theorem C99_callback_returns (allowed : List Str) (e : Env) (inStart inServe : Ends) (h : Handler) (r : Request)
    (h1 : ∀ c, inStart c = none) (h2 : ∀ c, inServe c = none) : serveHTTPcb allowed e inStart inServe h r = serveHTTP allowed e h r := by
  have p1 : ∀ o, panicOf inStart o = none := by intro o; cases o <;> simp [panicOf, h1]
  have p2 : ∀ o, panicOf inServe o = none := by intro o; cases o <;> simp [panicOf, h2]
  simp [serveHTTPcb, p1, p2]

/-- **C99**, a callback that panics: if it is `ServeHTTP` that calls it, the handler is not called and the response is left alone; the span is started once,
and finished once, last of all, as one that panicked; and the panic goes on to the server.

Partial: not if it is the matcher of `/trace/remote` that calls it, see `C99_callback_panic_violated`, and not for `panic(nil)` where that panics with nil. -/
theorem C99_callback_panic_partial (allowed : List Str) (e : Env) (inStart inServe : Ends) (h : Handler) (r : Request) (hr : e.remote = false)
    (c : Nat) (v : Option Nat) (hc : ∀ sm, (e.watch ⟨sm, none⟩).cb = some c) (hv : inServe c = some v) (hn : e.nilErr = true ∨ v ≠ none) :
    (serveHTTPcb allowed e inStart inServe h r).2 = .panic (Calls.raise e.nilErr v) ∧
    ∃ tid pid sm sm', (serveHTTPcb allowed e inStart inServe h r).1 =
      [.announce tid sm, .start e.s ⟨e.id, tid, some pid, sm'⟩, .callback c, .finish e.s none true] := by
  have key : Calls.exit (E := Nat) e.nilErr false none (some (Calls.raise e.nilErr v)) = ((none, true), .panic (Calls.raise e.nilErr v)) := by
    rcases hn with hn | hn
    · rw [hn]; cases v <;> rfl
    · cases v with
      | none => exact absurd rfl hn
      | some v => cases e.nilErr <;> rfl
  unfold serveHTTPcb serverStart
  simp only [hr, Bool.false_eq_true, if_false, panicOf, hc, hv, Option.bind_some, Option.map_some, key]
  exact ⟨trivial, _, _, _, _, rfl⟩

/-- C99 fails for a callback that panics when the matcher of `/trace/remote` calls it: the span has started and never finishes. -/
theorem C99_callback_panic_violated (allowed : List Str) (e : Env) (inStart inServe : Ends) (h : Handler) (r : Request) (hr : e.remote = true)
    (c : Nat) (v : Option Nat) (hc : ∀ sm, (e.watch ⟨sm, none⟩).cb = some c) (hv : inStart c = some v) :
    (∃ view, .start e.s view ∈ (serveHTTPcb allowed e inStart inServe h r).1) ∧ (∀ x ∈ (serveHTTPcb allowed e inStart inServe h r).1, isFinish x = false) ∧
    (serveHTTPcb allowed e inStart inServe h r).2 = .panic (Calls.raise e.nilErr v) := by
  unfold serveHTTPcb
  simp only [hr, if_true, panicOf, hc, hv, Option.bind_some, Option.map_some]
  refine ⟨⟨_, .tail _ (.head _)⟩, ?_, trivial⟩
  intro x hx
  simp only [List.mem_cons, List.not_mem_nil, or_false] at hx
  rcases hx with rfl | rfl | rfl <;> rfl

/-- Both cases happen: the callback 3 is left with every trace, and panics with 5; and the panic may be one of the second call only. -/
example :
    (serveHTTPcb [] (callbackEnv false) (fun _ => none) (fun _ => some (some 5)) (fun _ _ => ([.op .write], none)) plainReq).1.getLast? =
      some (.finish 0 none true) ∧
    (serveHTTPcb [] (callbackEnv true) (fun _ => some (some 5)) (fun _ => none) (fun _ _ => ([.op .write], none)) plainReq).2 = .panic (some 5) ∧
    callbacks (serveHTTPcb [] (callbackEnv true) (fun _ => none) (fun _ => some (some 5)) (fun _ _ => ([.op .write], none)) plainReq).1 = [3, 3] :=
  ⟨rfl, rfl, rfl⟩

end Monkit.TraceHttp
