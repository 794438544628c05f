import Verif.Model.Path
import Verif.Model.Buffered

/-!
# present/http.go: the HTTP handler

present/http.go:31-39, present/errs.go:22-58, present/path.go:293-329.  `net/http` sends status 200 when a handler returns or writes without having set another.
`prog` gives each presenter as a program of writes (Model/Buffered); `message` is the text after the kind in the error (`errorT.message`, path.go:145-201).
-/

namespace Monkit.Http
open Go
open Monkit.ListWriter (Writer)
open Monkit.Buffered (Prog)
open Monkit.Path (Env Query Presenter Answer fromRequest)

/-- errs.go:22-27 `errorKind`, and errors of another kind. -/
inductive Kind where
  | badRequest
  | notFound
  | other
  deriving DecidableEq

/-- errs.go:29-32 `statusCodes` and 34-41 `getStatusCode`. -/
def getStatusCode (k : Kind) (dflt : Nat) : Nat :=
  match k with
  | .badRequest => 400
  | .notFound => 404
  | .other => dflt

/-- errs.go:24-27. -/
def kindText : Kind → Str
  | .badRequest => b!"Bad Request"
  | .notFound => b!"Not Found"
  | .other => []

/-- errs.go:55-57 `Error`. -/
def errorText (k : Kind) (message : Str) : Str := kindText k ++ b!": " ++ message

/-- What the client gets (present/http.go:31-39). -/
structure Response where
  status : Nat
  contentType : Str
  body : Str
  deriving DecidableEq

/-- `http.Error` (net/http, used in present/http.go:34). -/
def httpError (text : Str) (code : Nat) : Response := ⟨code, b!"text/plain; charset=utf-8", text ++ b!"\n"⟩

/-- present/http.go:31-39 `ServeHTTP`, on a connection that takes every write.  The error of the result is ignored. -/
def serve (env : Env) (prog : Presenter → Prog) (message : Str) (path : Str) (q : Query) : Response :=
  match fromRequest env path q with
  | .badRequest => httpError (errorText .badRequest message) (getStatusCode .badRequest 500)
  | .notFound => httpError (errorText .notFound (b!"path not found: " ++ path)) (getStatusCode .notFound 500)
  | .found p ct => ⟨200, ct, (Buffered.result (fun _ => .ok) (prog p)).1.out⟩

/-- json.go:188-207, as writes: the elements after the first `n`, then the end of the list. -/
def elemsProg {α : Type} (marshal : α → Except Nat Str) : Str → List α → Prog
  | _, [] => .write b!"]\n" .ret
  | sep, x :: l => match marshal x with
    | .error e => .ret (some e)
    | .ok data => .write (sep ++ b!" " ++ data) fun
      | none => elemsProg marshal b!",\n" l
      | some e => .ret (some e)

/-- json.go:180-207, as writes; all users of `listWriter` (present/stats.go:41-47, present/spans.go:130-136, present/funcs.go:184-190). -/
def listProg {α : Type} (marshal : α → Except Nat Str) (l : List α) : Prog :=
  .write b!"[" fun
    | none => elemsProg marshal b!"\n" l
    | some e => .ret (some e)

/-- path.go:293-329 `writeIndex`: the lines of the page. -/
def indexLines : List Str :=
  [b!"<!DOCTYPE html>\n",
   b!"<html>\n",
   b!"\t<head>\n",
   b!"\t\t<meta charset=\"utf-8\">\n",
   b!"\t\t<title>Monkit</title>\n",
   b!"\t</head>\n",
   b!"\t<body>\n",
   b!"\t\t<dl style=\"max-width: 80ch;\">\n",
   b!"\t\t\t<dt><a href=\"ps\">/ps</a></dt>\n",
   b!"\t\t\t<dt><a href=\"ps/json\">/ps/json</a></dt>\n",
   b!"\t\t\t<dt><a href=\"ps/dot\">/ps/dot</a></dt>\n",
   b!"\t\t\t<dd>Information about active spans.</dd>\n",
   b!"\n",
   b!"\t\t\t<dt><a href=\"funcs\">/funcs</a></dt>\n",
   b!"\t\t\t<dt><a href=\"funcs/json\">/funcs/json</a></dt>\n",
   b!"\t\t\t<dt><a href=\"funcs/dot\">/funcs/dot</a></dt>\n",
   b!"\t\t\t<dd>Information about the functions and their relations.</dd>\n",
   b!"\n",
   b!"\t\t\t<dt><a href=\"stats\">/stats</a></dt>\n",
   b!"\t\t\t<dt><a href=\"stats/json\">/stats/json</a></dt>\n",
   b!"\t\t\t<dt><a href=\"stats/svg\">/stats/svg</a></dt>\n",
   b!"\t\t\t<dd>Statistics about all observed functions, scopes and values.</dd>\n",
   b!"\n",
   b!"\t\t\t<dt><a href=\"trace/json\">/trace/json</a></dt>\n",
   b!"\t\t\t<dt><a href=\"trace/svg\">/trace/svg</a></dt>\n",
   b!"\t\t\t<dd>Trace the next scope that matches one of the <code>?regex=</code> or <code>?trace_id=</code> query arguments. By default, regular expressions are matched ahead of time against all known Funcs, but perhaps the Func you want to trace hasn't been observed by the process yet, in which case the regex will fail to match anything. You can turn off this preselection behavior by providing <code>&preselect=false</code> as an additional query param. Be advised that until a trace completes, whether or not it has started, it adds a small amount of overhead (a comparison or two) to every monitored function.</dd>\n",
   b!"\t\t</dl>\n",
   b!"\t</body>\n",
   b!"</html>"]

/-- path.go:293-329 `writeIndex`: the page. -/
def indexPage : Str := indexLines.flatten

/-- path.go:293-329 `writeIndex`. -/
def indexProg : Prog := .write indexPage .ret

end Monkit.Http
