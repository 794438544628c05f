import Verif.Model.ErrorNames

/-!
# error_names_ae.go, error_names_net_tinygo.go: the names of errors in other builds
-/

namespace Monkit.ErrorNames
open Go

/-- The build tags that matter (error_names_ae.go:15, error_names_net_tinygo.go:15). -/
structure Build where
  tinygo : Bool
  appengine : Bool

/-- error_names_net_tinygo.go:26-50 `getNetErrorName`. -/
def netErrorNameTiny (e : Err) : Str :=
  match e.dyn with
  | .syscallError => b!""
  | .addrError => b!"Addr Error"
  | .opError => b!"Net Op Error"
  | .parseError => b!"Net Parse Error"
  | _ => if e.netError then b!"Network Error" else b!""

/-- `getNetErrorName` of a build (error_names_net.go:26-47, error_names_net_tinygo.go:26-50). -/
def Build.netErrorName (b : Build) (e : Err) : Str := if b.tinygo then netErrorNameTiny e else ErrorNames.netErrorName e

/-- `isErrnoError` of a build (error_names_ae.go:20-22, error_names_syscall.go:22-25). -/
def Build.isErrno (b : Build) (e : Err) : Bool := if b.appengine then false else e.dyn = .errno

/-- error_names.go:69-96 in a build. -/
def Build.builtin (b : Build) (e : Err) : Str :=
  match e.value with
  | some .eof => b!"EOF"
  | some .unexpectedEOF => b!"Unexpected EOF Error"
  | some .closedPipe => b!"Closed Pipe Error"
  | some .noProgress => b!"No Progress Error"
  | some .shortBuffer => b!"Short Buffer Error"
  | some .shortWrite => b!"Short Write Error"
  | some .canceled => b!"Canceled"
  | some .deadlineExceeded => b!"Timeout"
  | none =>
    if b.isErrno e then b!"Errno"
    else if b.netErrorName e ≠ [] then b.netErrorName e
    else b!"System Error"

end Monkit.ErrorNames
