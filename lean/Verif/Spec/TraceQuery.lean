import Verif.Model.TraceQuery
import Verif.Spec.WatchSpans
import Verif.Spec.KeepAlive

/-!
# What a trace query should write
-/

namespace Monkit.TraceQuery
open Go

/-- The part of `keepAlive`. -/
def kaOf (tr : List Ev) : List KeepAlive.Event := tr.filterMap fun e => match e with | .ka e => some e | _ => none

/-- The part of `WatchForSpans`. -/
def watchOf (tr : List Ev) : List WatchSpans.Ev := tr.filterMap fun e => match e with | .watch e => some e | _ => none

/-- What the writer has been given, as far as it returned no error: a newline for each ping that succeeded, and the pieces of the document. -/
def received : List Ev → Str
  | [] => []
  | .ka (.pong .ok) :: tr => b!"\n" ++ received tr
  | .write p none :: tr => p ++ received tr
  | _ :: tr => received tr

/-- An event at the writer. -/
def Ev.atWriter : Ev → Bool
  | .ka .ping | .ka (.pong _) | .write _ _ => true
  | _ => false

end Monkit.TraceQuery
