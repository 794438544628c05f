import Verif.Model.SvgText
import Verif.Model.Present
import Verif.Model.Args
import Verif.Go.DurText

/-!
# present/trace.go: the texts of a bar, from what is known of the span
-/

namespace Monkit.SvgText
open Go

/-- trace.go:305-338, 356: what the template of a bar gets of a span that took `took` ns and started `since` ns after the first one; `parent` is its
parent if that is drawn too, otherwise the template gets 0.  `name` and `args` are escaped later (trace.go:340-353, in `text` and `onmouseover`). -/
def barOf (id : Int64) (parent : Option Int64) (name : Str) (args : List Str) (took since : Int64) : Bar :=
  ⟨Present.fmtInt id, Present.fmtInt (parent.getD 0), name, Args.joinSpace args, DurText.duration took, DurText.duration since⟩

end Monkit.SvgText
