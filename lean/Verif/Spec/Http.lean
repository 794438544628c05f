import Verif.Model.Http
import Verif.Spec.Path
import Verif.Spec.Buffered

/-!
# Specification: what an HTTP client gets (C92)
-/

namespace Monkit.Http.Spec
open Go

/-- The page has a link to `l`. -/
def HasLink (page l : Str) : Prop := ∃ before after, page = before ++ b!"<a href=\"" ++ l ++ b!"\">" ++ after ∧ (34 : UInt8) ∉ l

end Monkit.Http.Spec
