import Verif.Model.Traced

/-!
# Under which series a source reports: scope.go:95-283, 306-322, funcstats.go:48-57, 130-175

A source is known by the call of an accessor that made it.  Which fields it reports is not looked at here.
-/

namespace Monkit.Series
open Go Monkit.Scope

/-- The series key a source is made with (scope.go:97, 125, 145, 156, 175, 194, 213, 226, 239, 252, 280). -/
def own (c : Call) : Str × Map Str Str :=
  match c.kind with
  | .func => (b!"function", Traced.keyTags c.name c.tags)
  | _ => (c.name, Tags.setAllFrom [] c.tags)

/-- The parts of what a function reports: its counts and its times (funcstats.go:53-54), and how often each error came (funcstats.go:166).  Other sources
have one part. -/
inductive Part where
  | whole
  | success
  | failure
  | error (name : Str)
  deriving DecidableEq

/-- The tag of a part (funcstats.go:53-54, 166). -/
def Part.tags : Part → List (Str × Str)
  | .whole => []
  | .success => [(b!"kind", b!"success")]
  | .failure => [(b!"kind", b!"failure")]
  | .error e => [(b!"error_name", e)]

/-- What is added to the measurement: the times have one of their own (funcstats.go:52). -/
def Part.suffix : Part → Str
  | .success | .failure => b!"_times"
  | _ => []

/-- scope.go:307-309: the key under which a part of a source is reported by the scope called `scope`. -/
def reported (scope : Str) (c : Call) (p : Part) : Str × Map Str Str :=
  ((own c).1 ++ p.suffix, Tags.setAllFrom (Tags.setAllFrom (own c).2 p.tags) [(b!"scope", scope)])

end Monkit.Series
