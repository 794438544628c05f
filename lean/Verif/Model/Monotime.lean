/-!
# monotime/monotime_windows.go

monotime_windows.go:14-21.  The performance counter and its frequency are parameters.
-/

namespace Monkit.Monotime

/-- monotime_windows.go:18-21 `elapsed`, in nanoseconds.  `none`: division by zero. -/
def elapsed (counter base frequency : Int64) : Option Int64 :=
  let e := counter - base
  if frequency * 1 = 0 then none else some (e * 1000000000 / (frequency * 1))

end Monkit.Monotime
