import Verif.Model.Rusage

/-!
# C94: the use of resources
-/

namespace Monkit.Rusage
open Go

/-- **C94 (rusage).**  Every number that the kernel gives is reported once, under its own name, the parts of a time behind a dot; nothing else is; and nothing at all if the kernel gives no answer. -/
theorem C94_rusage (u : Usage) :
    stats none = some [] ∧
    stats (some u) = some ([(b!"Utime.Sec", u.utimeSec), (b!"Utime.Usec", u.utimeUsec), (b!"Stime.Sec", u.stimeSec), (b!"Stime.Usec", u.stimeUsec),
      (b!"Maxrss", u.maxrss), (b!"Ixrss", u.ixrss), (b!"Idrss", u.idrss), (b!"Isrss", u.isrss), (b!"Minflt", u.minflt), (b!"Majflt", u.majflt),
      (b!"Nswap", u.nswap), (b!"Inblock", u.inblock), (b!"Oublock", u.oublock), (b!"Msgsnd", u.msgsnd), (b!"Msgrcv", u.msgrcv),
      (b!"Nsignals", u.nsignals), (b!"Nvcsw", u.nvcsw), (b!"Nivcsw", u.nivcsw)].map fun x => (⟨b!"rusage", []⟩, x.1, .int x.2)) :=
  ⟨rfl, rfl⟩

/-- Two seconds of user time. -/
example : ∃ l, stats (some ⟨2, 0, 0, 0, 0, 0, 0, 0, 0, 0, 0, 0, 0, 0, 0, 0, 0, 0⟩) = some l ∧ (⟨b!"rusage", []⟩, b!"Utime.Sec", .int 2) ∈ l :=
  ⟨_, (C94_rusage _).2, by simp⟩

end Monkit.Rusage
