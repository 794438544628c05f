import Verif.Go.Float
import Verif.Model.Struct

/-!
# environment/rusage.go: what the kernel says about the use of resources

The struct is that of Linux on 64-bit systems; other systems have other fields.
-/

namespace Monkit.Rusage
open Go

/-- `syscall.Rusage` of Linux (environment/rusage.go:30): two times, then the counters. -/
structure Usage where
  utimeSec : Int64
  utimeUsec : Int64
  stimeSec : Int64
  stimeUsec : Int64
  maxrss : Int64
  ixrss : Int64
  idrss : Int64
  isrss : Int64
  minflt : Int64
  majflt : Int64
  nswap : Int64
  inblock : Int64
  oublock : Int64
  msgsnd : Int64
  msgrcv : Int64
  nsignals : Int64
  nvcsw : Int64
  nivcsw : Int64

/-- A field of `syscall.Rusage` or `syscall.Timeval`: exported, without tag (environment/rusage.go:30). -/
def field (name : Str) (v : Int64) (rest : Struct.Fields) : Struct.Fields := .cons name [] true (.num (.int v)) rest

/-- `syscall.Timeval` (environment/rusage.go:30). -/
def timeval (sec usec : Int64) : Struct.Val := .struct (field b!"Sec" sec (field b!"Usec" usec .nil))

/-- The struct as reflection sees it (environment/rusage.go:33, struct.go:33-79). -/
def Usage.fields (u : Usage) : Struct.Fields :=
  .cons b!"Utime" [] true (timeval u.utimeSec u.utimeUsec) <|
  .cons b!"Stime" [] true (timeval u.stimeSec u.stimeUsec) <|
  field b!"Maxrss" u.maxrss <| field b!"Ixrss" u.ixrss <| field b!"Idrss" u.idrss <| field b!"Isrss" u.isrss <|
  field b!"Minflt" u.minflt <| field b!"Majflt" u.majflt <| field b!"Nswap" u.nswap <| field b!"Inblock" u.inblock <|
  field b!"Oublock" u.oublock <| field b!"Msgsnd" u.msgsnd <| field b!"Msgrcv" u.msgrcv <| field b!"Nsignals" u.nsignals <|
  field b!"Nvcsw" u.nvcsw <| field b!"Nivcsw" u.nivcsw .nil

/-- environment/rusage.go:28-36 `Rusage().Stats`; the answer of the system is `none` if it fails; the result `none` would be a panic. -/
def stats (answer : Option Usage) : Option (List (Key × Str × FVal)) :=
  match answer with
  | none => some []
  | some u => (Struct.stats (.ptr (.struct u.fields))).map (·.map fun x => (⟨b!"rusage", []⟩, x.1, x.2))

end Monkit.Rusage
