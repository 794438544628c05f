import Verif.Go.Sys
import Verif.Go.Str
import Verif.Go.Float
import Verif.Model.Basic

/-!
# environment/process.go, os.go, os_unix.go

environment/process.go:34-74, process_unix.go:22-24, os.go:25-37, os_unix.go:25-42.  What the operating system answers is given by the steps
or as a list of answers; `crc32` (hash/crc32) is a parameter; `sync.Once` is modelled by its contract.
-/

namespace Monkit.ProcStats
open Go

/-! ## The checksum of the executable -/

/-- What reading the executable gives: it cannot be opened; or these bytes are read, and then the end or an error is found
(environment/process.go:64-71). -/
inductive Exe where
  | cannotOpen
  | bytes (content : Str) (failed : Bool)

/-- process.go:63-72 `getProcessCRC`: the checksum and whether there is an error. -/
def getProcessCRC (crc32 : Str → UInt32) : Exe → UInt32 × Bool
  | .cannotOpen => (0, true)
  | .bytes b failed => (crc32 b, failed)

/-- Positions of a goroutine that reads the statistics (environment/process.go:39-61). -/
inductive PC where
  | idle
  /-- process.go:41 has reported `control` and is about to enter `once.Do` (process.go:57) -/
  | once
  /-- process.go:58 in the function given to `Do` -/
  | reading
  /-- process.go:60 -/
  | after
  deriving DecidableEq

/-- A `sync.Once` (process.go:51). -/
inductive Once where
  | fresh
  | running (t : Nat)
  | complete
  deriving DecidableEq

/-- process.go:50-54 `crcCache`, and the goroutines. -/
structure State where
  once : Once
  crc : UInt32
  err : Bool
  thr : Nat → PC

/-- What is seen: calls of `Process().Stats`, what the executable was read as, and what a call has reported when it returns
(environment/process.go:39-61). -/
inductive Event where
  | call (t : Nat)
  | read (t : Nat) (x : Exe)
  | report (t : Nat) (out : List (Str × FVal))

/-- process.go:39-48: the calls of the callback, all for the key `process`, given what `processCRC` returned. -/
def processStats (crc : UInt32) (err : Bool) (uptime : Int64) : List (Str × FVal) :=
  (b!"control", .int 1) :: (if err then [] else [(b!"crc", .flt (Float.rn 53 (crc.toNat : ℚ)))]) ++ [(b!"uptime", .secs uptime)]

/-- process.go:39-61. -/
inductive Step (crc32 : Str → UInt32) : State → Option Event → State → Prop where
  /-- process.go:41 -/
  | call (s) (t : Nat) (h : s.thr t = .idle) : Step crc32 s (some (.call t)) { s with thr := upd s.thr t .once }
  /-- process.go:57 -/
  | onceFirst (s) (t : Nat) (h : s.thr t = .once) (ho : s.once = .fresh) : Step crc32 s none { s with once := .running t, thr := upd s.thr t .reading }
  | onceDone (s) (t : Nat) (h : s.thr t = .once) (ho : s.once = .complete) : Step crc32 s none { s with thr := upd s.thr t .after }
  /-- process.go:58-59 -/
  | read (s) (t : Nat) (x : Exe) (h : s.thr t = .reading) :
      Step crc32 s (some (.read t x)) { once := .complete, crc := (getProcessCRC crc32 x).1, err := (getProcessCRC crc32 x).2, thr := upd s.thr t .after }
  /-- process.go:60, 42-46 -/
  | report (s) (t : Nat) (uptime : Int64) (h : s.thr t = .after) :
      Step crc32 s (some (.report t (processStats s.crc s.err uptime))) { s with thr := upd s.thr t .idle }

/-- process.go:50-54 -/
def init : State := ⟨.fresh, 0, false, fun _ => .idle⟩

/-! ## The number of file descriptors -/

/-- An answer of `Readdirnames`: the number of names, and the error (environment/os_unix.go:32). -/
inductive DirErr where
  | none
  | eof
  | other
  deriving DecidableEq

/-- os_unix.go:31-40: the loop of `fdCount`; the result is the count and whether there is an error.  A list of answers that goes on for
ever has no result. -/
def fdLoop (count : Nat) : List (Nat × DirErr) → Option (Nat × Bool)
  | [] => none
  | (n, .none) :: as => fdLoop (count + n) as
  | (n, .eof) :: _ => some (count + n, false)
  | (n, .other) :: _ => some (count + n, true)

/-- os_unix.go:25-41 `fdCount`: whether /proc/self/fd can be opened, and the answers. -/
def fdCount (opened : Bool) (as : List (Nat × DirErr)) : Option (Nat × Bool) := if opened then fdLoop 0 as else some (0, true)

/-- os.go:28-35 `OS().Stats`: the calls of the callback, for the key `fds`. -/
def osStats (opened : Bool) (as : List (Nat × DirErr)) : Option (List (Str × FVal)) :=
  (fdCount opened as).map fun x => if x.2 then [] else [(b!"count", .flt (Float.rn 53 (x.1 : ℚ)))]

end Monkit.ProcStats
