import Verif.Model.Basic
import Verif.Go.Float

/-!
# Vocabulary: the files of /proc (proc(5))
-/

namespace Monkit.ProcFs.Spec
open Go

/-- White space. -/
def Space (r : Nat) : Prop :=
  (0x09 ≤ r ∧ r ≤ 0x0d) ∨ r ∈ [0x20, 0x85, 0xa0, 0x1680, 0x2028, 0x2029, 0x202f, 0x205f, 0x3000] ∨ (0x2000 ≤ r ∧ r ≤ 0x200a)

/-- Decimal digits and the number that they denote. -/
inductive Digits : List Nat → Nat → Prop
  | one {d} : d < 10 → Digits [48 + d] d
  | more {ds n d} : Digits ds n → d < 10 → Digits (ds ++ [48 + d]) (10 * n + d)

/-- A number as the kernel writes it. -/
inductive Text : List Nat → Int → Prop
  | pos {ds n} : Digits ds n → Text ds n
  | neg {ds n} : Digits ds n → 0 < n → Text (45 :: ds) (-n)

/-- The fields of /proc/self/stat after the state of the process, in order: the name of the statistic and whether the field is signed
(proc(5), fields 4 to 44). -/
def fields : List (Str × Bool) :=
  [(b!"Ppid", true), (b!"Pgrp", true), (b!"Session", true), (b!"TtyNr", true), (b!"Tpgid", true), (b!"Flags", false), (b!"Minflt", false),
   (b!"Cminflt", false), (b!"Majflt", false), (b!"Cmajflt", false), (b!"Utime", false), (b!"Stime", false), (b!"Cutime", true),
   (b!"Cstime", true), (b!"Priority", true), (b!"Nice", true), (b!"NumThreads", true), (b!"Itrealvalue", true), (b!"Starttime", false),
   (b!"Vsize", false), (b!"Rss", true), (b!"Rsslim", false), (b!"Startcode", false), (b!"Endcode", false), (b!"Startstack", false),
   (b!"Kstkesp", false), (b!"Kstkeip", false), (b!"Signal", false), (b!"Blocked", false), (b!"Sigignore", false), (b!"Sigcatch", false),
   (b!"Wchan", false), (b!"Nswap", false), (b!"Cnswap", false), (b!"ExitSignal", true), (b!"Processor", true), (b!"RtPriority", false),
   (b!"Policy", false), (b!"DelayAcctBlkioTicks", false), (b!"GuestTime", false), (b!"CguestTime", true)]

/-- The fields of /proc/self/statm. -/
def memFields : List Str := [b!"Size", b!"Resident", b!"Share", b!"Text", b!"Lib", b!"Data", b!"Dt"]

/-- A number that a field can have. -/
def Fits (signed : Bool) (v : Int) : Prop := if signed then -2 ^ 63 ≤ v ∧ v < 2 ^ 63 else 0 ≤ v ∧ v < 2 ^ 64

/-- Fields and what the kernel wrote for them: a text that stands for a number in the range of the field. -/
inductive Written : List Bool → List (List Nat) → List Int → Prop
  | nil : Written [] [] []
  | cons {sg sgs t ts v vs} : Text t v → Fits sg v → Written sgs ts vs → Written (sg :: sgs) (t :: ts) (v :: vs)

/-- What the kernel says about a process. -/
structure Proc where
  pid : List Nat
  pidV : Int
  /-- the name of the program, or what the program has called itself -/
  comm : List Nat
  state : Nat
  /-- the texts of fields 4 to 44 and what they stand for -/
  texts : List (List Nat)
  vals : List Int
  /-- what follows: a newline, or a space and further fields -/
  rest : List Nat

/-- The kernel's file describes a process: the state is a letter. -/
structure Proc.Ok (p : Proc) : Prop where
  pid : Written [true] [p.pid] [p.pidV]
  state : (65 ≤ p.state ∧ p.state ≤ 90) ∨ (97 ≤ p.state ∧ p.state ≤ 122)
  nums : Written (fields.map (·.2)) p.texts p.vals
  rest : ∀ r s, p.rest = r :: s → Space r

/-- The text of /proc/self/stat. -/
def Proc.file (p : Proc) : List Nat := p.pid ++ [32, 40] ++ p.comm ++ [41, 32, p.state] ++ p.texts.flatMap (32 :: ·) ++ p.rest

/-- A statistic: the float64 nearest to the number. -/
def stat (key x : Str) (v : Int) : Key × Str × FVal := (⟨key, []⟩, x, .flt (Float.rn 53 v))

/-- The statistics that belong to a process. -/
def Proc.stats (p : Proc) : List (Key × Str × FVal) :=
  stat b!"proc_stat" b!"Pid" p.pidV :: stat b!"proc_stat" b!"State" p.state :: (fields.zip p.vals).map fun x => stat b!"proc_stat" x.1.1 x.2

/-- The text of /proc/self/statm: numbers with a space between. -/
def memFile : List (List Nat) → List Nat → List Nat
  | [], rest => rest
  | t :: ts, rest => t ++ ts.flatMap (32 :: ·) ++ rest

/-- The statistics that belong to it. -/
def memStats (vals : List Int) : List (Key × Str × FVal) := (memFields.zip vals).map fun x => stat b!"proc_statm" x.1 x.2

end Monkit.ProcFs.Spec
