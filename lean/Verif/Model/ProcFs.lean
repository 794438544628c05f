import Verif.Model.Struct
import Verif.Go.Float

/-!
# environment/proc_linux.go: statistics from /proc

environment/proc_linux.go:24-121.  The text of a file is given as the runes that `fmt.Sscanf` reads.  `fmt.Sscanf` (Go's fmt/scan.go) is
modelled for the formats of this file: verbs `%d`, `%s` and `%c` that follow one another with one space between.
-/

namespace Monkit.ProcFs
open Go

/-- fmt/scan.go `isSpace` (used at environment/proc_linux.go:90-100, 118-120). -/
def isSpace (r : Nat) : Bool :=
  (0x09 ≤ r && r ≤ 0x0d) || r = 0x20 || r = 0x85 || r = 0xa0 || r = 0x1680 || (0x2000 ≤ r && r ≤ 0x200a) || r = 0x2028 || r = 0x2029 ||
    r = 0x202f || r = 0x205f || r = 0x3000

/-- One of the decimal digits (used at environment/proc_linux.go:90-100, 118-120). -/
def isDigit (r : Nat) : Bool := 48 ≤ r && r ≤ 57

/-- fmt/scan.go `SkipSpace`, for `Sscanf`: a newline is an error (used at environment/proc_linux.go:90-100, 118-120). -/
def skipSpace : List Nat → Option (List Nat)
  | [] => some []
  | r :: s => if r = 10 then none else if isSpace r then skipSpace s else some (r :: s)

/-- fmt/scan.go `advance` on a space of the format: at least one space that is not a newline, or the end of the input; further spaces are
passed over too (used at environment/proc_linux.go:90-100, 118-120). -/
def sep : List Nat → Option (List Nat)
  | [] => some []
  | r :: s => if !isSpace r || r = 10 then none else some (s.dropWhile fun r => isSpace r && r != 10)

/-- The types of the variables (proc_linux.go:38-83, 103-111). -/
inductive Kind where
  | int64
  | uint64
  | string
  | byte
  deriving DecidableEq

/-- The verbs of a format (used at environment/proc_linux.go:90-100, 118-120). -/
inductive Verb where
  | d
  | s
  | c
  deriving DecidableEq

/-- What is scanned (used at environment/proc_linux.go:90-100, 118-120). -/
inductive Got where
  | num (i : Int)
  | str (s : List Nat)

/-- The number that decimal digits denote (used at environment/proc_linux.go:90-100, 118-120). -/
def value (ds : List Nat) : Nat := ds.foldl (fun n d => n * 10 + (d - 48)) 0

/-- fmt/scan.go `scanNumber`: at least one digit (used at environment/proc_linux.go:90-100, 118-120). -/
def digits (s : List Nat) : Option (Nat × List Nat) :=
  if s.takeWhile isDigit = [] then none else some (value (s.takeWhile isDigit), s.dropWhile isDigit)

/-- fmt/scan.go `scanInt` with `%d` (used at environment/proc_linux.go:90-100, 118-120). -/
def scanInt (s : List Nat) : Option (Int × List Nat) :=
  match s with
  | 45 :: s => (digits s).bind fun x => if -(x.1 : Int) < -2 ^ 63 then none else some (-x.1, x.2)
  | 43 :: s => (digits s).bind fun x => if 2 ^ 63 ≤ x.1 then none else some (x.1, x.2)
  | s => (digits s).bind fun x => if 2 ^ 63 ≤ x.1 then none else some (x.1, x.2)

/-- fmt/scan.go `scanUint` with `%d` (used at environment/proc_linux.go:90-100, 118-120). -/
def scanUint (s : List Nat) : Option (Int × List Nat) := (digits s).bind fun x => if 2 ^ 64 ≤ x.1 then none else some (x.1, x.2)

/-- fmt/scan.go `scanOne`, with the spaces before it that `doScanf` skips; `none` is an error, a verb that does not suit the variable
too (used at environment/proc_linux.go:90-100, 118-120). -/
def scanOne (v : Verb) (k : Kind) (s : List Nat) : Option (Got × List Nat) :=
  match v, k with
  | .d, .int64 => (skipSpace s).bind fun s => (scanInt s).map fun x => (.num x.1, x.2)
  | .d, .uint64 => (skipSpace s).bind fun s => (scanUint s).map fun x => (.num x.1, x.2)
  | .s, .string => (skipSpace s).bind fun s => if s = [] then none else some (.str (s.takeWhile (!isSpace ·)), s.dropWhile (!isSpace ·))
  | .c, .byte =>
    match s with
    | r :: s => if 128 ≤ r then none else some (.num r, s)
    | [] => none
  | _, _ => none

/-- fmt/scan.go `doScanf`: the verbs of the format and the variables given; more verbs than variables is an error, more variables than
verbs is not (used at environment/proc_linux.go:90-100, 118-120). -/
def scanf : List Verb → List (Str × Kind) → List Nat → Option (List (Str × Got))
  | [], _, _ => some []
  | _ :: _, [], _ => none
  | v :: vs, (x, k) :: args, s =>
    match scanOne v k s with
    | none => none
    | some (g, s) =>
      if vs = [] then some [(x, g)]
      else match sep s with
        | none => none
        | some s => (scanf vs args s).map ((x, g) :: ·)

/-- The verbs of a format string (used at environment/proc_linux.go:90-100, 118-120). -/
def verbs : Str → List Verb
  | 37 :: 100 :: s => .d :: verbs s
  | 37 :: 115 :: s => .s :: verbs s
  | 37 :: 99 :: s => .c :: verbs s
  | _ :: s => verbs s
  | [] => []

/-- proc_linux.go:38-83 `procSelfStat`. -/
def statDecl : List (Str × Kind) :=
  [(b!"Pid", .int64), (b!"Comm", .string), (b!"State", .byte), (b!"Ppid", .int64), (b!"Pgrp", .int64), (b!"Session", .int64),
   (b!"TtyNr", .int64), (b!"Tpgid", .int64), (b!"Flags", .uint64), (b!"Minflt", .uint64), (b!"Cminflt", .uint64), (b!"Majflt", .uint64),
   (b!"Cmajflt", .uint64), (b!"Utime", .uint64), (b!"Stime", .uint64), (b!"Cutime", .int64), (b!"Cstime", .int64),
   (b!"Priority", .int64), (b!"Nice", .int64), (b!"NumThreads", .int64), (b!"Itrealvalue", .int64), (b!"Starttime", .uint64),
   (b!"Vsize", .uint64), (b!"Rss", .int64), (b!"Rsslim", .uint64), (b!"Startcode", .uint64), (b!"Endcode", .uint64),
   (b!"Startstack", .uint64), (b!"Kstkesp", .uint64), (b!"Kstkeip", .uint64), (b!"Signal", .uint64), (b!"Blocked", .uint64),
   (b!"Sigignore", .uint64), (b!"Sigcatch", .uint64), (b!"Wchan", .uint64), (b!"Nswap", .uint64), (b!"Cnswap", .uint64),
   (b!"ExitSignal", .int64), (b!"Processor", .int64), (b!"RtPriority", .uint64), (b!"Policy", .uint64),
   (b!"DelayAcctBlkioTicks", .uint64), (b!"GuestTime", .uint64), (b!"CguestTime", .int64)]

/-- proc_linux.go:92-99: the variables given to `Sscanf`. -/
def statArgs : List Str :=
  [b!"Pid", b!"Comm", b!"State", b!"Ppid",
   b!"Pgrp", b!"Session", b!"TtyNr", b!"Tpgid", b!"Flags", b!"Minflt", b!"Cminflt",
   b!"Majflt", b!"Cmajflt", b!"Utime", b!"Stime", b!"Cutime", b!"Cstime",
   b!"Priority", b!"Nice", b!"NumThreads", b!"Itrealvalue", b!"Starttime",
   b!"Vsize", b!"Rss", b!"Rsslim", b!"Startcode", b!"Endcode", b!"Startstack",
   b!"Kstkesp", b!"Kstkeip", b!"Signal", b!"Blocked", b!"Sigignore", b!"Sigcatch",
   b!"Wchan", b!"Nswap", b!"Cnswap", b!"ExitSignal", b!"Processor", b!"RtPriority",
   b!"Policy", b!"DelayAcctBlkioTicks", b!"GuestTime", b!"CguestTime"]

/-- proc_linux.go:90-92: the format. -/
def statFormat : Str :=
  b!"%d %s %c %d %d %d %d %d %d %d %d " ++
    b!"%d %d %d %d %d %d %d %d %d %d %d %d %d %d %d %d %d %d %d %d %d %d %d " ++
    b!"%d %d %d %d %d %d %d %d %d %d"

/-- proc_linux.go:103-111 `procSelfStatm`; `int` has 64 bits. -/
def statmDecl : List (Str × Kind) :=
  [(b!"Size", .int64), (b!"Resident", .int64), (b!"Share", .int64), (b!"Text", .int64), (b!"Lib", .int64), (b!"Data", .int64), (b!"Dt", .int64)]

/-- proc_linux.go:118-119. -/
def statmArgs : List Str := [b!"Size", b!"Resident", b!"Share", b!"Text", b!"Lib", b!"Data", b!"Dt"]

/-- proc_linux.go:118. -/
def statmFormat : Str := b!"%d %d %d %d %d %d %d"

/-- The type that a variable was declared with (environment/proc_linux.go:38-83, 103-111). -/
def kindOf (decl : List (Str × Kind)) (x : Str) : Kind := (decl.lookup x).getD .string

/-- proc_linux.go:85-101, 113-121: `readProcSelfStat`, `readProcSelfStatm`, of what `os.ReadFile` gives (`none`: an error). -/
def readFile (decl : List (Str × Kind)) (args : List Str) (format : Str) (file : Option (List Nat)) : Option (List (Str × Got)) :=
  file.bind fun s => scanf (verbs format) (args.map fun x => (x, kindOf decl x)) s

/-- The value of a field after the scan, as `StatSourceFromStruct` sees it; one that was not scanned is zero (proc_linux.go:25, 31). -/
def fieldVal (got : List (Str × Got)) (x : Str × Kind) : Struct.Val :=
  match x.2 with
  | .string => .other
  | _ => match got.lookup x.1 with
    | some (.num i) => .num (.flt (Float.rn 53 i))
    | _ => .num (.flt 0)

/-- The struct after the scan (proc_linux.go:25-28, 31-34). -/
def toStruct (got : List (Str × Got)) : List (Str × Kind) → Struct.Fields
  | [] => .nil
  | x :: xs => .cons x.1 [] true (fieldVal got x) (toStruct got xs)

/-- proc_linux.go:26-29, 32-35: one of the two files; `none` is a panic. -/
def fileStats (key : Str) (decl : List (Str × Kind)) (args : List Str) (format : Str) (file : Option (List Nat)) : Option (List (Key × Str × FVal)) :=
  match readFile decl args format file with
  | none => some []
  | some got => (Struct.stats (.ptr (.struct (toStruct got decl)))).map (·.map fun x => (⟨key, []⟩, x.1, x.2))

/-- proc_linux.go:24-36 `proc`. -/
def proc (stat statm : Option (List Nat)) : Option (List (Key × Str × FVal)) :=
  (fileStats b!"proc_stat" statDecl statArgs statFormat stat).bind fun a =>
    (fileStats b!"proc_statm" statmDecl statmArgs statmFormat statm).map fun b => a ++ b

end Monkit.ProcFs
