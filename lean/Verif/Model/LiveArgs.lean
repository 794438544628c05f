import Verif.Go.Sys
import Verif.Go.Map
import Verif.Go.Str

/-!
# span.go: the arguments of a span are formatted when they are looked at

`Task(&ctx, args...)` keeps the arguments in the span as they are (ctx.go:38, 94); `Args` turns them into text whenever a span is listed (present/spans.go:33, 91, present/json.go:56,
102, present/trace.go:333), in the goroutine of the one who asks.  A string, a number or a time is a value; of a slice or a map the span holds a reference, to memory that the function may go on
writing to.  `Args` takes no lock.

Modelled: strings, `[]uint8` (read byte by byte by `hex.EncodeToString`) and maps (`%#v` iterates over them).  What is produced is a list of the contents read; how they become text is in
`Model/Args`.  Go's runtime looks, at every step of an iteration over a map and at every assignment to it, for a goroutine that is assigning to it, and if there is one ends the program ("fatal
error: concurrent map iteration and map write"), which cannot be recovered from.
-/

namespace Monkit.LiveArgs
open Go

/-- An argument as the span keeps it: a string, or the address of the bytes or of the map (ctx.go:38, 94). -/
inductive Arg where
  | str (s : Str)
  | bytes (a : Nat)
  | map (a : Nat)

/-- What `Args` makes text of (span.go:110-121). -/
inductive Shown where
  | str (s : Str)
  | bytes (b : List UInt8)
  | map (es : List (Str × Nat))

/-- A map given as an argument (span.go:115-121), and whether some goroutine is inside an assignment to it (Go's runtime). -/
structure GoMap where
  entries : Map Str Nat
  writing : Bool

/-- Where a goroutine is: in its own code; inside `m[k] = v`; in `Args` (span.go:107-124), before the next argument, inside `hex.EncodeToString` (span.go:114), inside the iteration of
`fmt.Sprintf("%#v", arg)` over a map (span.go:120). `acc` is `rv`. -/
inductive PC where
  | idle
  | assign (a : Nat) (k : Str) (v : Nat)
  | next (sp : Nat) (rest : List Arg) (acc : List Shown)
  | bytes (sp a : Nat) (got : List UInt8) (rest : List Arg) (acc : List Shown)
  | map (sp a : Nat) (todo got : List (Str × Nat)) (rest : List Arg) (acc : List Shown)

/-- Memory, goroutines, and whether the runtime has ended the program (ctx.go:27-46). -/
structure State where
  bytes : Nat → List UInt8
  maps : Nat → GoMap
  pc : Nat → PC
  dead : Bool

/-- What can be seen from outside: writes of the functions to their own memory, and calls of `Args` (span.go:107). -/
inductive Ev where
  /-- goroutine `n` does `b[i] = v` -/
  | set (n a i : Nat) (v : UInt8)
  /-- goroutine `n` begins, ends `m[k] = v` -/
  | putBegin (n a : Nat) (k : Str) (v : Nat)
  | putEnd (n a : Nat) (k : Str) (v : Nat)
  /-- goroutine `n` calls `Args` on span `sp`, and gets the text of `shown` -/
  | call (n sp : Nat)
  | ret (n sp : Nat) (shown : List Shown)

variable (given : Nat → List Arg) (owner : Nat → Nat)

/-- Nobody is doing anything (ctx.go:66-98). -/
def init (bytes : Nat → List UInt8) (maps : Nat → Map Str Nat) : State :=
  { bytes, maps := fun a => ⟨maps a, false⟩, pc := fun _ => .idle, dead := false }

/-- One step of one goroutine. `given sp` are the arguments of span `sp`, `owner a` the only goroutine that writes to `a`, so that the functions themselves are free of races.
span.go:107-124. -/
inductive Step : State → Option Ev → State → Prop where
  /-- the function does `b[i] = v` -/
  | set (s n a i v) (hd : s.dead = false) (h : s.pc n = .idle) (ho : owner a = n) (hi : i < (s.bytes a).length) :
      Step s (some (.set n a i v)) { s with bytes := upd s.bytes a ((s.bytes a).set i v) }
  /-- the function begins `m[k] = v` -/
  | putBegin (s n a k v) (hd : s.dead = false) (h : s.pc n = .idle) (ho : owner a = n) (hw : (s.maps a).writing = false) :
      Step s (some (.putBegin n a k v)) { s with maps := upd s.maps a ⟨(s.maps a).entries, true⟩, pc := upd s.pc n (.assign a k v) }
  /-- … while another assignment goes on: "concurrent map writes" -/
  | putFatal (s n a) (hd : s.dead = false) (h : s.pc n = .idle) (ho : owner a = n) (hw : (s.maps a).writing = true) :
      Step s none { s with dead := true }
  /-- the assignment is over -/
  | putEnd (s n a k v) (hd : s.dead = false) (h : s.pc n = .assign a k v) :
      Step s (some (.putEnd n a k v)) { s with maps := upd s.maps a ⟨Map.set (s.maps a).entries k v, false⟩, pc := upd s.pc n .idle }
  /-- span.go:107-109 -/
  | call (s n sp) (hd : s.dead = false) (h : s.pc n = .idle) :
      Step s (some (.call n sp)) { s with pc := upd s.pc n (.next sp (given sp) []) }
  /-- span.go:111-112 -/
  | str (s n sp x rest acc) (hd : s.dead = false) (h : s.pc n = .next sp (.str x :: rest) acc) :
      Step s none { s with pc := upd s.pc n (.next sp rest (acc ++ [.str x])) }
  /-- span.go:113 -/
  | bytes (s n sp a rest acc) (hd : s.dead = false) (h : s.pc n = .next sp (.bytes a :: rest) acc) :
      Step s none { s with pc := upd s.pc n (.bytes sp a [] rest acc) }
  /-- span.go:114: one byte is read -/
  | byte (s n sp a got rest acc x) (hd : s.dead = false) (h : s.pc n = .bytes sp a got rest acc) (hx : (s.bytes a)[got.length]? = some x) :
      Step s none { s with pc := upd s.pc n (.bytes sp a (got ++ [x]) rest acc) }
  /-- span.go:114: all have been -/
  | bytesEnd (s n sp a got rest acc) (hd : s.dead = false) (h : s.pc n = .bytes sp a got rest acc) (hl : got.length = (s.bytes a).length) :
      Step s none { s with pc := upd s.pc n (.next sp rest (acc ++ [.bytes got])) }
  /-- span.go:120: the iteration begins, in any order -/
  | map (s n sp a rest acc todo) (hd : s.dead = false) (h : s.pc n = .next sp (.map a :: rest) acc) (hp : todo.Perm (s.maps a).entries) (hne : todo ≠ []) :
      Step s none { s with pc := upd s.pc n (.map sp a todo [] rest acc) }
  /-- span.go:120: an empty map is not iterated over -/
  | mapEmpty (s n sp a rest acc) (hd : s.dead = false) (h : s.pc n = .next sp (.map a :: rest) acc) (he : (s.maps a).entries = []) :
      Step s none { s with pc := upd s.pc n (.next sp rest (acc ++ [.map []])) }
  /-- span.go:120: the next key, with the value it has now. Keys that have been added meanwhile are not visited here (Go may or may not visit them); keys are not deleted here. -/
  | entry (s n sp a k v v' todo got rest acc) (hd : s.dead = false) (h : s.pc n = .map sp a ((k, v) :: todo) got rest acc) (hw : (s.maps a).writing = false)
      (hv : Map.get (s.maps a).entries k = some v') :
      Step s none { s with pc := upd s.pc n (.map sp a todo (got ++ [(k, v')]) rest acc) }
  /-- span.go:120: no more keys -/
  | mapEnd (s n sp a got rest acc) (hd : s.dead = false) (h : s.pc n = .map sp a [] got rest acc) (hw : (s.maps a).writing = false) :
      Step s none { s with pc := upd s.pc n (.next sp rest (acc ++ [.map got])) }
  /-- span.go:120: "concurrent map iteration and map write" -/
  | mapFatal (s n sp a todo got rest acc) (hd : s.dead = false) (h : s.pc n = .map sp a todo got rest acc) (hw : (s.maps a).writing = true) :
      Step s none { s with dead := true }
  /-- span.go:123 -/
  | ret (s n sp acc) (hd : s.dead = false) (h : s.pc n = .next sp [] acc) :
      Step s (some (.ret n sp acc)) { s with pc := upd s.pc n .idle }

end Monkit.LiveArgs
