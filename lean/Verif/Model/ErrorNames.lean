import Verif.Go.Sys
import Verif.Go.Slice

/-!
# error_names.go, error_names_net.go, error_names_syscall.go: naming errors

error_names.go:26-97, error_names_net.go:26-47, error_names_syscall.go:22-25, used by any number of goroutines.  The variants for
App Engine and TinyGo are in ErrorBuilds.  Handlers are total functions of the error.
-/

namespace Monkit.ErrorNames
open Go

/-- The variables of io and context the code compares an error with (error_names.go:70-87). -/
inductive Sentinel where
  | eof | unexpectedEOF | closedPipe | noProgress | shortBuffer | shortWrite | canceled | deadlineExceeded
  deriving DecidableEq

/-- The dynamic types the code asks for (error_names_net.go:27-45, error_names_syscall.go:23). -/
inductive Dyn where
  | errno | syscallError | unknownNetworkError | addrError | invalidAddrError | opError | parseError | dnsError | dnsConfigError | other
  deriving DecidableEq

/-- An error value, as far as the code can look at it (error_names.go:49-97). -/
structure Err where
  /-- What `Name()` returns, if the error has that method. -/
  namer : Option (Str × Bool)
  /-- The variable it is equal to, if any. -/
  value : Option Sentinel
  dyn : Dyn
  /-- It implements `net.Error`. -/
  netError : Bool
  /-- Anything else handlers may see. -/
  info : Nat

/-- `func(error) (string, bool)` (error_names.go:38). -/
abbrev Handler := Err → Str × Bool

/-- error_names_net.go:26-47 `getNetErrorName`. -/
def netErrorName (e : Err) : Str :=
  match e.dyn with
  | .syscallError => b!""
  | .unknownNetworkError => b!"Unknown Network Error"
  | .addrError => b!"Addr Error"
  | .invalidAddrError => b!"Invalid Addr Error"
  | .opError => b!"Net Op Error"
  | .parseError => b!"Net Parse Error"
  | .dnsError => b!"DNS Error"
  | .dnsConfigError => b!"DNS Config Error"
  | _ => if e.netError then b!"Network Error" else b!""

/-- error_names.go:69-96: what follows the namers. -/
def builtin (e : Err) : Str :=
  match e.value with
  | some .eof => b!"EOF"
  | some .unexpectedEOF => b!"Unexpected EOF Error"
  | some .closedPipe => b!"Closed Pipe Error"
  | some .noProgress => b!"No Progress Error"
  | some .shortBuffer => b!"Short Buffer Error"
  | some .shortWrite => b!"Short Write Error"
  | some .canceled => b!"Canceled"
  | some .deadlineExceeded => b!"Timeout"
  | none =>
    if e.dyn = .errno then b!"Errno"
    else if netErrorName e ≠ [] then netErrorName e
    else b!"System Error"

/-- error_names.go:58-96: what follows the handlers. -/
def fallback (e : Err) : Str :=
  match e.namer with
  | some (name, true) => name
  | _ => builtin e

/-- Where a goroutine is (error_names.go:38-56). -/
inductive PC where
  | idle
  -- AddErrorNameHandler, error_names.go:38-45
  | aLock (f : Handler)
  | aLoad (f : Handler)
  | aAppend (f : Handler) (sl : Slice)
  | aStore (f : Handler) (sl : Slice)
  | aUnlock
  -- getErrorName, 49-97
  | nLoad (e : Err)
  /-- the next index is `i - 1` -/
  | nLoop (e : Err) (sl : Slice) (i : Nat)
  | nRet (e : Err) (name : Str)
  /-- calling a nil function, or an index out of range -/
  | panicked

/-- What can be seen (error_names.go:38-97). -/
inductive Ev where
  | add (t : Nat) (f : Handler)
  /-- the new list of handlers is stored -/
  | added (t : Nat) (f : Handler)
  | addRet (t : Nat)
  | call (t : Nat) (e : Err)
  /-- the list of handlers is loaded -/
  | loaded (t : Nat)
  | named (t : Nat) (e : Err) (name : Str)

/-- The list of handlers, its mutex, and the goroutines (error_names.go:26-29). -/
structure State where
  /-- the backing arrays; a place never written holds nil -/
  heap : Arrays (Option Handler)
  /-- `errorNameHandlers.value`; a value never stored gives the nil slice -/
  value : Slice
  /-- `errorNameHandlers.write_mu` -/
  lock : Option Nat
  pc : Nat → PC

/-- No handlers (error_names.go:26-29). -/
def State.init : State := ⟨[], Slice.nil, none, fun _ => .idle⟩

/-- One statement (error_names.go:38-97). -/
inductive Step : State → Option Ev → State → Prop where
  | add (s : State) (t f) : s.pc t = .idle → Step s (some (.add t f)) { s with pc := upd s.pc t (.aLock f) }
  | aLock (s : State) (t f) : s.pc t = .aLock f → s.lock = none → Step s none { s with lock := some t, pc := upd s.pc t (.aLoad f) }
  | aLoad (s : State) (t f) : s.pc t = .aLoad f → Step s none { s with pc := upd s.pc t (.aAppend f s.value) }
  /-- `append(handlers, f)`: in place if there is room, else into a new array of a size the runtime chooses -/
  | aAppend (s : State) (t f sl grow) : s.pc t = .aAppend f sl →
      Step s none { s with heap := (Arrays.append none s.heap sl [some f] grow).1, pc := upd s.pc t (.aStore f (Arrays.append none s.heap sl [some f] grow).2) }
  | aStore (s : State) (t f sl) : s.pc t = .aStore f sl → Step s (some (.added t f)) { s with value := sl, pc := upd s.pc t .aUnlock }
  | aUnlock (s : State) (t) : s.pc t = .aUnlock → Step s (some (.addRet t)) { s with lock := none, pc := upd s.pc t .idle }
  | call (s : State) (t e) : s.pc t = .idle → Step s (some (.call t e)) { s with pc := upd s.pc t (.nLoad e) }
  | nLoad (s : State) (t e) : s.pc t = .nLoad e → Step s (some (.loaded t)) { s with pc := upd s.pc t (.nLoop e s.value s.value.len) }
  | nAccept (s : State) (t e sl i f) : s.pc t = .nLoop e sl (i + 1) → (s.heap.array sl.arr)[i]? = some (some f) → (f e).2 = true →
      Step s none { s with pc := upd s.pc t (.nRet e (f e).1) }
  | nReject (s : State) (t e sl i f) : s.pc t = .nLoop e sl (i + 1) → (s.heap.array sl.arr)[i]? = some (some f) → (f e).2 = false →
      Step s none { s with pc := upd s.pc t (.nLoop e sl i) }
  | nPanic (s : State) (t e sl i) : s.pc t = .nLoop e sl (i + 1) → (∀ f, (s.heap.array sl.arr)[i]? ≠ some (some f)) →
      Step s none { s with pc := upd s.pc t .panicked }
  | nEnd (s : State) (t e sl) : s.pc t = .nLoop e sl 0 → Step s none { s with pc := upd s.pc t (.nRet e (fallback e)) }
  | nRet (s : State) (t e n) : s.pc t = .nRet e n → Step s (some (.named t e n)) { s with pc := upd s.pc t .idle }

end Monkit.ErrorNames
