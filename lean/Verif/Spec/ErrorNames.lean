import Verif.Model.ErrorNames

/-!
# Specification: the name of an error
-/

namespace Monkit.ErrorNames.Spec
open Go Monkit.ErrorNames

/-- The names of errors that nothing else names: the first line that applies. -/
def table : List ((Err → Bool) × Str) :=
  [ (fun e => e.value = some .eof, b!"EOF"),
    (fun e => e.value = some .unexpectedEOF, b!"Unexpected EOF Error"),
    (fun e => e.value = some .closedPipe, b!"Closed Pipe Error"),
    (fun e => e.value = some .noProgress, b!"No Progress Error"),
    (fun e => e.value = some .shortBuffer, b!"Short Buffer Error"),
    (fun e => e.value = some .shortWrite, b!"Short Write Error"),
    (fun e => e.value = some .canceled, b!"Canceled"),
    (fun e => e.value = some .deadlineExceeded, b!"Timeout"),
    (fun e => e.dyn = .errno, b!"Errno"),
    (fun e => e.dyn = .syscallError, b!"System Error"),
    (fun e => e.dyn = .unknownNetworkError, b!"Unknown Network Error"),
    (fun e => e.dyn = .addrError, b!"Addr Error"),
    (fun e => e.dyn = .invalidAddrError, b!"Invalid Addr Error"),
    (fun e => e.dyn = .opError, b!"Net Op Error"),
    (fun e => e.dyn = .parseError, b!"Net Parse Error"),
    (fun e => e.dyn = .dnsError, b!"DNS Error"),
    (fun e => e.dyn = .dnsConfigError, b!"DNS Config Error"),
    (fun e => e.netError, b!"Network Error"),
    (fun _ => true, b!"System Error") ]

/-- `n` is in the first line of the table that applies to `e`. -/
def InTable (e : Err) (n : Str) : Prop :=
  ∃ above line below, table = above ++ line :: below ∧ (∀ l ∈ above, l.1 e = false) ∧ line.1 e = true ∧ line.2 = n

def Accepts (h : Handler) (e : Err) : Prop := (h e).2 = true

/-- With handlers `hs`, added in this order, `n` is the name of `e`: the one given by the last handler that accepts it; if none does, its
own if it names itself; else the table's. -/
inductive Names (hs : List Handler) (e : Err) : Str → Prop where
  | handler (older : List Handler) (h : Handler) (newer : List Handler) :
      hs = older ++ h :: newer → Accepts h e → (∀ h' ∈ newer, ¬ Accepts h' e) → Names hs e (h e).1
  | self (n : Str) : (∀ h ∈ hs, ¬ Accepts h e) → e.namer = some (n, true) → Names hs e n
  | table (n : Str) : (∀ h ∈ hs, ¬ Accepts h e) → (∀ n', e.namer ≠ some (n', true)) → InTable e n → Names hs e n

/-- The handlers added so far, oldest first. -/
def addedIn (tr : List Ev) : List Handler := tr.filterMap fun
  | .added _ f => some f
  | _ => none

/-- `t` begins no naming in `tr`. -/
def NoCall (t : Nat) (tr : List Ev) : Prop := ∀ e, Ev.call t e ∉ tr

end Monkit.ErrorNames.Spec
