import Verif.Go.Str
import Verif.Model.Basic

/-!
# present/json.go: writing lists; present/stats.go: StatsJSON

present/json.go:174-207, present/stats.go:39-47.  `json.Marshal` is a parameter.  A writer is given by what it does at each call:
it takes everything, or it takes some bytes and fails.
-/

namespace Monkit.ListWriter
open Go

/-- The outcome of one `Write` (io.Writer, used in present/json.go:180-207). -/
inductive WriteResult where
  | ok
  /-- `n` bytes were taken, then error `e` -/
  | fail (n : Nat) (e : Nat)

/-- What the writer does at its `i`th call (io.Writer, used in present/json.go:180-207). -/
abbrev Writer := Nat → WriteResult

/-- An error of the writer or of `json.Marshal` (present/json.go:174-178). -/
inductive Err where
  | write (e : Nat)
  | marshal (e : Nat)
  deriving DecidableEq

/-- The listWriter, with what its writer has taken and how often it was called (present/json.go:174-178). -/
structure State where
  /-- the bytes the writer took -/
  out : Str
  calls : Nat
  err : Option Err
  sep : Str

/-- `fmt.Fprint(w, …)`: one call of `Write` (present/json.go:181-207). -/
def fprint (w : Writer) (s : State) (data : Str) : State :=
  match w s.calls with
  | .ok => { s with out := s.out ++ data, calls := s.calls + 1, err := none }
  | .fail n e => { s with out := s.out ++ data.take n, calls := s.calls + 1, err := some (.write e) }

/-- json.go:180-186 `newListWriter`. -/
def new (w : Writer) : State := fprint w ⟨[], 0, none, b!"\n"⟩ b!"["

/-- json.go:188-199 `elem`. -/
def elem {α : Type} (marshal : α → Except Nat Str) (w : Writer) (s : State) (x : α) : State :=
  match s.err with
  | some _ => s
  | none => match marshal x with
    | .error e => { s with err := some (.marshal e) }
    | .ok data => { fprint w s (s.sep ++ b!" " ++ data) with sep := b!",\n" }

/-- json.go:201-207 `done`: the bytes taken and the error returned. -/
def done (w : Writer) (s : State) : Str × Option Err :=
  match s.err with
  | some e => (s.out, some e)
  | none => ((fprint w s b!"]\n").out, (fprint w s b!"]\n").err)

/-- A list written element by element, as by all users of `listWriter` (present/stats.go:41-47, present/spans.go:130-136,
present/funcs.go:184-190). -/
def writeList {α : Type} (marshal : α → Except Nat Str) (w : Writer) (l : List α) : Str × Option Err :=
  done w (l.foldl (elem marshal w) (new w))

/-- present/stats.go:41-47 `StatsJSON`, for what the registry reports. -/
def statsJSON (marshal : Key × Str × FVal → Except Nat Str) (w : Writer) (stats : List (Key × Str × FVal)) : Str × Option Err :=
  writeList marshal w stats

end Monkit.ListWriter
