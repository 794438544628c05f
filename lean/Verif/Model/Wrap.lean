import Verif.Go.Str

/-!
# http/http.go: the response writer that remembers the status code

http/http.go:29-72, http/server.go:62-72.  The writer it wraps is that of net/http, by its documented contract: the first
`WriteHeader` with a final code decides what is sent, later ones are ignored; informational codes (100-199 except 101) are sent at
once and decide nothing; `Write`, `Flush` and the end of the handler send 200 if nothing was decided.  A code that is no status code (below 100 or above 999)
makes net/http's `WriteHeader` panic; this is left out here, it is a panic of the handler (Model/TraceHttp).
-/

namespace Monkit.Wrap

/-- What a handler does with its writer (http/http.go:29-72). -/
inductive Op where
  | writeHeader (code : Int)
  | write
  /-- goes to the wrapped writer directly (http/http.go:34-41) -/
  | flush
  deriving DecidableEq

/-- net/http: an informational code (net/http, used in http/http.go:51-61). -/
def informational (code : Int) : Bool := decide (100 ≤ code ∧ code ≤ 199 ∧ code ≠ 101)

/-- The observer, and what the writer below has done (http/http.go:46-49). -/
structure State where
  /-- the final code sent to the client -/
  sent : Option Int
  /-- `observer.sc` -/
  sc : Int

/-- Nothing written (http/http.go:30-32). -/
def State.init : State := ⟨none, 0⟩

/-- net/http's `WriteHeader` (net/http, used in http/http.go:51-54). -/
def netWriteHeader (sent : Option Int) (code : Int) : Option Int :=
  match sent with
  | some c => some c
  | none => if informational code then none else some code

/-- One thing the handler does (http/http.go:29-72). -/
def step (s : State) : Op → State
  /- http/http.go:51-54 -/
  | .writeHeader code => ⟨netWriteHeader s.sent code, code⟩
  /- http/http.go:56-61 -/
  | .write => ⟨netWriteHeader s.sent 200, if s.sc = 0 then 200 else s.sc⟩
  | .flush => ⟨netWriteHeader s.sent 200, s.sc⟩

/-- What a handler does (http/http.go:29-72). -/
def run (ops : List Op) : State := ops.foldl step .init

/-- The code the client got, once the handler has returned (net/http, used in http/http.go:51-61). -/
def sentCode (ops : List Op) : Int := (run ops).sent.getD 200

/-- http/http.go:67-72 `StatusCode`, as recorded by http/server.go:71. -/
def recorded (ops : List Op) : Int := if (run ops).sc = 0 then 200 else (run ops).sc

end Monkit.Wrap
