import Verif.Model.ListWriter

/-!
# present/path.go: buffering of results

present/path.go:87-102, the deferred function of `FromRequest`, with `bufio.Writer` of the Go library (bufio.go: `NewWriter`, `Write`, `Flush`),
which has room for 4096 bytes.
-/

namespace Monkit.Buffered
open Go
open Monkit.ListWriter (Writer WriteResult)

/-- A `bufio.Writer` and the writer below it (bufio, used in present/path.go:94). -/
structure Buf where
  /-- the bytes the writer below took -/
  out : Str
  /-- how often the writer below was called -/
  calls : Nat
  /-- `b.err` -/
  err : Option Nat
  /-- `b.buf[:b.n]` -/
  buf : Str
  deriving DecidableEq

/-- `defaultBufSize` (bufio, used in present/path.go:94). -/
def size : Nat := 4096

/-- `bufio.NewWriter(w)` (present/path.go:94). -/
def Buf.new : Buf := ⟨[], 0, none, []⟩

/-- `b.wr.Write(p)`, with its error stored in `b.err` (bufio, used in present/path.go:94-99). -/
def direct (w : Writer) (b : Buf) (p : Str) : Buf :=
  match w b.calls with
  | .ok => { b with out := b.out ++ p, calls := b.calls + 1 }
  | .fail n e => { b with out := b.out ++ p.take n, calls := b.calls + 1, err := some e }

/-- bufio.go `Flush`; what the writer below did not take stays in the buffer.  The error returned is `b.err` (present/path.go:99). -/
def flush (w : Writer) (b : Buf) : Buf :=
  if b.err ≠ none then b
  else if b.buf = [] then b
  else match w b.calls with
    | .ok => { b with out := b.out ++ b.buf, calls := b.calls + 1, buf := [] }
    | .fail n e => { b with out := b.out ++ b.buf.take n, calls := b.calls + 1, buf := b.buf.drop n, err := some e }

/-- bufio.go `Write`: the loop runs as long as `p` does not fit, which is at most twice: first the buffer is filled and flushed, then `p` is
written without a copy.  The error returned is `b.err` (bufio, used in present/path.go:95). -/
def write (w : Writer) (b : Buf) (p : Str) : Buf :=
  if b.err ≠ none then b
  else if p.length ≤ size - b.buf.length then { b with buf := b.buf ++ p }
  else if b.buf = [] then direct w b p
  else
    let n := size - b.buf.length
    let b := flush w { b with buf := b.buf ++ p.take n }
    if b.err ≠ none then b
    else if (p.drop n).length ≤ size then { b with buf := p.drop n }
    else direct w b (p.drop n)

/-- A presenter: it returns, or writes something and goes on depending on the error it gets (present/path.go:41, 92). -/
inductive Prog where
  | ret (err : Option Nat)
  | write (data : Str) (k : Option Nat → Prog)

/-- The presenter at work on a buffered writer: the buffer afterwards and the error returned (present/path.go:95). -/
def Prog.run (w : Writer) (b : Buf) : Prog → Buf × Option Nat
  | .ret e => (b, e)
  | .write d k => (k (Buffered.write w b d).err).run w (Buffered.write w b d)

/-- path.go:93-101: the result, with buffering. -/
def result (w : Writer) (p : Prog) : Buf × Option Nat :=
  match p.run w .new with
  | (b, some e) => (b, some e)
  | (b, none) => (flush w b, (flush w b).err)

/-- path.go:227-230: `n` pings of `keepAlive`, each of which writes a newline. -/
def pings (w : Writer) (b : Buf) : Nat → Buf
  | 0 => b
  | n + 1 => pings w (write w b b!"\n") n

end Monkit.Buffered
