import Verif.Go.Sys

/-!
# Span observers of one trace

trace.go: `ObserveSpansCtx`, the cancel function it returns, and what `getObserver` / `Start` / `Finish`
call.  The observers form a linked list of tuples (ctx.go:332-337); the head and every `cdr` are
atomic pointers.  One step is one atomic access, one mutex operation or one call of an observer.

Tuples are numbered in the order in which they were put into the list.  A tuple that lost its
compare-and-swap was never visible to anyone else and is not represented.
-/

namespace Monkit.Observers
open Go

/-- Position of a goroutine (trace.go:56-106, ctx.go:339-355). -/
inductive PC where
  | idle
  /-- `ObserveSpansCtx`, at the top of its loop (trace.go:77) -/
  | reg
  /-- … has loaded the head (trace.go:78), about to compare and swap (trace.go:79) -/
  | push (existing : Option Nat)
  /-- cancel of tuple `ref` called; about to lock (trace.go:86) -/
  | cwait (ref : Nat)
  /-- `removeObserverFrom(parent, ref)`, about to load `*parent`; `parent` is the head (`none`) or the
  `cdr` of a tuple (trace.go:97) -/
  | cat (ref : Nat) (parent : Option Nat)
  /-- `*parent` was `ref`; about to load `ref.cdr` (trace.go:104-105) -/
  | cfound (ref : Nat) (parent : Option Nat)
  /-- about to compare and swap `*parent` from `ref` to `c` -/
  | ccas (ref : Nat) (parent : Option Nat) (c : Option Nat)
  /-- about to unlock and return -/
  | cdone (ref : Nat)
  /-- `getObserver`, about to load the head (trace.go:57) -/
  | look
  /-- … has loaded tuple `n`, about to load its `cdr` (trace.go:61) -/
  | look2 (n : Nat)
  /-- about to call the observer of tuple `n`; `last`: `getObserver` returned just this one -/
  | call (n : Nat) (last : Bool)
  /-- has called it, about to load its `cdr` (ctx.go:341, ctx.go:351) -/
  | more (n : Nat)
  /-- all calls made -/
  | fin
  deriving DecidableEq

/-- What the outside sees (trace.go:56-106, ctx.go:339-355). -/
inductive Ev where
  /-- goroutine `t` registered an observer, which became number `n` -/
  | registered (t n : Nat)
  /-- `t` called the cancel function of number `n` -/
  | cancelStart (t n : Nat)
  /-- … which returned -/
  | cancelled (t n : Nat)
  /-- `t` started (or finished) a span on the trace -/
  | began (t : Nat)
  /-- … which called observer number `n` -/
  | called (t n : Nat)
  /-- … and was done with the observers -/
  | ended (t : Nat)
  deriving DecidableEq

/-- The list of observers, the mutex and the goroutines (trace.go:38-49, ctx.go:332-337). -/
structure State where
  head : Option Nat
  cdr : Nat → Option Nat
  next : Nat
  mtx : Option Nat
  pc : Nat → PC

/-- The content of a cell: the head or some `cdr` (trace.go:41, ctx.go:336). -/
def State.cell (s : State) : Option Nat → Option Nat
  | none => s.head
  | some k => s.cdr k

/-- Overwrite a cell (trace.go:41, ctx.go:336). -/
def State.setCell (s : State) (v : Option Nat) : Option Nat → State
  | none => { s with head := v }
  | some k => { s with cdr := upd s.cdr k v }

/-- A new trace: no observers (trace.go:52-54). -/
def init : State := ⟨none, fun _ => none, 0, none, fun _ => .idle⟩

/-- One atomic access, one operation on the mutex, or one call of an observer (trace.go:56-106, ctx.go:339-355). -/
inductive Step : State → Option Ev → State → Prop where
  /-- trace.go:77 -/
  | regCall (s : State) (t : Nat) (h : s.pc t = .idle) :
      Step s none { s with pc := upd s.pc t .reg }
  /-- trace.go:78 -/
  | regLoad (s : State) (t : Nat) (h : s.pc t = .reg) :
      Step s none { s with pc := upd s.pc t (.push s.head) }
  /-- trace.go:79-81 -/
  | pushOk (s : State) (t : Nat) (e : Option Nat) (h : s.pc t = .push e) (hc : s.head = e) :
      Step s (some (.registered t s.next))
        { s with cdr := upd s.cdr s.next e, head := some s.next, next := s.next + 1,
                 pc := upd s.pc t .idle }
  | pushFail (s : State) (t : Nat) (e : Option Nat) (h : s.pc t = .push e) (hc : s.head ≠ e) :
      Step s none { s with pc := upd s.pc t .reg }
  /-- trace.go:80: the cancel function of any registered tuple, called by anyone, any number of times -/
  | cancel (s : State) (t ref : Nat) (h : s.pc t = .idle) (hr : ref < s.next) :
      Step s (some (.cancelStart t ref)) { s with pc := upd s.pc t (.cwait ref) }
  /-- trace.go:86 -/
  | lock (s : State) (t ref : Nat) (h : s.pc t = .cwait ref) (free : s.mtx = none) :
      Step s none { s with mtx := some t, pc := upd s.pc t (.cat ref none) }
  /-- trace.go:97-100 -/
  | atNil (s : State) (t ref : Nat) (parent : Option Nat) (h : s.pc t = .cat ref parent)
      (hc : s.cell parent = none) :
      Step s none { s with pc := upd s.pc t (.cdone ref) }
  /-- trace.go:101-103 -/
  | atNext (s : State) (t ref : Nat) (parent : Option Nat) (n : Nat) (h : s.pc t = .cat ref parent)
      (hc : s.cell parent = some n) (hn : n ≠ ref) :
      Step s none { s with pc := upd s.pc t (.cat ref (some n)) }
  | atFound (s : State) (t ref : Nat) (parent : Option Nat) (h : s.pc t = .cat ref parent)
      (hc : s.cell parent = some ref) :
      Step s none { s with pc := upd s.pc t (.cfound ref parent) }
  /-- trace.go:105 -/
  | found (s : State) (t ref : Nat) (parent : Option Nat) (h : s.pc t = .cfound ref parent) :
      Step s none { s with pc := upd s.pc t (.ccas ref parent (s.cdr ref)) }
  /-- trace.go:104 -/
  | casOk (s : State) (t ref : Nat) (parent c : Option Nat) (h : s.pc t = .ccas ref parent c)
      (hc : s.cell parent = some ref) :
      Step s none { s.setCell c parent with pc := upd s.pc t (.cdone ref) }
  /-- trace.go:88-92: failed, start again -/
  | casFail (s : State) (t ref : Nat) (parent c : Option Nat) (h : s.pc t = .ccas ref parent c)
      (hc : s.cell parent ≠ some ref) :
      Step s none { s with pc := upd s.pc t (.cat ref none) }
  /-- trace.go:87 -/
  | unlock (s : State) (t ref : Nat) (h : s.pc t = .cdone ref) :
      Step s (some (.cancelled t ref)) { s with mtx := none, pc := upd s.pc t .idle }
  /-- ctx.go:85 / ctx.go:150 -/
  | begin (s : State) (t : Nat) (h : s.pc t = .idle) :
      Step s (some (.began t)) { s with pc := upd s.pc t .look }
  /-- trace.go:57-60 -/
  | lookNil (s : State) (t : Nat) (h : s.pc t = .look) (hc : s.head = none) :
      Step s none { s with pc := upd s.pc t .fin }
  | lookSome (s : State) (t n : Nat) (h : s.pc t = .look) (hc : s.head = some n) :
      Step s none { s with pc := upd s.pc t (.look2 n) }
  /-- trace.go:61-64 -/
  | look2 (s : State) (t n : Nat) (h : s.pc t = .look2 n) :
      Step s none { s with pc := upd s.pc t (.call n (decide (s.cdr n = none))) }
  /-- ctx.go:109, 151, 340, 350 -/
  | call (s : State) (t n : Nat) (last : Bool) (h : s.pc t = .call n last) :
      Step s (some (.called t n)) { s with pc := upd s.pc t (if last then .fin else .more n) }
  /-- ctx.go:341-344, 351-354 -/
  | moreNil (s : State) (t n : Nat) (h : s.pc t = .more n) (hc : s.cdr n = none) :
      Step s none { s with pc := upd s.pc t .fin }
  | moreNext (s : State) (t n m : Nat) (h : s.pc t = .more n) (hc : s.cdr n = some m) :
      Step s none { s with pc := upd s.pc t (.call m false) }
  | finish (s : State) (t : Nat) (h : s.pc t = .fin) :
      Step s (some (.ended t)) { s with pc := upd s.pc t .idle }

end Monkit.Observers
