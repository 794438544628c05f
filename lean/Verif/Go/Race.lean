import Verif.Go.Sys

/-!
# Locks, `sync.Once`, atomic operations and data races

The parts of a program that matter for data races: which variables a goroutine reads and writes, plainly or atomically, and which locks it
holds then.  Values are left out, so every branch of an `if` can be taken and every loop can end after any number of rounds.  Variables
and locks are named by a kind and the number of the object they belong to; code names objects by roles, which a call fills in.
-/

namespace Go.Race

/-- Code, for kinds of locks `K` and kinds of variables `V`; the number is the role of the object. -/
inductive Cmd (K V : Type) where
  | skip
  | lock (k : K) (r : Nat)
  | unlock (k : K) (r : Nat)
  | rlock (k : K) (r : Nat)
  | runlock (k : K) (r : Nat)
  /-- `sync.Once.Do` -/
  | once (k : K) (r : Nat) (body : Cmd K V)
  /-- the end of the function given to `Do` -/
  | publish (k : K) (r : Nat)
  | read (v : V) (r : Nat)
  | write (v : V) (r : Nat)
  | atomic (v : V) (r : Nat)
  /-- from here on the role stands for another object -/
  | pick (r : Nat)
  | seq (a b : Cmd K V)
  | choice (a b : Cmd K V)
  | loop (a : Cmd K V)
  deriving DecidableEq

/-- The state of a lock: who holds it alone, how often each goroutine holds it with others, and, for a `Once`, whether it is done. -/
structure Lock where
  writer : Option Nat
  readers : Nat → Nat
  done : Bool

/-- A goroutine: what it has yet to do, and the objects of its call. -/
structure Thread (K V : Type) where
  todo : List (Cmd K V)
  obj : Nat → Nat

structure State (K V : Type) where
  locks : K → Nat → Lock
  thr : Nat → Thread K V

variable {K V : Type} [DecidableEq K] [DecidableEq V]

/-- Changes one lock. -/
def setLock (s : K → Nat → Lock) (k : K) (o : Nat) (l : Lock) : K → Nat → Lock := fun k' o' => if k' = k ∧ o' = o then l else s k' o'

/-- Goroutine `i` goes on with `todo`. -/
def State.goto (s : State K V) (i : Nat) (todo : List (Cmd K V)) : State K V := { s with thr := upd s.thr i ⟨todo, (s.thr i).obj⟩ }

/-- Goroutine `i` goes on with `todo` after changing a lock. -/
def State.set (s : State K V) (i : Nat) (k : K) (o : Nat) (l : Lock) (todo : List (Cmd K V)) : State K V :=
  { s.goto i todo with locks := setLock s.locks k o l }

/-- The steps of the goroutines, for a program that consists of these methods. -/
inductive Step (methods : List (Cmd K V)) (s : State K V) : Option Empty → State K V → Prop where
  | call (i : Nat) (m : Cmd K V) (obj : Nat → Nat) (hm : m ∈ methods) (h : (s.thr i).todo = []) :
      Step methods s none { s with thr := upd s.thr i ⟨[m], obj⟩ }
  | skip (i : Nat) (c : List (Cmd K V)) (h : (s.thr i).todo = .skip :: c) : Step methods s none (s.goto i c)
  | pick (i : Nat) (r o : Nat) (c : List (Cmd K V)) (h : (s.thr i).todo = .pick r :: c) :
      Step methods s none { s with thr := upd s.thr i ⟨c, upd (s.thr i).obj r o⟩ }
  | seq (i : Nat) (a b : Cmd K V) (c : List (Cmd K V)) (h : (s.thr i).todo = .seq a b :: c) : Step methods s none (s.goto i (a :: b :: c))
  | left (i : Nat) (a b : Cmd K V) (c : List (Cmd K V)) (h : (s.thr i).todo = .choice a b :: c) : Step methods s none (s.goto i (a :: c))
  | right (i : Nat) (a b : Cmd K V) (c : List (Cmd K V)) (h : (s.thr i).todo = .choice a b :: c) : Step methods s none (s.goto i (b :: c))
  | again (i : Nat) (a : Cmd K V) (c : List (Cmd K V)) (h : (s.thr i).todo = .loop a :: c) : Step methods s none (s.goto i (a :: .loop a :: c))
  | leave (i : Nat) (a : Cmd K V) (c : List (Cmd K V)) (h : (s.thr i).todo = .loop a :: c) : Step methods s none (s.goto i c)
  | read (i : Nat) (v : V) (r : Nat) (c : List (Cmd K V)) (h : (s.thr i).todo = .read v r :: c) : Step methods s none (s.goto i c)
  | write (i : Nat) (v : V) (r : Nat) (c : List (Cmd K V)) (h : (s.thr i).todo = .write v r :: c) : Step methods s none (s.goto i c)
  | atomic (i : Nat) (v : V) (r : Nat) (c : List (Cmd K V)) (h : (s.thr i).todo = .atomic v r :: c) : Step methods s none (s.goto i c)
  | lock (i : Nat) (k : K) (r : Nat) (c : List (Cmd K V)) (h : (s.thr i).todo = .lock k r :: c) (l : Lock)
      (hl : s.locks k ((s.thr i).obj r) = l) (hw : l.writer = none) (hr : ∀ j, l.readers j = 0) (hd : l.done = false) :
      Step methods s none (s.set i k ((s.thr i).obj r) { l with writer := some i } c)
  | unlock (i : Nat) (k : K) (r : Nat) (c : List (Cmd K V)) (h : (s.thr i).todo = .unlock k r :: c) (l : Lock)
      (hl : s.locks k ((s.thr i).obj r) = l) :
      Step methods s none (s.set i k ((s.thr i).obj r) { l with writer := none } c)
  | rlock (i : Nat) (k : K) (r : Nat) (c : List (Cmd K V)) (h : (s.thr i).todo = .rlock k r :: c) (l : Lock)
      (hl : s.locks k ((s.thr i).obj r) = l) (hw : l.writer = none) :
      Step methods s none (s.set i k ((s.thr i).obj r) { l with readers := upd l.readers i (l.readers i + 1) } c)
  | runlock (i : Nat) (k : K) (r : Nat) (c : List (Cmd K V)) (h : (s.thr i).todo = .runlock k r :: c) (l : Lock)
      (hl : s.locks k ((s.thr i).obj r) = l) :
      Step methods s none (s.set i k ((s.thr i).obj r) { l with readers := upd l.readers i (l.readers i - 1) } c)
  | onceFirst (i : Nat) (k : K) (r : Nat) (body : Cmd K V) (c : List (Cmd K V)) (h : (s.thr i).todo = .once k r body :: c) (l : Lock)
      (hl : s.locks k ((s.thr i).obj r) = l) (hw : l.writer = none) (hr : ∀ j, l.readers j = 0) (hd : l.done = false) :
      Step methods s none (s.set i k ((s.thr i).obj r) { l with writer := some i } (body :: .publish k r :: c))
  | onceDone (i : Nat) (k : K) (r : Nat) (body : Cmd K V) (c : List (Cmd K V)) (h : (s.thr i).todo = .once k r body :: c)
      (hd : (s.locks k ((s.thr i).obj r)).done = true) : Step methods s none (s.goto i c)
  | publish (i : Nat) (k : K) (r : Nat) (c : List (Cmd K V)) (h : (s.thr i).todo = .publish k r :: c) (l : Lock)
      (hl : s.locks k ((s.thr i).obj r) = l) :
      Step methods s none (s.set i k ((s.thr i).obj r) { l with writer := none, done := true } c)

/-- No goroutine does anything and no lock is held. -/
def init : State K V := ⟨fun _ _ => ⟨none, fun _ => 0, false⟩, fun _ => ⟨[], fun _ => 0⟩⟩

/-- How an access is made. -/
inductive How where
  | read | write | atomic
  deriving DecidableEq

/-- What goroutine `i` is about to access. -/
def State.next (s : State K V) (i : Nat) : Option (How × V × Nat) :=
  match (s.thr i).todo with
  | .read v r :: _ => some (.read, v, (s.thr i).obj r)
  | .write v r :: _ => some (.write, v, (s.thr i).obj r)
  | .atomic v r :: _ => some (.atomic, v, (s.thr i).obj r)
  | _ => none

/-- Two accesses conflict unless both only read or both are atomic. -/
def Conflict (a b : How) : Prop := ¬ (a = .read ∧ b = .read) ∧ ¬ (a = .atomic ∧ b = .atomic)

instance (a b : How) : Decidable (Conflict a b) := by unfold Conflict; infer_instance

/-- A data race on variables of the kind `v`: two goroutines are about to make conflicting accesses to the same one. -/
def RacingOn (s : State K V) (v : V) : Prop := ∃ i j o a b, i ≠ j ∧ s.next i = some (a, v, o) ∧ s.next j = some (b, v, o) ∧ Conflict a b

/-- A state that a program of these methods can reach. -/
def Reach (methods : List (Cmd K V)) (s : State K V) : Prop := ∃ tr, Exec (Step methods) init tr s

/-- Goroutine `j` holds the lock. -/
def Holder (s : State K V) (k : K) (o j : Nat) : Prop := (s.locks k o).writer = some j ∨ (s.locks k o).readers j ≠ 0

/-- Goroutine `i` cannot go on before goroutine `j` does: `j` holds the lock, or runs the function of the `Once`, or waits to write while `i` wants to read (writers go first). -/
def WaitsFor (s : State K V) (i j : Nat) : Prop :=
  match (s.thr i).todo with
  | .lock k r :: _ => Holder s k ((s.thr i).obj r) j
  | .rlock k r :: _ => (s.locks k ((s.thr i).obj r)).writer = some j ∨ ∃ r' c, (s.thr j).todo = .lock k r' :: c ∧ (s.thr j).obj r' = (s.thr i).obj r
  | .once k r _ :: _ => (s.locks k ((s.thr i).obj r)).writer = some j
  | _ => False

/-- Goroutine `j` can go on: it waits for nobody and it has a step. -/
def CanGo (methods : List (Cmd K V)) (s : State K V) (j : Nat) : Prop :=
  (∀ i, ¬ WaitsFor s j i) ∧ ∃ s', Step methods s none s' ∧ s'.thr j ≠ s.thr j ∧ ∀ i, i ≠ j → s'.thr i = s.thr i

/-- Whoever has called a function can go on, or waits, perhaps through others, for one that can. -/
inductive Progresses (methods : List (Cmd K V)) (s : State K V) : Nat → Prop where
  | now (i : Nat) (h : CanGo methods s i) : Progresses methods s i
  | later (i j : Nat) (h : WaitsFor s i j) (hj : Progresses methods s j) : Progresses methods s i

end Go.Race
