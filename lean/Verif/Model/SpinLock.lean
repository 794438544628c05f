import Verif.Go.Mutex

/-!
# spinlock.go

spinlock.go:22-35.  Objects whose methods are bracketed by `Lock` and `Unlock` of a `spinLock`, one step being one access to shared memory.
 The atomic
operations of sync/atomic are taken to be indivisible and sequentially consistent.  Each goroutine calls `Unlock` only after its `Lock` has
returned, as
Span does.
-/

namespace Monkit.Spin
open Go.Mutex
variable {S L Op Ret : Type}

/-- Where a goroutine is (spinlock.go:24-35). -/
inductive PC (S L Op : Type) where
  | idle
  /-- spinlock.go:26 about to try -/
  | trying (op : Op)
  /-- spinlock.go:29 in `runtime.Gosched()` -/
  | yielding (op : Op)
  /-- `Lock` has returned -/
  | inside (op : Op) (rest : List (S × L → S × L)) (l : L)

/-- The lock word, the object it protects, and the goroutines (spinlock.go:22). -/
structure Config (S L Op : Type) where
  sh : S
  /-- spinlock.go:22: the value of the spinLock -/
  word : UInt32
  thr : Nat → PC S L Op

/-- One access to shared memory (spinlock.go:24-35). -/
inductive Step (o : Obj S L Op Ret) : Config S L Op → Option (Event Op Ret) → Config S L Op → Prop where
  | call (c : Config S L Op) (t : Nat) (op : Op) (h : c.thr t = .idle) : Step o c (some (.call t op)) { c with thr := upd c.thr t (.trying op) }
  /-- spinlock.go:26-27: the word was 0 and is now 1 -/
  | swap (c : Config S L Op) (t : Nat) (op : Op) (h : c.thr t = .trying op) (hw : c.word = 0) :
      Step o c (some (.acquire t)) { c with word := 1, thr := upd c.thr t (.inside op (o.body op) (o.enter op)) }
  /-- spinlock.go:26: the word was not 0 -/
  | fail (c : Config S L Op) (t : Nat) (op : Op) (h : c.thr t = .trying op) (hw : c.word ≠ 0) :
      Step o c none { c with thr := upd c.thr t (.yielding op) }
  /-- spinlock.go:29 -/
  | again (c : Config S L Op) (t : Nat) (op : Op) (h : c.thr t = .yielding op) : Step o c none { c with thr := upd c.thr t (.trying op) }
  | access (c : Config S L Op) (t : Nat) (op : Op) (f : S × L → S × L) (rest : List (S × L → S × L)) (l : L) (h : c.thr t = .inside op (f :: rest) l) :
      Step o c none { c with sh := (f (c.sh, l)).1, thr := upd c.thr t (.inside op rest (f (c.sh, l)).2) }
  /-- spinlock.go:33-35 -/
  | unlock (c : Config S L Op) (t : Nat) (op : Op) (l : L) (h : c.thr t = .inside op [] l) :
      Step o c (some (.ret t (o.result op l))) { c with word := 0, thr := upd c.thr t .idle }

/-- The zero value is an unlocked lock (spinlock.go:22). -/
def init (s : S) : Config S L Op := ⟨s, 0, fun _ => .idle⟩

/-- Every finite schedule (spinlock.go:24-35). -/
inductive Exec (o : Obj S L Op Ret) (s₀ : S) : List (Event Op Ret) → Config S L Op → Prop where
  | start : Exec o s₀ [] (init s₀)
  | step {tr c c'} (e : Option (Event Op Ret)) (h : Exec o s₀ tr c) (st : Step o c e c') : Exec o s₀ (tr ++ e.toList) c'

end Monkit.Spin
