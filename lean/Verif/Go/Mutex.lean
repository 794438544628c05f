/-!
# Objects protected by a mutex, at the granularity of individual memory accesses

Models the pattern used by `Counter`, `IntVal`, `Timer`, `Meter`, `FuncStats` and others:

```go
func (o *T) Method(args) (ret) { o.mtx.Lock(); …accesses…; o.mtx.Unlock(); return ret }
```

Every goroutine may call any method at any time; between any two memory accesses of one goroutine
any other goroutine may run.  `sync.Mutex` is modelled by its contract: `Lock` can only complete
when nobody holds the lock.
-/

namespace Go.Mutex

/-- A mutex-protected type.  `S` is the shared state, `L` the local variables of a call. `enter`
gives the locals at the start of a call, `body` the accesses between `Lock` and `Unlock` (each may
read and write both shared state and locals), `result` what is returned. -/
structure Obj (S L Op Ret : Type) where
  enter : Op → L
  body : Op → List (S × L → S × L)
  result : Op → L → Ret

variable {S L Op Ret : Type}

/-- Executing a call alone, from start to end. -/
def Obj.exec (o : Obj S L Op Ret) (s : S) (op : Op) : S × Ret :=
  let x := (o.body op).foldl (fun x f => f x) (s, o.enter op)
  (x.1, o.result op x.2)

/-- Where a goroutine is: not in a call; called and waiting for the lock; inside the critical
section with some accesses left to do. -/
inductive PC (S L Op : Type) where
  | idle
  | waiting (op : Op)
  | inside (op : Op) (rest : List (S × L → S × L)) (l : L)

/-- The whole system: shared state, whether the mutex is held, and every goroutine's position.
Goroutines are numbered by natural numbers; their number is not bounded. -/
structure Config (S L Op : Type) where
  sh : S
  held : Bool
  thr : Nat → PC S L Op

/-- Observable events: a call begins, a call acquires the lock, a call returns. -/
inductive Event (Op Ret : Type) where
  | call (t : Nat) (op : Op)
  | acquire (t : Nat)
  | ret (t : Nat) (r : Ret)

/-- Function update. -/
def upd {α : Type} (f : Nat → α) (t : Nat) (v : α) : Nat → α := fun t' => if t' = t then v else f t'

@[simp] theorem upd_same {α : Type} (f : Nat → α) (t : Nat) (v : α) : upd f t v t = v := by
  simp [upd]

theorem upd_other {α : Type} (f : Nat → α) {t t' : Nat} (v : α) (h : t' ≠ t) :
    upd f t v t' = f t' := by
  simp [upd, h]

/-- One step of one goroutine. -/
inductive Step (o : Obj S L Op Ret) :
    Config S L Op → Option (Event Op Ret) → Config S L Op → Prop where
  | call (c : Config S L Op) (t : Nat) (op : Op) (h : c.thr t = .idle) :
      Step o c (some (.call t op)) { c with thr := upd c.thr t (.waiting op) }
  | lock (c : Config S L Op) (t : Nat) (op : Op) (h : c.thr t = .waiting op)
      (free : c.held = false) :
      Step o c (some (.acquire t))
        { c with held := true, thr := upd c.thr t (.inside op (o.body op) (o.enter op)) }
  | access (c : Config S L Op) (t : Nat) (op : Op) (f : S × L → S × L)
      (rest : List (S × L → S × L)) (l : L) (h : c.thr t = .inside op (f :: rest) l) :
      Step o c none
        { c with sh := (f (c.sh, l)).1, thr := upd c.thr t (.inside op rest (f (c.sh, l)).2) }
  | unlock (c : Config S L Op) (t : Nat) (op : Op) (l : L) (h : c.thr t = .inside op [] l) :
      Step o c (some (.ret t (o.result op l)))
        { c with held := false, thr := upd c.thr t .idle }

/-- The initial configuration. -/
def Config.init (s : S) : Config S L Op := ⟨s, false, fun _ => .idle⟩

/-- Executions: every finite schedule, with the events it produces (oldest first). -/
inductive Exec (o : Obj S L Op Ret) (s₀ : S) : List (Event Op Ret) → Config S L Op → Prop where
  | start : Exec o s₀ [] (Config.init s₀)
  | step {tr c c'} (e : Option (Event Op Ret)) (h : Exec o s₀ tr c) (st : Step o c e c') :
      Exec o s₀ (tr ++ e.toList) c'

/-! ## Specification: the atomic object

The specification is an object whose calls take effect in one indivisible step, at some moment
between call and return.  A trace accepted by it is linearizable, the linearization points being
the `acquire` events. -/

/-- Where a goroutine is, as seen by the atomic object. -/
inductive APC (Op Ret : Type) where
  | idle
  | called (op : Op)
  | done (r : Ret)

/-- `Atomic exec s₀ tr s pcs`: the atomic object, whose calls are executed by `exec`, accepts the
trace `tr` and is then in state `s`. -/
inductive Atomic (exec : S → Op → S × Ret) (s₀ : S) :
    List (Event Op Ret) → S → (Nat → APC Op Ret) → Prop where
  | start : Atomic exec s₀ [] s₀ (fun _ => .idle)
  | call {tr s p} (t : Nat) (op : Op) (h : Atomic exec s₀ tr s p) (hp : p t = .idle) :
      Atomic exec s₀ (tr ++ [.call t op]) s (upd p t (.called op))
  | effect {tr s p} (t : Nat) (op : Op) (h : Atomic exec s₀ tr s p) (hp : p t = .called op) :
      Atomic exec s₀ (tr ++ [.acquire t]) (exec s op).1 (upd p t (.done (exec s op).2))
  | ret {tr s p} (t : Nat) (r : Ret) (h : Atomic exec s₀ tr s p) (hp : p t = .done r) :
      Atomic exec s₀ (tr ++ [.ret t r]) s (upd p t .idle)

/-- Running calls one after another: final state and results. -/
def seqRun (exec : S → Op → S × Ret) (s : S) : List Op → S × List Ret
  | [] => (s, [])
  | op :: ops => ((seqRun exec (exec s op).1 ops).1, (exec s op).2 :: (seqRun exec (exec s op).1 ops).2)

/-- The calls goroutine `t` made, in order. -/
def callsOf (t : Nat) (tr : List (Event Op Ret)) : List Op :=
  tr.filterMap fun e => match e with
    | .call t' op => if t' = t then some op else none
    | _ => none

/-- What goroutine `t`'s calls returned, in order. -/
def retsOf (t : Nat) (tr : List (Event Op Ret)) : List Ret :=
  tr.filterMap fun e => match e with
    | .ret t' r => if t' = t then some r else none
    | _ => none

end Go.Mutex
