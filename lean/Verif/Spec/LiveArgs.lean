import Verif.Model.LiveArgs

/-!
# What a listing of the arguments of a span has to show

In terms of the events only: what the memory holds after some events, and when what `Args` showed is what the arguments were.
-/

namespace Monkit.LiveArgs
open Go

/-- What an event does to the bytes. -/
def setBytes (b : Nat → List UInt8) : Ev → Nat → List UInt8
  | .set _ a i v => upd b a ((b a).set i v)
  | _ => b

/-- The bytes at `a` after the events, if they were `b` at first. -/
def bytesAt (b : Nat → List UInt8) (a : Nat) : List Ev → List UInt8
  | [] => b a
  | e :: es => bytesAt (setBytes b e) a es

/-- What an event does to the maps. -/
def setMap (m : Nat → Map Str Nat) : Ev → Nat → Map Str Nat
  | .putEnd _ a k v => upd m a (Map.set (m a) k v)
  | _ => m

/-- The map at `a` after the events, if it was `m` at first. -/
def mapAt (m : Nat → Map Str Nat) (a : Nat) : List Ev → Map Str Nat
  | [] => m a
  | e :: es => mapAt (setMap m e) a es

/-- The event writes to the memory the argument refers to. -/
def Touches : Ev → Arg → Prop
  | .set _ a _ _, .bytes b => a = b
  | .putBegin _ a _ _, .map b => a = b
  | .putEnd _ a _ _, .map b => a = b
  | _, _ => False

/-- What is shown is what the argument is after the events `p` (a map: in any order). -/
def Truly (b : Nat → List UInt8) (m : Nat → Map Str Nat) (p : List Ev) : Arg → Shown → Prop
  | .str s, .str s' => s' = s
  | .bytes a, .bytes x => x = bytesAt b a p
  | .map a, .map es => es.Perm (mapAt m a p)
  | _, _ => False

/-- What is shown is made of pieces of what the argument was after the events `p` and of what was written to it by the events `q` that came next. -/
def Pieces (b : Nat → List UInt8) (m : Nat → Map Str Nat) (p q : List Ev) : Arg → Shown → Prop
  | .str s, .str s' => s' = s
  | .bytes a, .bytes x => x.length = (bytesAt b a p).length ∧
      ∀ i v, x[i]? = some v → (bytesAt b a p)[i]? = some v ∨ ∃ n, Ev.set n a i v ∈ q
  | .map a, .map es => (es.map (·.1)).Nodup ∧ ∀ k v, (k, v) ∈ es → (k, v) ∈ mapAt m a p ∨ ∃ n, Ev.putEnd n a k v ∈ q
  | _, _ => False

/-- After the events, goroutine `n` is inside a call of `Args` on span `sp`. -/
def Listing (tr : List Ev) (n sp : Nat) : Prop :=
  ∃ p q, tr = p ++ .call n sp :: q ∧ ∀ sh, .ret n sp sh ∉ q

/-- After the events, goroutine `n` is inside an assignment to the map at `a`. -/
def Assigning (tr : List Ev) (n a : Nat) : Prop :=
  ∃ p q k v, tr = p ++ .putBegin n a k v :: q ∧ .putEnd n a k v ∉ q

end Monkit.LiveArgs
