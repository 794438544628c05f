import Verif.Go.Sys
import Verif.Model.Tags

/-!
# The cached string of a tag set, at the granularity of machine words

`String` of tags.go fills the field `str` without a lock.  A string is two words, a pointer and a length; they are read and
written one at a time.  The order of the two is not fixed by the language and is an argument (of the writes) or free (of the
reads).  Accesses to single words are taken to be sequentially consistent, which the hardware does not promise either.
-/

namespace Monkit.TagsConc
open Go

/-- The two words of a string: where it points (the bytes there never change) and its length (the field of tags.go:36). -/
structure Words where
  ptr : Option Str
  len : Nat
  deriving DecidableEq

/-- What `strings.Builder.String` gives: an empty builder has no buffer (tags.go:105). -/
def words (s : Str) : Words := ⟨if s = [] then none else some s, s.length⟩

/-- One of the two words (tags.go:36). -/
inductive Half where
  | ptr
  | len
  deriving DecidableEq

/-- The other word (tags.go:36). -/
def Half.other : Half → Half
  | .ptr => .len
  | .len => .ptr

/-- Store one word of `v` into `w` (tags.go:105). -/
def Half.store (h : Half) (v w : Words) : Words :=
  match h with
  | .ptr => { w with ptr := v.ptr }
  | .len => { w with len := v.len }

/-- Where a goroutine is in `String` (tags.go:98-108). -/
inductive Pc where
  | idle
  /-- before `t.str == ""`, which reads the length (tags.go:102) -/
  | check
  /-- before `writeTags` (tags.go:103-104) -/
  | build
  /-- before the first word of `t.str = …` is written (tags.go:105) -/
  | store (v : Words)
  /-- before the other word is written (tags.go:105) -/
  | rest (h : Half) (v : Words)
  /-- before `return t.str` reads a word (tags.go:107) -/
  | load
  | gotPtr (p : Option Str)
  | gotLen (n : Nat)
  deriving DecidableEq

/-- A tag set shared by goroutines: the pairs, which nothing writes after construction, and the cache (tags.go:34-37). -/
structure State where
  all : Map Str Str
  str : Words
  thr : Nat → Pc

/-- Calls of `String` and what they return (tags.go:98-108). -/
inductive Event where
  | call (t : Nat)
  | ret (t : Nat) (w : Words)
  deriving DecidableEq

/-- A new tag set: `&TagSet{all: all}` (tags.go:80, 94). -/
def init (all : Map Str Str) : State := ⟨all, ⟨none, 0⟩, fun _ => .idle⟩

/-- tags.go:98-108 `String`, by any number of goroutines.  `may h`: the compiled code may write the word `h` first. -/
inductive Step (may : Half → Prop) : State → Option Event → State → Prop where
  | call (s : State) (t : Nat) : s.thr t = .idle → Step may s (some (.call t)) { s with thr := upd s.thr t .check }
  | hit (s : State) (t : Nat) : s.thr t = .check → s.str.len ≠ 0 → Step may s none { s with thr := upd s.thr t .load }
  | miss (s : State) (t : Nat) : s.thr t = .check → s.str.len = 0 → Step may s none { s with thr := upd s.thr t .build }
  | build (s : State) (t : Nat) (ord : List (Str × Str)) : s.thr t = .build → ord.Perm s.all →
      Step may s none { s with thr := upd s.thr t (.store (words (Tags.writeTags ord))) }
  | store (s : State) (t : Nat) (v : Words) (h : Half) : s.thr t = .store v → may h →
      Step may s none { s with str := h.store v s.str, thr := upd s.thr t (.rest h.other v) }
  | rest (s : State) (t : Nat) (v : Words) (h : Half) : s.thr t = .rest h v →
      Step may s none { s with str := h.store v s.str, thr := upd s.thr t .load }
  | loadPtr (s : State) (t : Nat) : s.thr t = .load → Step may s none { s with thr := upd s.thr t (.gotPtr s.str.ptr) }
  | loadLen (s : State) (t : Nat) : s.thr t = .load → Step may s none { s with thr := upd s.thr t (.gotLen s.str.len) }
  | retLen (s : State) (t : Nat) (p : Option Str) : s.thr t = .gotPtr p →
      Step may s (some (.ret t ⟨p, s.str.len⟩)) { s with thr := upd s.thr t .idle }
  | retPtr (s : State) (t : Nat) (n : Nat) : s.thr t = .gotLen n →
      Step may s (some (.ret t ⟨s.str.ptr, n⟩)) { s with thr := upd s.thr t .idle }

end Monkit.TagsConc
