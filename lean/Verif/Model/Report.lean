import Verif.Go.Sys
import Verif.Go.Map
import Verif.Go.StrOrd
import Verif.Model.Basic

/-!
# From recording to reporting: scopes, sources, records and Stats of a registry together

Goroutines get scopes by name, sources by name from scopes, record in sources and report the registry, all at once.
What a critical section does is one step: that the locks make it so is the subject of `RegScopes` (registry.go), `Scope`
(scope.go) and `Go.Mutex` (counter.go and the other sources).  All sources are of one kind here (`Scope` has the kinds), chained
sources and gauges are left out, and what a source holds is the list of what was recorded in it.
-/

namespace Monkit.Report
open Go

/-- One record, such as one `Inc` or one `Observe`, with a number of its own (counter.go:68-74, val.go:44-52). -/
structure Rec where
  num : Nat
  val : Int64
  deriving DecidableEq

/-- One entry of a report: the scope's name (tag "scope", scope.go:307-309), the source's name and what it held
(scope.go:311-313). -/
structure Line where
  scope : Str
  key : Str
  hist : List Rec
  deriving DecidableEq

/-- Calls: `r.ScopeNamed(n)` (registry.go:87), `s.Counter(key)` or the like (scope.go:248-260), one record in a source
(counter.go:68), `r.Stats` (registry.go:230).  Scopes and sources are numbers, their addresses. -/
inductive Op where
  | scopeNamed (n : Str)
  | source (x : Nat) (k : Str)
  | record (o : Nat) (r : Rec)
  | stats
  deriving DecidableEq

/-- What they return, or hand to the callback (registry.go:87-97, 230-235; scope.go:46-68). -/
inductive Res where
  | scope (x : Nat)
  | source (o : Nat)
  | done
  | lines (l : List Line)
  deriving DecidableEq

/-- Where a goroutine is (registry.go:87-97, 211-235; scope.go:46-68, 306-322). -/
inductive Pc where
  | idle
  /-- `ScopeNamed` before its critical section -/
  | scope (n : Str)
  /-- `newSource` before its look under the read lock (scope.go:49-51) -/
  | look (x : Nat) (k : Str)
  /-- and before its critical section (scope.go:57-65) -/
  | make (x : Nat) (k : Str)
  /-- before the record takes effect -/
  | record (o : Nat) (r : Rec)
  /-- `Scopes` before the copy (registry.go:212-217) -/
  | copy
  /-- between two scopes: those still to be visited, what was reported (registry.go:219-221) -/
  | scopes (todo : List (Str × Nat)) (out : List Line)
  /-- in the scope called `n`: the sources still to be asked (scope.go:311-313) -/
  | sources (n : Str) (cur : List (Str × Nat)) (todo : List (Str × Nat)) (out : List Line)
  /-- about to return -/
  | ret (op : Op) (res : Res)
  deriving DecidableEq

/-- Calls and returns (registry.go:87-97, 230-235; scope.go:46-68). -/
inductive Event where
  | call (t : Nat) (op : Op)
  | ret (t : Nat) (op : Op) (res : Res)
  deriving DecidableEq

/-- `r.scopes` (registry.go:35), `s.sources` of each scope (scope.go:29), what each source holds, and how many scopes, sources and
record calls there were.  `gotScopes` and `gotSrcs`: those that were returned to somebody. -/
structure State where
  scopes : Map Str Nat
  srcs : Nat → Map Str Nat
  hist : Nat → List Rec
  nextScope : Nat
  nextSrc : Nat
  nums : Nat
  gotScopes : List Nat
  gotSrcs : List Nat
  pc : Nat → Pc

/-- A new registry (registry.go:58-65). -/
def init : State := ⟨[], fun _ => [], fun _ => [], 0, 0, 0, [], [], fun _ => .idle⟩

/-- The scope a call returns (registry.go:92, 96). -/
def givenScope : Res → List Nat
  | .scope x => [x]
  | _ => []

/-- The source a call returns (scope.go:54, 60, 66). -/
def givenSrc : Res → List Nat
  | .source o => [o]
  | _ => []

/-- One critical section, or one call or return (registry.go:87-97, 211-235; scope.go:46-68, 306-322). -/
inductive Step : State → Option Event → State → Prop where
  | callScope (s : State) (t n) : s.pc t = .idle →
      Step s (some (.call t (.scopeNamed n))) { s with pc := upd s.pc t (.scope n) }
  /-- on a scope somebody was given -/
  | callSource (s : State) (t x k) : s.pc t = .idle → x ∈ s.gotScopes →
      Step s (some (.call t (.source x k))) { s with pc := upd s.pc t (.look x k) }
  /-- in a source somebody was given; calls are numbered -/
  | callRecord (s : State) (t o v) : s.pc t = .idle → o ∈ s.gotSrcs →
      Step s (some (.call t (.record o ⟨s.nums, v⟩)))
        { s with nums := s.nums + 1, pc := upd s.pc t (.record o ⟨s.nums, v⟩) }
  | callStats (s : State) (t) : s.pc t = .idle → Step s (some (.call t .stats)) { s with pc := upd s.pc t .copy }
  /-- registry.go:90-93 -/
  | scopeFound (s : State) (t n x) : s.pc t = .scope n → Map.get s.scopes n = some x →
      Step s none { s with pc := upd s.pc t (.ret (.scopeNamed n) (.scope x)) }
  /-- registry.go:94-96 -/
  | scopeNew (s : State) (t n) : s.pc t = .scope n → Map.get s.scopes n = none →
      Step s none { s with scopes := Map.set s.scopes n s.nextScope, nextScope := s.nextScope + 1
                           pc := upd s.pc t (.ret (.scopeNamed n) (.scope s.nextScope)) }
  /-- scope.go:49-55 -/
  | lookFound (s : State) (t x k o) : s.pc t = .look x k → Map.get (s.srcs x) k = some o →
      Step s none { s with pc := upd s.pc t (.ret (.source x k) (.source o)) }
  | lookNone (s : State) (t x k) : s.pc t = .look x k → Map.get (s.srcs x) k = none →
      Step s none { s with pc := upd s.pc t (.make x k) }
  /-- scope.go:58-61 -/
  | makeFound (s : State) (t x k o) : s.pc t = .make x k → Map.get (s.srcs x) k = some o →
      Step s none { s with pc := upd s.pc t (.ret (.source x k) (.source o)) }
  /-- scope.go:63-66 -/
  | makeNew (s : State) (t x k) : s.pc t = .make x k → Map.get (s.srcs x) k = none →
      Step s none { s with srcs := upd s.srcs x (Map.set (s.srcs x) k s.nextSrc), nextSrc := s.nextSrc + 1
                           pc := upd s.pc t (.ret (.source x k) (.source s.nextSrc)) }
  | record (s : State) (t o r) : s.pc t = .record o r →
      Step s none { s with hist := upd s.hist o (s.hist o ++ [r]), pc := upd s.pc t (.ret (.record o r) .done) }
  /-- registry.go:212-218: a copy in any order, then sorted by name -/
  | copy (s : State) (t d) : s.pc t = .copy → d.Perm s.scopes → d.Pairwise (fun a b => strLt b.1 a.1 = false) →
      Step s none { s with pc := upd s.pc t (.scopes d []) }
  /-- registry.go:219-220, 234 and scope.go:295-303: a copy of the sources in any order -/
  | enter (s : State) (t n x todo out cur) : s.pc t = .scopes ((n, x) :: todo) out → cur.Perm (s.srcs x) →
      Step s none { s with pc := upd s.pc t (.sources n cur todo out) }
  /-- scope.go:311-313: the source takes its own lock -/
  | ask (s : State) (t n k o cur todo out) : s.pc t = .sources n ((k, o) :: cur) todo out →
      Step s none { s with pc := upd s.pc t (.sources n cur todo (out ++ [⟨n, k, s.hist o⟩])) }
  | leave (s : State) (t n todo out) : s.pc t = .sources n [] todo out →
      Step s none { s with pc := upd s.pc t (.scopes todo out) }
  | finish (s : State) (t out) : s.pc t = .scopes [] out → Step s none { s with pc := upd s.pc t (.ret .stats (.lines out)) }
  | ret (s : State) (t op res) : s.pc t = .ret op res → Step s (some (.ret t op res))
        { s with gotScopes := givenScope res ++ s.gotScopes, gotSrcs := givenSrc res ++ s.gotSrcs, pc := upd s.pc t .idle }

end Monkit.Report
